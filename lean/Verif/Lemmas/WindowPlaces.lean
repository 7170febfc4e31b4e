import Verif.Lemmas.WindowRules

set_option linter.unusedSectionVars false
set_option linter.unusedSimpArgs false
set_option linter.unusedVariables false

/-! Helper lemmas: what the symbols for the time windows of a route compute. -/

namespace Verif

open Script

variable {full : Prop} {P : Nat → Prop} {s s' : Script} {D : Nat → Prop} {adm : (Nat → Val) → Prop}

/-- The numbers in the constants. -/
structure WindowsTables where
  cust : List Rat
  out : List Rat
  back : List Rat
  opens : List Rat
  closes : List Rat
  service : List Rat

/-- The constants have these numbers. -/
structure WindowsConsts (P : Nat → Prop) (n : Nat) (d : WindowsTables) (c : Generators.WindowsSymbols) (s : Script) : Prop where
  cust : Table P s c.cust [((n + 1 : Nat) : Int), ((n + 1 : Nat) : Int)] d.cust
  out : Table P s c.out [((n + 1 : Nat) : Int)] d.out
  back : Table P s c.back [((n + 1 : Nat) : Int)] d.back
  opens : Table P s c.opens [((n + 1 : Nat) : Int)] d.opens
  closes : Table P s c.closes [((n + 1 : Nat) : Int)] d.closes
  service : Table P s c.service [((n + 1 : Nat) : Int)] d.service
  one : Computes P s c.one fun _ => 1
  helper : IsHelper P n s c.helper

theorem WindowsConsts.mono {n : Nat} {d : WindowsTables} {c : Generators.WindowsSymbols} (h : WindowsConsts P n d c s) (e : Ext P s s') :
    WindowsConsts P n d c s' :=
  ⟨h.cust.mono e, h.out.mono e, h.back.mono e, h.opens.mono e, h.closes.mono e, h.service.mono e, h.one.mono e, h.helper.mono e⟩

/-- The customer in place `k`. -/
def stopAt (n : Nat) (l : List Rat) (k : Nat) : Rat := if k < l.length then l.getD k 0 else n

/-- The customer before, if there is one in place `k`. -/
def stopBefore (n : Nat) (l : List Rat) (k : Nat) : Rat := if k < l.length then l.getD (k - 1) 0 else n

def at1 (T : List Rat) (v : Rat) : Rat := T.getD (toSS v).toNat 0

def at2 (n : Nat) (T : List Rat) (u v : Rat) : Rat := T.getD (toSS u * (n + 1 : Nat) + toSS v).toNat 0

/-- When the vehicle leaves place `k`. -/
def WindowsTables.leave (d : WindowsTables) (n : Nat) (l : List Rat) : Nat → Rat
  | 0 => Max.max (at1 d.out (stopAt n l 0)) (at1 d.opens (stopAt n l 0)) + at1 d.service (stopAt n l 0)
  | k + 1 => Max.max (d.leave n l k + at2 n d.cust (stopBefore n l (k + 1)) (stopAt n l (k + 1))) (at1 d.opens (stopAt n l (k + 1))) +
      at1 d.service (stopAt n l (k + 1))

theorem maximum_func (x y : Rat) : BinaryOp.maximum.func x y = Max.max x y := by
  show (if x < y then y else x) = _
  rw [max_def]
  split_ifs <;> first | rfl | linarith

theorem sliceOf_one (k : Nat) (l : List Rat) : sliceOf (some (k : Int)) (some ((k : Int) + 1)) l = (l.drop k).take 1 := by
  have hlo : sliceLo (some (k : Int)) (some ((k : Int) + 1)) l.length = Min.min k l.length := by
    unfold sliceLo pyIndices
    simp only [Int.reduceLT, if_false]
    split_ifs <;> omega
  have hhi : sliceHi (some (k : Int)) (some ((k : Int) + 1)) l.length = Min.min (k + 1) l.length := by
    unfold sliceHi pyIndices
    simp only [Int.reduceLT, if_false]
    split_ifs <;> omega
  unfold sliceOf
  rw [hlo, hhi]
  rcases Nat.lt_or_ge k l.length with h | h
  · rw [Nat.min_eq_left h.le, Nat.min_eq_left h, ← take_drop_comm', show Nat.succ k - k = 1 from by omega]
  · rw [Nat.min_eq_right h, List.drop_eq_nil_of_le (by simp), List.drop_eq_nil_of_le h]
    rfl

theorem sum_drop_one (k : Nat) (l : List Rat) : ((l.drop k).take 1).sum = l.getD k 0 := by
  rcases Nat.lt_or_ge k l.length with h | h
  · rw [getD_of_lt h, List.drop_eq_getElem_cons h]
    simp only [List.take_succ_cons, List.take_zero, List.sum_cons, List.sum_nil, add_zero]
  · rw [List.drop_eq_nil_of_le h, List.getD_eq_getElem?_getD, List.getElem?_eq_none h]
    simp

theorem length_drop_one {n : Nat} (k : Nat) (l : List Rat) (h : l.length ≤ n) : ((l.drop k).take 1).length ≤ Min.min (k + 1) n - k := by
  rw [List.length_take, List.length_drop]
  omega

/-- `where(condition, route[k:k+1].sum(), range_helper[-1])`. -/
theorem stopAt_ok {n r condition k : Nat} {c : Generators.WindowsSymbols} {q : (Nat → Val) → Bool} {g : (Nat → Val) → List Rat}
    (S : State full P s D adm) (hP : ∀ i, P i) (hr : IsRoute P adm n s r g) (hn : 0 < n) (hbig : (n : Int) + 1 < ssMax)
    (hh : IsHelper P n s c.helper) (hq : Holds P s condition q) (hk : k ≤ n) :
    ∃ s' i, Generators.stop c r condition (some (k : Int)) (some ((k : Int) + 1)) s = .ok (s', i) ∧ State full P s' D adm ∧ Ext P s s' ∧
      IsStop P adm n s' i fun A => if q A = true then (g A).getD k 0 else n := by
  obtain ⟨s', i, e, S', x, I⟩ := stop_ok (m := Min.min (k + 1) n - k) S hP hr hn hbig hh hq (some (k : Int)) (some ((k : Int) + 1))
    (sl := ⟨k, k + 1, 1⟩) rfl (z := ⟨some r, 1, -k, none, some (k + 1)⟩) (by
      rcases Nat.eq_zero_or_pos k with rfl | h
      · exact size_first r
      · exact size_one r k h (by omega)) (by
      simp only [BasicIndex.Fits, Option.mem_def, Option.some.injEq, forall_eq', reduceCtorEq, IsSS, ssMin]
      refine ⟨⟨?_, ?_⟩, ⟨?_, ?_⟩, fun _ h => h.elim⟩ <;> omega) (fun sizes h => known_one h hk) (by omega) (fun A hA => by
      rw [sliceOf_one]
      exact length_drop_one k _ (hr.short A hA))
  refine ⟨s', i, e, S', x, ?_⟩
  simpa only [sliceOf_one, sum_drop_one] using I

/-- `where(condition, route[:1].sum(), range_helper[-1])`. -/
theorem stopFirst_ok {n r condition : Nat} {c : Generators.WindowsSymbols} {q : (Nat → Val) → Bool} {g : (Nat → Val) → List Rat}
    (S : State full P s D adm) (hP : ∀ i, P i) (hr : IsRoute P adm n s r g) (hn : 0 < n) (hbig : (n : Int) + 1 < ssMax)
    (hh : IsHelper P n s c.helper) (hq : Holds P s condition q) :
    ∃ s' i, Generators.stop c r condition none (some 1) s = .ok (s', i) ∧ State full P s' D adm ∧ Ext P s s' ∧
      IsStop P adm n s' i fun A => if q A = true then (g A).getD 0 0 else n := by
  obtain ⟨s', i, e, S', x, I⟩ := stop_ok (m := Min.min (0 + 1) n - 0) S hP hr hn hbig hh hq none (some 1) rfl (size_first r)
    (by simp [BasicIndex.Fits]; decide) (fun sizes h => known_one h (Nat.zero_le n)) (by omega) (fun A hA => by
      rw [sliceOf_first, List.length_take]
      have := hr.short A hA
      omega)
  refine ⟨s', i, e, S', x, ?_⟩
  have h : ∀ l : List Rat, (l.take 1).sum = l.getD 0 0 := fun l => by simpa using sum_drop_one 0 l
  simpa only [sliceOf_first, h] using I

/-- `where(condition, route[-1:].sum(), range_helper[-1])`. -/
theorem stopLast_ok {n r condition : Nat} {c : Generators.WindowsSymbols} {q : (Nat → Val) → Bool} {g : (Nat → Val) → List Rat}
    (S : State full P s D adm) (hP : ∀ i, P i) (hr : IsRoute P adm n s r g) (hn : 0 < n) (hbig : (n : Int) + 1 < ssMax)
    (hh : IsHelper P n s c.helper) (hq : Holds P s condition q) :
    ∃ s' i, Generators.stop c r condition (some (-1)) none s = .ok (s', i) ∧ State full P s' D adm ∧ Ext P s s' ∧
      IsStop P adm n s' i fun A => if q A = true then (g A).getD ((g A).length - 1) 0 else n := by
  obtain ⟨s', i, e, S', x, I⟩ := stop_ok (m := Min.min (0 + 1) n - 0) S hP hr hn hbig hh hq (some (-1)) none rfl (size_last r)
    (by simp [BasicIndex.Fits]; decide) (fun sizes h => known_one h (Nat.zero_le n)) (by omega) (fun A hA => by
      rw [sliceOf_last, List.length_drop]
      have := hr.short A hA
      omega)
  refine ⟨s', i, e, S', x, ?_⟩
  have h : ∀ l : List Rat, (l.drop (l.length - 1)).sum = l.getD (l.length - 1) 0 := fun l => by
    rw [← sum_drop_one, List.take_of_length_le (by rw [List.length_drop]; omega)]
  simpa only [sliceOf_last, h] using I

/-- `size >= range_helper[k] + one`. -/
theorem reaches_ok {n size k : Nat} {c : Generators.WindowsSymbols} {len : (Nat → Val) → Nat}
    (S : State full P s D adm) (hP : ∀ i, P i) (hbig : (n : Int) + 1 < ssMax) (hh : IsHelper P n s c.helper)
    (h1 : Computes P s c.one fun _ => 1) (hz : Computes P s size fun A => (len A : Rat)) (hk : k ≤ n) :
    ∃ s' i, Generators.reaches c size k s = .ok (s', i) ∧ State full P s' D adm ∧ Ext P s s' ∧ Holds P s' i fun A => decide (k < len A) := by
  obtain ⟨s1, e1, S1, x1, l1, C1⟩ := hh.at S (hP _) (by omega) hk
  obtain ⟨s2, e2, S2, x2, l2, C2⟩ := S1.numbers (hP _) .add (by simp) C1 (h1.mono x1)
  obtain ⟨s3, e3, S3, x3, l3, C3⟩ := S2.lessEqual (hP _) C2 (hz.mono (x1.trans x2))
  refine ⟨s3, s2.length, ?_, S3, x1.trans (x2.trans x3), ?_⟩
  · unfold Generators.reaches
    simp only [e1, e2, e3, Res.ok_bind]
  · have e : (fun A : Nat → Val => decide (BinaryOp.add.func (k : Rat) 1 ≤ (len A : Rat))) = fun A => decide (k < len A) := by
      funext A
      congr 1
      show ((k : Rat) + 1 ≤ len A) = _
      rw [eq_iff_iff]
      exact_mod_cast Nat.succ_le_iff
    rw [e] at C3
    exact C3

/-- The symbols for the place `k`: the time before, and whether the place is left in time. -/
theorem place_ok {n r size k : Nat} {c : Generators.WindowsSymbols} {d : WindowsTables} {g : (Nat → Val) → List Rat} {left : Option Nat}
    {oks : List Nat} (S : State full P s D adm) (hP : ∀ i, P i) (hr : IsRoute P adm n s r g) (hn : 0 < n) (hbig : (n : Int) + 1 < ssMax)
    (hc : WindowsConsts P n d c s) (hz : Computes P s size fun A => ((g A).length : Rat)) (hk : k ≤ n)
    (hleft : match left with
      | none => k = 0
      | some t => ∃ j, k = j + 1 ∧ Computes P s t fun A => d.leave n (g A) j) :
    ∃ s' t ok, Generators.place c r size (s, left, oks) k = .ok (s', some t, oks ++ [ok]) ∧ State full P s' D adm ∧ Ext P s s' ∧
      (Computes P s' t fun A => d.leave n (g A) k) ∧
      Holds P s' ok fun A => decide (d.leave n (g A) k ≤ at1 d.closes (stopAt n (g A) k)) := by
  obtain ⟨s1, i1, e1, S1, x1, H1⟩ := reaches_ok (len := fun A => (g A).length) S hP hbig hc.helper hc.one hz hk
  have hserve : ∃ s2 t here, Generators.serve c r i1 k left s1 = .ok (s2, t, here) ∧ State full P s2 D adm ∧ Ext P s1 s2 ∧
      IsStop P adm n s2 here (fun A => stopAt n (g A) k) ∧
      Computes P s2 t fun A => d.leave n (g A) k - at1 d.service (stopAt n (g A) k) := by
    cases left with
    | none =>
      simp only at hleft
      subst hleft
      obtain ⟨s2, i2, e2, S2, x2, I2⟩ := stopFirst_ok S1 hP (hr.mono x1) hn hbig (hc.helper.mono x1) H1
      obtain ⟨s3, e3, S3, x3, l3, C3⟩ := look_ok S2 (hP _) (hc.out.mono (x1.trans x2)) I2
      obtain ⟨s4, e4, S4, x4, l4, C4⟩ := look_ok S3 (hP _) (hc.opens.mono (x1.trans (x2.trans x3))) (I2.mono x3)
      obtain ⟨s5, e5, S5, x5, l5, C5⟩ := S4.numbers (hP _) .maximum (by simp) (C3.mono x4) C4
      refine ⟨s5, s4.length, i2, ?_, S5, x2.trans (x3.trans (x4.trans x5)), ?_, ?_⟩
      · unfold Generators.serve
        simp only [e2, e3, e4, e5, Res.ok_bind]
      · have := I2.mono (x3.trans (x4.trans x5))
        simpa only [stopAt, decide_eq_true_eq] using this
      · refine Eq.subst (motive := Computes P s5 _) ?_ C5
        funext A
        simp only [maximum_func, WindowsTables.leave, stopAt, decide_eq_true_eq, at1]
        ring
    | some t =>
      obtain ⟨j, rfl, C⟩ := hleft
      obtain ⟨s2, i2, e2, S2, x2, I2⟩ := stopAt_ok S1 hP (hr.mono x1) hn hbig (hc.helper.mono x1) H1 (show j ≤ n by omega)
      obtain ⟨s3, i3, e3, S3, x3, I3⟩ := stopAt_ok S2 hP (hr.mono (x1.trans x2)) hn hbig (hc.helper.mono (x1.trans x2)) (H1.mono x2) hk
      obtain ⟨s4, e4, S4, x4, l4, C4⟩ := look2_ok S3 (hP _) (hc.cust.mono (x1.trans (x2.trans x3))) (I2.mono x3) I3
      obtain ⟨s5, e5, S5, x5, l5, C5⟩ := S4.numbers (hP _) .add (by simp) (C.mono (x1.trans (x2.trans (x3.trans x4)))) C4
      obtain ⟨s6, e6, S6, x6, l6, C6⟩ := look_ok S5 (hP _) (hc.opens.mono (x1.trans (x2.trans (x3.trans (x4.trans x5))))) (I3.mono (x4.trans x5))
      obtain ⟨s7, e7, S7, x7, l7, C7⟩ := S6.numbers (hP _) .maximum (by simp) (C5.mono x6) C6
      have y := x4.trans (x5.trans (x6.trans x7))
      refine ⟨s7, s6.length, i3, ?_, S7, x2.trans (x3.trans y), ?_, ?_⟩
      · unfold Generators.serve
        have h1 : (((j + 1 : Nat) : Int) - 1) = j := by push_cast; ring
        have h2 : ((j + 1 : Nat) : Int) = (j : Int) + 1 := by push_cast; ring
        simp only [h1]
        rw [h2, e2, Res.ok_bind]
        dsimp only
        rw [← h2, e3, Res.ok_bind]
        dsimp only
        simp only [e4, e5, e6, e7, Res.ok_bind]
      · have := I3.mono y
        simpa only [stopAt, decide_eq_true_eq] using this
      · refine Eq.subst (motive := Computes P s7 _) ?_ C7
        funext A
        simp only [maximum_func, WindowsTables.leave, stopAt, stopBefore, decide_eq_true_eq, at1, at2, Nat.add_sub_cancel]
        show Max.max (_ + _) _ = _
        ring
  obtain ⟨s2, t, here, e2, S2, x2, I2, C2⟩ := hserve
  obtain ⟨s3, e3, S3, x3, l3, C3⟩ := look_ok S2 (hP _) (hc.service.mono (x1.trans x2)) I2
  obtain ⟨s4, e4, S4, x4, l4, C4⟩ := S3.numbers (hP _) .add (by simp) (C2.mono x3) C3
  obtain ⟨s5, e5, S5, x5, l5, C5⟩ := look_ok S4 (hP _) (hc.closes.mono (x1.trans (x2.trans (x3.trans x4)))) (I2.mono (x3.trans x4))
  have hC4 : Computes P s4 s3.length fun A => d.leave n (g A) k := by
    refine Eq.subst (motive := Computes P s4 _) ?_ C4
    funext A
    show _ - _ + at1 d.service _ = _
    ring
  obtain ⟨s6, e6, S6, x6, l6, C6⟩ := S5.lessEqual (hP _) (hC4.mono x5) C5
  refine ⟨s6, s3.length, s5.length, ?_, S6, x1.trans (x2.trans (x3.trans (x4.trans (x5.trans x6)))), hC4.mono (x5.trans x6), C6⟩
  unfold Generators.place
  simp only [e1, e2, e3, e4, e5, e6, Res.ok_bind]

/-- The symbols for the first `m` places. -/
theorem places_ok {n r size : Nat} {c : Generators.WindowsSymbols} {d : WindowsTables} {g : (Nat → Val) → List Rat}
    (S : State full P s D adm) (hP : ∀ i, P i) (hr : IsRoute P adm n s r g) (hn : 0 < n) (hbig : (n : Int) + 1 < ssMax)
    (hc : WindowsConsts P n d c s) (hz : Computes P s size fun A => ((g A).length : Rat)) : ∀ m ≤ n + 1,
    ∃ s' left oks, (List.range m).foldlM (Generators.place c r size) (s, none, []) = .ok (s', left, oks) ∧ State full P s' D adm ∧
      Ext P s s' ∧ (match left with
        | none => m = 0
        | some t => ∃ j, m = j + 1 ∧ Computes P s' t fun A => d.leave n (g A) j) ∧
      List.Forall₂ (Holds P s') oks
        ((List.range m).map fun k A => decide (d.leave n (g A) k ≤ at1 d.closes (stopAt n (g A) k))) := by
  intro m
  induction m with
  | zero => exact fun _ => ⟨s, none, [], rfl, S, Ext.refl, rfl, .nil⟩
  | succ m ih =>
    intro hm
    obtain ⟨s1, left, oks, e1, S1, x1, L1, F1⟩ := ih (by omega)
    obtain ⟨s2, t, ok, e2, S2, x2, C2, O2⟩ := place_ok (oks := oks) S1 hP (hr.mono x1) hn hbig (hc.mono x1) (hz.mono x1) (show m ≤ n by omega) L1
    refine ⟨s2, some t, oks ++ [ok], ?_, S2, x1.trans x2, ⟨m, rfl, C2⟩, ?_⟩
    · rw [List.range_succ, List.foldlM_append, e1, Res.ok_bind, List.foldlM_cons, e2, Res.ok_bind]
      rfl
    · rw [List.range_succ, List.map_append]
      exact List.rel_append (F1.imp fun _ _ h => h.mono x2) (.cons O2 .nil)

end Verif
