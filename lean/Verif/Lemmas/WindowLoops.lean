import Verif.Lemmas.WindowPlaces

set_option linter.unusedSectionVars false
set_option linter.unusedSimpArgs false
set_option linter.unusedVariables false

/-! Helper lemmas: the loops of the model for time windows. -/

namespace Verif

open Script

variable {full : Prop} {P : Nat → Prop} {s s' : Script} {D : Nat → Prop} {adm : (Nat → Val) → Prop}

/-- A symbol for each of a list. -/
theorem each_ok {α β γ : Type} {f : α → Script → Res (Script × β)} {In : Script → α → γ → Prop} {Out : Script → β → γ → Prop}
    (hIn : ∀ {s s' a c}, Ext P s s' → In s a c → In s' a c) (hOut : ∀ {s s' b c}, Ext P s s' → Out s b c → Out s' b c)
    (hf : ∀ {s a c}, State full P s D adm → In s a c → ∃ s' b, f a s = .ok (s', b) ∧ State full P s' D adm ∧ Ext P s s' ∧ Out s' b c)
    {xs : List α} {cs : List γ} (S : State full P s D adm) (h : List.Forall₂ (In s) xs cs) :
    ∃ s' ys, Generators.each f xs s = .ok (s', ys) ∧ State full P s' D adm ∧ Ext P s s' ∧ List.Forall₂ (Out s') ys cs := by
  have key : ∀ {xs : List α} {cs : List γ} {s : Script} (acc : List β), State full P s D adm → List.Forall₂ (In s) xs cs →
      ∃ s' ys, xs.foldlM (fun p x => do
        let (s, y) ← f x p.1
        Res.ok (s, p.2 ++ [y])) (s, acc) = .ok (s', acc ++ ys) ∧ State full P s' D adm ∧ Ext P s s' ∧ List.Forall₂ (Out s') ys cs := by
    intro xs
    induction xs with
    | nil =>
      intro cs s acc S h
      cases h
      exact ⟨s, [], by simp [Res.pure_eq], S, Ext.refl, .nil⟩
    | cons x xs ih =>
      intro cs s acc S h
      cases h with
      | cons h hs =>
      obtain ⟨s1, b, e1, S1, x1, O1⟩ := hf S h
      obtain ⟨s2, ys, e2, S2, x2, F2⟩ := ih (acc ++ [b]) S1 (hs.imp fun _ _ h => hIn x1 h)
      refine ⟨s2, b :: ys, ?_, S2, x1.trans x2, .cons (hOut x2 O1) F2⟩
      rw [List.foldlM_cons, e1, Res.ok_bind]
      simp only [Res.ok_bind]
      rw [e2]
      simp
  obtain ⟨s', ys, e, r⟩ := key [] S h
  exact ⟨s', ys, e, r⟩

theorem addConstraints_ok {is : List Nat} {qs : List ((Nat → Val) → Bool)} (h : List.Forall₂ (Holds P s) is qs) (o : Option Nat) (cs : List Nat) :
    Generators.addConstraints ⟨s, o, cs⟩ is = .ok ⟨s, o, cs ++ is⟩ := by
  unfold Generators.addConstraints
  induction h generalizing cs with
  | nil => simp [Res.pure_eq]
  | cons h hs ih =>
    obtain ⟨z, k, h⟩ := h
    rw [List.foldlM_cons, addConstraint_ok h, Res.ok_bind, ih]
    simp

/-- `demand[route].sum() <= capacity`. -/
theorem load_ok {n demand cap r : Nat} {W : List Rat} {c : Rat} {g : (Nat → Val) → List Rat} (S : State full P s D adm) (hP : ∀ i, P i)
    (hn : 0 < n) (hr : IsRoute P adm n s r g) (hW : Table P s demand [(n : Int)] W) (hc : Computes P s cap fun _ => c) :
    ∃ s' i, Generators.load demand cap r s = .ok (s', i) ∧ State full P s' D adm ∧ Ext P s s' ∧ Holds P s' i fun A => decide (look W (g A) ≤ c) := by
  obtain ⟨s1, s2, e1, e2, S2, x2, l1, l2, C2⟩ := lookup_ok S (hP _) (hP _) hW hn hr.index
  obtain ⟨s3, e3, S3, x3, l3, C3⟩ := S2.lessEqual (hP _) C2 (hc.mono x2)
  refine ⟨s3, s2.length, ?_, S3, x2.trans x3, C3⟩
  unfold Generators.load
  simp only [e1, e2, e3, Res.ok_bind]

/-- When the vehicle is back. -/
def WindowsTables.home (d : WindowsTables) (n m : Nat) (l : List Rat) : Rat :=
  d.leave n l (m - 1) + at1 d.back (if 1 ≤ l.length then l.getD (l.length - 1) 0 else n)

/-- The symbols for a vehicle. -/
theorem timed_ok {n r size m : Nat} {c : Generators.WindowsSymbols} {d : WindowsTables} {g : (Nat → Val) → List Rat}
    (S : State full P s D adm) (hP : ∀ i, P i) (hr : IsRoute P adm n s r g) (hn : 0 < n) (hbig : (n : Int) + 1 < ssMax)
    (hc : WindowsConsts P n d c s) (hz : Computes P s size fun A => ((g A).length : Rat)) (hm0 : 0 < m) (hm : m ≤ n + 1)
    (cs hs : List Nat) :
    ∃ s' oks home, Generators.timed c m (⟨s, none, cs⟩, hs) (r, size) = .ok (⟨s', none, cs ++ oks⟩, hs ++ [home]) ∧ State full P s' D adm ∧
      Ext P s s' ∧ List.Forall₂ (Holds P s') oks ((List.range m).map fun k A => decide (d.leave n (g A) k ≤ at1 d.closes (stopAt n (g A) k))) ∧
      Computes P s' home fun A => d.home n m (g A) := by
  obtain ⟨s1, left, oks, e1, S1, x1, L1, F1⟩ := places_ok S hP hr hn hbig hc hz m hm
  obtain ⟨t, rfl, j, rfl, C1⟩ : ∃ t, left = some t ∧ ∃ j, m = j + 1 ∧ Computes P s1 t fun A => d.leave n (g A) j := by
    cases left with
    | none => simp only at L1; omega
    | some t => exact ⟨t, rfl, L1⟩
  obtain ⟨s2, e2, S2, x2, l2, H2⟩ := S1.lessEqual (hP _) (hc.one.mono x1) (hz.mono x1)
  obtain ⟨s3, i3, e3, S3, x3, I3⟩ := stopLast_ok S2 hP (hr.mono (x1.trans x2)) hn hbig (hc.helper.mono (x1.trans x2)) H2
  obtain ⟨s4, e4, S4, x4, l4, C4⟩ := look_ok S3 (hP _) (hc.back.mono (x1.trans (x2.trans x3))) I3
  obtain ⟨s5, e5, S5, x5, l5, C5⟩ := S4.numbers (hP _) .add (by simp) (C1.mono (x2.trans (x3.trans x4))) C4
  have y := x2.trans (x3.trans (x4.trans x5))
  have F5 := F1.imp (S := Holds P s5) fun _ _ h => h.mono y
  refine ⟨s5, oks, s4.length, ?_, S5, x1.trans y, F5, ?_⟩
  · unfold Generators.timed
    rw [e1, Res.ok_bind]
    dsimp only
    rw [e2, Res.ok_bind]
    dsimp only
    rw [e3, Res.ok_bind]
    dsimp only
    simp only [Generators.homecoming, e4, Res.ok_bind, e5]
    rw [addConstraints_ok F5]
    rfl
  · refine Eq.subst (motive := Computes P s5 _) ?_ C5
    funext A
    simp only [WindowsTables.home, at1, decide_eq_true_eq, Nat.one_le_cast, Nat.add_sub_cancel]
    rfl

/-- The symbols for all the vehicles. -/
theorem timeds_ok {n m : Nat} {c : Generators.WindowsSymbols} {d : WindowsTables} (hP : ∀ i, P i) (hn : 0 < n) (hbig : (n : Int) + 1 < ssMax)
    (hm0 : 0 < m) (hm : m ≤ n + 1) : ∀ {rs : List (Nat × Nat)} {gs : List ((Nat → Val) → List Rat)} {s : Script} (S : State full P s D adm)
    (hr : List.Forall₂ (fun r g => IsRoute P adm n s r.1 g ∧ Computes P s r.2 fun A => ((g A).length : Rat)) rs gs)
    (hc : WindowsConsts P n d c s) (cs hs : List Nat),
    ∃ s' oks homes, rs.foldlM (Generators.timed c m) (⟨s, none, cs⟩, hs) = .ok (⟨s', none, cs ++ oks⟩, hs ++ homes) ∧ State full P s' D adm ∧
      Ext P s s' ∧
      List.Forall₂ (Holds P s') oks (gs.flatMap fun g => (List.range m).map fun k A => decide (d.leave n (g A) k ≤ at1 d.closes (stopAt n (g A) k))) ∧
      List.Forall₂ (fun i g => Computes P s' i fun A => d.home n m (g A)) homes gs := by
  intro rs
  induction rs with
  | nil =>
    intro gs s S hr hc cs hs
    cases hr
    exact ⟨s, [], [], by simp [Res.pure_eq], S, Ext.refl, .nil, .nil⟩
  | cons r rs ih =>
    intro gs s S hr hc cs hs
    cases hr with
    | cons h hr =>
    obtain ⟨s1, oks, home, e1, S1, x1, F1, C1⟩ := timed_ok S hP h.1 hn hbig hc h.2 hm0 hm cs hs
    obtain ⟨s2, oks2, homes, e2, S2, x2, F2, C2⟩ := ih S1 (hr.imp fun _ _ h => ⟨h.1.mono x1, h.2.mono x1⟩) (hc.mono x1) (cs ++ oks) (hs ++ [home])
    refine ⟨s2, oks ++ oks2, home :: homes, ?_, S2, x1.trans x2, ?_, .cons (C1.mono x2) C2⟩
    · rw [List.foldlM_cons, e1, Res.ok_bind, e2]
      simp
    · rw [List.flatMap_cons]
      exact List.rel_append (F1.imp fun _ _ h => h.mono x2) F2

theorem Script.IsIndex.weaken {n i : Nat} {t : List Int} {c : Claim} {size : SizeInfo} {const : Option (Arr Rat)} {g : (Nat → Val) → List Rat}
    (h : IsIndex P s adm n i t c size const g) : IsIndex P s adm (n + 1) i t c size const g :=
  ⟨h.has, h.integral, h.low, h.high.trans (by push_cast; linarith), h.values⟩

/-- `table[index].sum()`. -/
theorem lookupMore_ok {n i x : Nat} {T : List Rat} {c : Claim} {z : SizeInfo} {k : Option (Arr Rat)} {g : (Nat → Val) → List Rat} (S : State full P s D adm)
    (hP : ∀ i, P i) (hT : Table P s x [((n + 1 : Nat) : Int)] T) (hi : IsIndex P s adm (n + 1) i [-1] c z k g) :
    ∃ s1 s2, s.add (.advanced [true]) [x, i] = .ok (s1, s.length) ∧
      s1.add (.kind (.reduce .sum 0)) [s.length] = .ok (s2, s1.length) ∧ State full P s2 D adm ∧ Ext P s s2 ∧
      Computes P s2 s1.length fun A => look T (g A) := by
  obtain ⟨w, claim, z, h⟩ := hT
  obtain ⟨s1, e1, N1⟩ := S.advancedOne (hP _) h (by
    rintro _ ⟨⟩
    exact ⟨rfl, w, fun _ _ => rfl⟩) hi (by simp) (Nat.succ_pos n)
  obtain ⟨s2, c, e2, N2⟩ := N1.state.sum (hP _) N1.has (by simp [GoodShape])
  exact ⟨s1, s2, e1, e2, N2.state, N1.ext.trans N2.ext, _, _, _, N2.has⟩

/-- The legs as the objective has them: backwards. -/
def WindowsTables.legs (d : WindowsTables) (n : Nat) (l : List Rat) : Rat := (l.tail.zipWith (at2 n d.cust) l.dropLast).sum

/-- What a route adds to the objective. -/
theorem travel_ok {n r : Nat} {c : Generators.WindowsSymbols} {d : WindowsTables} {g : (Nat → Val) → List Rat}
    (S : State full P s D adm) (hP : ∀ i, P i) (hr : IsRoute P adm n s r g) (hbig : (n : Int) + 1 < ssMax)
    (hc : WindowsConsts P n d c s) (ts : List Nat) :
    ∃ s' i1 i2 i3, Generators.travel c (s, ts) r = .ok (s', ts ++ [i1, i2, i3]) ∧ State full P s' D adm ∧ Ext P s s' ∧
      (Computes P s' i1 fun A => look d.out ((g A).take 1)) ∧ (Computes P s' i2 fun A => look d.back ((g A).drop ((g A).length - 1))) ∧
      Computes P s' i3 fun A => d.legs n (g A) := by
  have hbig' : (n : Int) ≤ ssMax := by omega
  obtain ⟨s1, e1, S1, x1, l1, I1⟩ := hr.slice S (hP _) hbig' none (some 1) rfl (size_first r) (by simp [BasicIndex.Fits]; decide)
  obtain ⟨s2, s3, e2, e3, S3, x3, C3⟩ := lookupMore_ok S1 hP (hc.out.mono x1) I1.weaken
  have y3 := x1.trans x3
  obtain ⟨s4, e4, S4, x4, l4, I4⟩ := (hr.mono y3).slice S3 (hP _) hbig' (some (-1)) none rfl (size_last r) (by simp [BasicIndex.Fits]; decide)
  obtain ⟨s5, s6, e5, e6, S6, x6, C6⟩ := lookupMore_ok S4 hP (hc.back.mono (y3.trans x4)) I4.weaken
  have y6 := y3.trans (x4.trans x6)
  obtain ⟨s7, e7, S7, x7, l7, I7⟩ := (hr.mono y6).slice S6 (hP _) hbig' (some 1) none rfl (size_tail r) (by simp [BasicIndex.Fits]; decide)
  obtain ⟨s8, e8, S8, x8, l8, I8⟩ := (hr.mono (y6.trans x7)).slice S7 (hP _) hbig' none (some (-1)) rfl (size_init r)
    (by simp [BasicIndex.Fits]; decide)
  have y8 := y6.trans (x7.trans x8)
  obtain ⟨w, claim, z, hT'⟩ := hc.cust.mono y8
  obtain ⟨s9, e9, N9⟩ := S8.advancedTwo (hP _) hT' (by
    rintro _ ⟨⟩
    exact ⟨rfl, w, fun _ _ => rfl⟩) (I7.mono x8).weaken I8.weaken (by simp) rfl (by simp [SizeInfo.beq]) (by
      intro A hA
      rw [sliceOf_init, sliceOf_tail]
      simp) (Nat.succ_pos n) (Nat.succ_pos n)
  obtain ⟨s10, c10, e10, N10⟩ := N9.state.sum (hP _) N9.has (by simp [GoodShape])
  refine ⟨s10, s2.length, s5.length, s9.length, ?_, N10.state, y8.trans (N9.ext.trans N10.ext), ?_, ?_, ?_⟩
  · unfold Generators.travel
    simp only [e1, e2, e3, e4, e5, e6, e7, e8, e9, e10, Res.ok_bind]
  · have := C3.mono (x4.trans (x6.trans (x7.trans (x8.trans (N9.ext.trans N10.ext)))))
    simpa only [sliceOf_first] using this
  · have := C6.mono (x7.trans (x8.trans (N9.ext.trans N10.ext)))
    simpa only [sliceOf_last] using this
  · have : Computes P s10 s9.length _ := ⟨_, _, _, N10.has⟩
    simp only [sliceOf_init, sliceOf_tail] at this
    exact this

theorem travels_ok {n : Nat} {c : Generators.WindowsSymbols} {d : WindowsTables} (hP : ∀ i, P i) (hbig : (n : Int) + 1 < ssMax) :
    ∀ {rs : List Nat} {gs : List ((Nat → Val) → List Rat)} {s : Script} (S : State full P s D adm)
    (hr : List.Forall₂ (IsRoute P adm n s) rs gs) (hc : WindowsConsts P n d c s) (ts : List Nat),
    ∃ s' is, rs.foldlM (Generators.travel c) (s, ts) = .ok (s', ts ++ is) ∧ State full P s' D adm ∧ Ext P s s' ∧
      List.Forall₂ (Computes P s') is (gs.flatMap fun g => [fun A => look d.out ((g A).take 1), fun A => look d.back ((g A).drop ((g A).length - 1)),
        fun A => d.legs n (g A)]) := by
  intro rs
  induction rs with
  | nil =>
    intro gs s S hr hc ts
    cases hr
    exact ⟨s, [], by simp [Res.pure_eq], S, Ext.refl, .nil⟩
  | cons r rs ih =>
    intro gs s S hr hc ts
    cases hr with
    | cons h hs =>
    obtain ⟨s1, i1, i2, i3, e1, S1, x1, C1, C2, C3⟩ := travel_ok S hP h hbig hc ts
    obtain ⟨s2, is, e2, S2, x2, F2⟩ := ih S1 (hs.imp fun _ _ h => h.mono x1) (hc.mono x1) (ts ++ [i1, i2, i3])
    refine ⟨s2, i1 :: i2 :: i3 :: is, ?_, S2, x1.trans x2, .cons (C1.mono x2) (.cons (C2.mono x2) (.cons (C3.mono x2) F2))⟩
    rw [List.foldlM_cons, e1, Res.ok_bind, e2]
    simp

end Verif
