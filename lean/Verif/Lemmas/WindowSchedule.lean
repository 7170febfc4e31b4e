import Verif.Lemmas.WindowLoops
import Verif.Spec.ProblemsWindows

set_option linter.unusedSectionVars false
set_option linter.unusedSimpArgs false
set_option linter.unusedVariables false

/-! Helper lemmas: the times the symbols compute are those of the earliest schedule. -/

namespace Verif

namespace TimedRouting

/-- When a vehicle leaves place `k` at the earliest, or the last place if there are fewer. -/
def leaves (p : TimedRouting) : Nat → Rat → Nat → List Nat → Rat
  | 0, now, a, _ => max now (p.opens a) + p.service a
  | _ + 1, now, a, [] => max now (p.opens a) + p.service a
  | k + 1, now, a, b :: l => p.leaves k (max now (p.opens a) + p.service a + p.dist a b) b l

theorem leaves_succ (p : TimedRouting) : ∀ (k : Nat) (now : Rat) (a : Nat) (l : List Nat), p.leaves (k + 1) now a l =
    if k < l.length then max (p.leaves k now a l + p.dist ((a :: l).getD k 0) (l.getD k 0)) (p.opens (l.getD k 0)) + p.service (l.getD k 0)
    else p.leaves k now a l
  | 0, now, a, [] => by simp [leaves]
  | 0, now, a, b :: l => by simp [leaves]
  | k + 1, now, a, [] => by simp [leaves]
  | k + 1, now, a, b :: l => by
    rw [show p.leaves (k + 1 + 1) now a (b :: l) = p.leaves (k + 1) (max now (p.opens a) + p.service a + p.dist a b) b l from rfl,
      leaves_succ p k]
    simp only [List.length_cons, Nat.add_lt_add_iff_right, List.getD_cons_succ, leaves]

theorem leaves_departure (p : TimedRouting) : ∀ (k : Nat) (now : Rat) (a : Nat) (l : List Nat), l.length ≤ k → p.leaves k now a l = p.departure now a l
  | 0, now, a, [], _ => rfl
  | k + 1, now, a, [], _ => rfl
  | k + 1, now, a, b :: l, h => leaves_departure p k _ b l (by simpa using h)

theorem leaves_nonneg (p : TimedRouting) {n : Nat} (ho : ∀ i < n, 0 ≤ p.opens i) (hs : ∀ i < n, 0 ≤ p.service i) : ∀ (k : Nat) (now : Rat) (a : Nat)
    (l : List Nat), (∀ i ∈ a :: l, i < n) → 0 ≤ p.leaves k now a l
  | 0, now, a, l, h => add_nonneg (le_trans (ho a (h a (by simp))) (le_max_right _ _)) (hs a (h a (by simp)))
  | k + 1, now, a, [], h => add_nonneg (le_trans (ho a (h a (by simp))) (le_max_right _ _)) (hs a (h a (by simp)))
  | k + 1, now, a, b :: l, h => leaves_nonneg p ho hs k _ b l fun i hi => h i (by simp at hi ⊢; tauto)

theorem InTime.mono {p : TimedRouting} {now now' : Rat} {a : Nat} {l : List Nat} (h : p.InTime now a l) (h' : now' ≤ now) : p.InTime now' a l := by
  cases l with
  | nil =>
    obtain ⟨t, h1, h2⟩ := h
    exact ⟨t, h'.trans h1, h2⟩
  | cons b l =>
    obtain ⟨t, h1, h2⟩ := h
    exact ⟨t, h'.trans h1, h2⟩

/-- If a vehicle can be in time, then by serving everyone as early as possible. -/
theorem inTime_iff (p : TimedRouting) : ∀ (l : List Nat) (now : Rat) (a : Nat), p.InTime now a l ↔
    (∀ k < l.length + 1, p.leaves k now a l ≤ p.closes ((a :: l).getD k 0)) ∧
      p.departure now a l + p.back ((a :: l).getD l.length 0) ≤ p.depotCloses
  | [], now, a => by
    constructor
    · rintro ⟨t, h1, h2, h3, h4⟩
      have := max_le h1 h2
      refine ⟨fun k hk => ?_, ?_⟩
      · obtain rfl : k = 0 := by simp at hk; omega
        show max now (p.opens a) + p.service a ≤ p.closes a
        linarith
      · show max now (p.opens a) + p.service a + p.back a ≤ _
        linarith
    · rintro ⟨h1, h2⟩
      exact ⟨max now (p.opens a), le_max_left _ _, le_max_right _ _, h1 0 (by simp), h2⟩
  | b :: l, now, a => by
    have ih := inTime_iff p l (max now (p.opens a) + p.service a + p.dist a b) b
    constructor
    · rintro ⟨t, h1, h2, h3, h4⟩
      have hm := max_le h1 h2
      obtain ⟨i1, i2⟩ := ih.1 (h4.mono (by linarith))
      refine ⟨fun k hk => ?_, i2⟩
      cases k with
      | zero =>
        show max now (p.opens a) + p.service a ≤ p.closes a
        linarith
      | succ k => exact i1 k (by simpa using hk)
    · rintro ⟨h1, h2⟩
      refine ⟨max now (p.opens a), le_max_left _ _, le_max_right _ _, h1 0 (by simp), ih.2 ⟨fun k hk => h1 (k + 1) (by simpa using hk), h2⟩⟩

end TimedRouting

/-- The numbers in the constants are those of the problem. -/
structure TimedRouting.Agrees (p : TimedRouting) (d : WindowsTables) : Prop where
  dist : ∀ i < p.customers, ∀ j < p.customers, d.cust.getD (i * (p.customers + 1) + j) 0 = p.dist i j
  out : ∀ i < p.customers, d.out.getD i 0 = p.out i
  back : ∀ i < p.customers, d.back.getD i 0 = p.back i
  opens : ∀ i < p.customers, d.opens.getD i 0 = p.opens i
  closes : ∀ i < p.customers, d.closes.getD i 0 = p.closes i
  service : ∀ i < p.customers, d.service.getD i 0 = p.service i
  distEnd : d.cust.getD (p.customers * (p.customers + 1) + p.customers) 0 = 0
  outEnd : d.out.getD p.customers 0 = 0
  backEnd : d.back.getD p.customers 0 = 0
  opensEnd : d.opens.getD p.customers 0 = 0
  closesEnd : d.closes.getD p.customers 0 = 1000000
  serviceEnd : d.service.getD p.customers 0 = 0

theorem at1_cast (T : List Rat) (k : Nat) : at1 T (k : Rat) = T.getD k 0 := by
  unfold at1
  rw [toSS_natCast, Int.toNat_natCast]

theorem at2_cast (n : Nat) (T : List Rat) (i j : Nat) : at2 n T (i : Rat) (j : Rat) = T.getD (i * (n + 1) + j) 0 := by
  unfold at2
  rw [toSS_natCast, toSS_natCast]
  congr 1

/-- The place as a number. -/
def stopNat (n : Nat) (r : List Nat) (k : Nat) : Nat := if k < r.length then r.getD k 0 else n

theorem getD_cast (r : List Nat) (k : Nat) : (r.map fun k : Nat => (k : Rat)).getD k 0 = ((r.getD k 0 : Nat) : Rat) := by
  rw [List.getD_eq_getElem?_getD, List.getD_eq_getElem?_getD, List.getElem?_map]
  cases r[k]? <;> simp

theorem stopAt_cast (n : Nat) (r : List Nat) (k : Nat) : stopAt n (r.map fun k : Nat => (k : Rat)) k = (stopNat n r k : Rat) := by
  unfold stopAt stopNat
  rw [List.length_map, getD_cast]
  split_ifs <;> rfl

theorem stopBefore_cast (n : Nat) (r : List Nat) (k : Nat) : stopBefore n (r.map fun k : Nat => (k : Rat)) k =
    ((if k < r.length then r.getD (k - 1) 0 else n : Nat) : Rat) := by
  unfold stopBefore
  rw [List.length_map, getD_cast]
  split_ifs <;> rfl

theorem getD_lt {n : Nat} {r : List Nat} (h : ∀ i ∈ r, i < n) {k : Nat} (hk : k < r.length) : r.getD k 0 < n := by
  rw [getD_of_lt hk]
  exact h _ (List.getElem_mem _)

theorem leave_nil {p : TimedRouting} {d : WindowsTables} (h : p.Agrees d) (k : Nat) : d.leave p.customers [] k = 0 := by
  have e : ∀ k, stopAt p.customers [] k = ((p.customers : Nat) : Rat) := fun k => rfl
  have e' : ∀ k, stopBefore p.customers [] k = ((p.customers : Nat) : Rat) := fun k => rfl
  induction k with
  | zero =>
    simp only [WindowsTables.leave, e, at1_cast, h.outEnd, h.opensEnd, h.serviceEnd]
    norm_num
  | succ k ih =>
    simp only [WindowsTables.leave, e, e', at1_cast, at2_cast, h.distEnd, h.opensEnd, h.serviceEnd, ih]
    norm_num

theorem leave_cons {p : TimedRouting} {d : WindowsTables} (h : p.Agrees d) (ho : ∀ i < p.customers, 0 ≤ p.opens i)
    (hs : ∀ i < p.customers, 0 ≤ p.service i) {a : Nat} {l : List Nat} (hl : ∀ i ∈ a :: l, i < p.customers) (k : Nat) :
    d.leave p.customers ((a :: l).map fun k : Nat => (k : Rat)) k = p.leaves k (p.out a) a l := by
  have ha := hl a (by simp)
  induction k with
  | zero =>
    simp only [WindowsTables.leave, stopAt_cast, at1_cast]
    show max (d.out.getD a 0) (d.opens.getD a 0) + d.service.getD a 0 = _
    rw [h.out a ha, h.opens a ha, h.service a ha]
    cases l <;> rfl
  | succ k ih =>
    rw [TimedRouting.leaves_succ]
    simp only [WindowsTables.leave, stopAt_cast, stopBefore_cast, at1_cast, at2_cast, ih, Nat.add_sub_cancel]
    split_ifs with hk hk' hk'
    · have e : stopNat p.customers (a :: l) (k + 1) = l.getD k 0 := by
        unfold stopNat
        rw [if_pos hk]
        simp
      have h1 := getD_lt hl (show k < (a :: l).length by simp; omega)
      have h2 := getD_lt (fun i hi => hl i (by simp [hi])) hk'
      rw [e, h.dist _ h1 _ h2, h.opens _ h2, h.service _ h2]
    · simp at hk; omega
    · simp at hk; omega
    · have e : stopNat p.customers (a :: l) (k + 1) = p.customers := if_neg hk
      rw [e, h.distEnd, h.opensEnd, h.serviceEnd, add_zero, add_zero]
      exact max_eq_left (p.leaves_nonneg ho hs k _ a l hl)

theorem home_cons {p : TimedRouting} {d : WindowsTables} (h : p.Agrees d) (ho : ∀ i < p.customers, 0 ≤ p.opens i)
    (hs : ∀ i < p.customers, 0 ≤ p.service i) {a m : Nat} {l : List Nat} (hl : ∀ i ∈ a :: l, i < p.customers) (hm : (a :: l).length ≤ m) :
    d.home p.customers m ((a :: l).map fun k : Nat => (k : Rat)) = p.departure (p.out a) a l + p.back ((a :: l).getD l.length 0) := by
  unfold WindowsTables.home
  rw [leave_cons h ho hs hl, p.leaves_departure _ _ _ _ (by simp at hm; omega), if_pos (by simp), getD_cast, at1_cast]
  congr 1
  have : ((a :: l).map fun k : Nat => (k : Rat)).length - 1 = l.length := by simp
  rw [this]
  exact h.back _ (getD_lt hl (by simp))

/-- The constraints of a route say that it is feasible. -/
theorem route_feasible {p : TimedRouting} {d : WindowsTables} (h : p.Agrees d) (ho : ∀ i < p.customers, 0 ≤ p.opens i)
    (hs : ∀ i < p.customers, 0 ≤ p.service i) (hd : 0 ≤ p.depotCloses) {m : Nat} {r : List Nat} (hl : ∀ i ∈ r, i < p.customers)
    (hm : r.length ≤ m) :
    ((∀ k < m, d.leave p.customers (r.map fun k : Nat => (k : Rat)) k ≤ at1 d.closes (stopAt p.customers (r.map fun k : Nat => (k : Rat)) k)) ∧
      d.home p.customers m (r.map fun k : Nat => (k : Rat)) ≤ p.depotCloses) ↔
    p.Punctual r ∧ (r.length < m → p.lastDeparture r ≤ 1000000) := by
  cases r with
  | nil =>
    have hh : d.home p.customers m [] = 0 := by
      unfold WindowsTables.home
      rw [leave_nil h, zero_add]
      exact (at1_cast _ _).trans h.backEnd
    have hc : ∀ k, at1 d.closes (stopAt p.customers [] k) = 1000000 := fun k => (at1_cast _ _).trans h.closesEnd
    simp only [List.map_nil, hh, hc, leave_nil h, TimedRouting.Punctual, TimedRouting.lastDeparture, hd]
    norm_num
  | cons a l =>
    rw [home_cons h ho hs hl hm]
    simp only [leave_cons h ho hs hl, stopAt_cast, at1_cast, TimedRouting.Punctual, TimedRouting.lastDeparture]
    rw [TimedRouting.inTime_iff]
    have key : ∀ k, d.closes.getD (stopNat p.customers (a :: l) k) 0 = if k < l.length + 1 then p.closes ((a :: l).getD k 0) else 1000000 := by
      intro k
      unfold stopNat
      split_ifs with h1 h2 h2
      · exact h.closes _ (getD_lt hl h1)
      · exact absurd h1 h2
      · exact absurd h2 h1
      · exact h.closesEnd
    simp only [key]
    simp only [List.length_cons] at hm ⊢
    constructor
    · rintro ⟨h1, h2⟩
      refine ⟨⟨fun k hk => ?_, h2⟩, fun hlt => ?_⟩
      · have := h1 k (by omega)
        rwa [if_pos hk] at this
      · have := h1 (l.length + 1) hlt
        rwa [if_neg (by omega), p.leaves_departure _ _ _ _ (by omega)] at this
    · rintro ⟨⟨h1, h2⟩, h3⟩
      refine ⟨fun k hk => ?_, h2⟩
      split_ifs with hk'
      · exact h1 k hk'
      · rw [p.leaves_departure _ _ _ _ (by omega)]
        exact h3 (by omega)

theorem legs_back (f : Rat → Rat → Rat) (a b : Rat) (l : List Rat) :
    (List.zipWith f (a :: b :: l).tail (a :: b :: l).dropLast).sum = f b a + (List.zipWith f (b :: l).tail (b :: l).dropLast).sum := by
  simp

theorem wayHome_back {p : TimedRouting} {d : WindowsTables} (h : p.Agrees d) : ∀ (l : List Nat) (a : Nat), (∀ k ∈ a :: l, k < p.customers) →
    look d.back (((a :: l).map fun k : Nat => (k : Rat)).drop (((a :: l).map fun k : Nat => (k : Rat)).length - 1)) +
      d.legs p.customers ((a :: l).map fun k : Nat => (k : Rat)) =
    ({ p.toRouting with dist := fun i j => p.dist j i } : Routing).wayHome a l := by
  intro l
  induction l with
  | nil =>
    intro a ha
    show look d.back [(a : Rat)] + 0 = p.back a
    rw [show ([(a : Rat)] : List Rat) = [a].map fun k : Nat => (k : Rat) from rfl, look_cast, add_zero]
    show d.back.getD a 0 + 0 = _
    rw [add_zero]
    exact h.back a (ha a (by simp))
  | cons b l ih =>
    intro a ha
    have := ih b fun k hk => ha k (by simp at hk ⊢; tauto)
    unfold WindowsTables.legs at this ⊢
    rw [List.map_cons, List.map_cons, look_last, legs_back]
    rw [List.map_cons] at this
    rw [Routing.wayHome, ← this, at2_cast, h.dist b (ha b (by simp)) a (ha a (by simp))]
    ring

theorem length_back {p : TimedRouting} {d : WindowsTables} (h : p.Agrees d) (r : List Nat) (hl : ∀ k ∈ r, k < p.customers) :
    look d.out ((r.map fun k : Nat => (k : Rat)).take 1) +
      (look d.back ((r.map fun k : Nat => (k : Rat)).drop ((r.map fun k : Nat => (k : Rat)).length - 1)) +
        d.legs p.customers (r.map fun k : Nat => (k : Rat))) =
    ({ p.toRouting with dist := fun i j => p.dist j i } : Routing).length r := by
  cases r with
  | nil => simp [look, Routing.length, WindowsTables.legs]
  | cons a l =>
    rw [wayHome_back h l a hl, Routing.length]
    congr 1
    show look d.out [(a : Rat)] = _
    rw [show ([(a : Rat)] : List Rat) = [a].map fun k : Nat => (k : Rat) from rfl, look_cast]
    show d.out.getD a 0 + 0 = _
    rw [add_zero]
    exact h.out a (hl a (by simp))

end Verif
