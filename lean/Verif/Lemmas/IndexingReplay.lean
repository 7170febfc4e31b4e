import Verif.Lemmas.Indexing

set_option linter.unusedSectionVars false
set_option linter.unusedSimpArgs false
set_option linter.unusedVariables false

/-! Helper lemmas about basic indexing: edit scripts seen through a view. -/

namespace Verif

variable {α : Type} [DecidableEq α] [Inhabited α]

/-- An array seen through positions. -/
def through (g : Nat → Nat) (k : Nat) (l : List α) : List α :=
  (List.range k).map fun (i : Nat) => l.getD (g i) default

theorem through_length (g : Nat → Nat) (k : Nat) (l : List α) : (through g k l).length = k := by simp [through]

theorem through_get {g : Nat → Nat} {k : Nat} {l : List α} {i : Nat} (h : i < k) :
    (through g k l)[i]? = some (l.getD (g i) default) := by
  simp [through, List.getElem?_range h]

/-- Changes seen through positions. -/
theorem through_replays (g : Nat → Nat) (k : Nat) (f : Nat → Option Nat) {l l' : List α} {d : List (Update α)}
    (hr : Replays l d l') (hc : ∀ u ∈ d, u.isChange = true)
    (hg : ∀ j i, j < l.length → (f j = some i ↔ i < k ∧ g i = j)) :
    Replays (through g k l) (d.filterMap fun u => (f u.index).map fun i => ⟨i, u.old, u.value⟩) (through g k l') := by
  induction d generalizing l with
  | nil => rw [replays_nil] at hr; subst hr; exact Replays.refl _
  | cons u d ih =>
    obtain ⟨m, hm, hr⟩ := replays_cons.1 hr
    have hu := hc u List.mem_cons_self
    rcases step_cases hm with ⟨v, rfl, rfl⟩ | ⟨v, rfl, rfl⟩ | ⟨a, b, ha, hab, rfl⟩
    · simp [Update.isChange] at hu
    · simp [Update.isChange] at hu
    · have hlt : u.index < l.length := by
        have := List.getElem?_eq_some_iff.1 ha
        exact this.1
      have ih' := ih hr (fun v hv => hc v (List.mem_cons_of_mem _ hv)) (by rw [List.length_set]; exact hg)
      rw [List.filterMap_cons]
      cases hf : f u.index with
      | none =>
        simp only [Option.map_none]
        have : through g k (l.set u.index b) = through g k l := by
          apply List.map_congr_left
          intro i hi
          have hne : u.index ≠ g i := by
            intro he
            rw [(hg u.index i hlt).2 ⟨List.mem_range.1 hi, he.symm⟩] at hf
            cases hf
          rw [List.getD_eq_getElem?_getD, List.getD_eq_getElem?_getD, List.getElem?_set_ne hne]
        rw [this] at ih'
        exact ih'
      | some i =>
        obtain ⟨hi, hgi⟩ := (hg u.index i hlt).1 hf
        simp only [Option.map_some]
        refine Replays.cons ?_ ih'
        have e1 : (⟨i, u.old, u.value⟩ : Update α) = Update.change i a b := by rw [hab]
        rw [e1, step_change (a := a)]
        · congr 1
          apply List.ext_getElem?
          intro j
          by_cases hj : j < k
          · rw [through_get hj]
            by_cases hij : i = j
            · subst hij
              rw [List.getElem?_set_self (by rw [through_length]; exact hi), List.getD_eq_getElem?_getD, hgi,
                List.getElem?_set_self hlt]
              rfl
            · rw [List.getElem?_set_ne hij, through_get hj]
              have hne : u.index ≠ g j := by
                intro he
                have := (hg u.index j hlt).2 ⟨hj, he.symm⟩
                rw [hf] at this
                exact hij (Option.some.inj this)
              rw [List.getD_eq_getElem?_getD, List.getD_eq_getElem?_getD, List.getElem?_set_ne hne]
          · rw [List.getElem?_eq_none (by rw [List.length_set, through_length]; omega),
              List.getElem?_eq_none (by rw [through_length]; omega)]
        · rw [through_get hi, hgi, List.getD_eq_getElem?_getD, ha]
          rfl

/-! ## Windows of a list that grows and shrinks -/

/-- The position was named by one of the updates. -/
def touched (d : List (Update α)) (j : Nat) : Bool := d.any fun u => u.index == j

theorem touched_snoc (d : List (Update α)) (u : Update α) (j : Nat) :
    touched (d ++ [u]) j = (touched d j || u.index == j) := by simp [touched]

theorem untouched_same {P0 P1 : List α} {d : List (Update α)} (hr : Replays P0 d P1) {j : Nat}
    (h : touched d j = false) : P1[j]? = P0[j]? := by
  induction d generalizing P0 with
  | nil => rw [replays_nil] at hr; rw [hr]
  | cons u d ih =>
    obtain ⟨m, hm, hr⟩ := replays_cons.1 hr
    simp only [touched, List.any_cons, Bool.or_eq_false_iff, beq_eq_false_iff_ne] at h
    rw [ih hr h.2]
    rcases step_cases hm with ⟨v, rfl, rfl⟩ | ⟨v, rfl, rfl⟩ | ⟨a, b, ha, hab, rfl⟩
    · have := h.1
      simp only at this
      by_cases hj : j < P0.length
      · rw [List.getElem?_append_left hj]
      · rw [List.getElem?_eq_none (by simp; omega), List.getElem?_eq_none (by omega)]
    · have := h.1
      simp only at this
      by_cases hj : j < m.length
      · rw [List.getElem?_append_left hj]
      · rw [List.getElem?_eq_none (by omega), List.getElem?_eq_none (by simp; omega)]
    · rw [List.getElem?_set_ne h.1]

/-- The smallest size is below all removals and placements, and everything above it was touched. -/
theorem smallestLoop_spec {P P' : List α} {d : List (Update α)} (hr : Replays P d P') (mn : Int)
    (hmn : mn ≤ P.length) (h0 : 0 ≤ mn) :
    ∃ m : Nat, smallestLoop d P.length mn = .ok (m : Int) ∧ (m : Int) ≤ mn ∧
      (∀ u ∈ d, u.index < m → u.isChange = true) ∧
      (∀ j : Nat, m ≤ j → (j : Int) < mn → touched d j = true) := by
  induction d generalizing P mn with
  | nil =>
    refine ⟨mn.toNat, ?_, by omega, by simp, fun j h1 h2 => by omega⟩
    simp only [smallestLoop]
    congr 1; omega
  | cons u d ih =>
    obtain ⟨m, hm, hr'⟩ := replays_cons.1 hr
    rcases step_cases hm with ⟨v, rfl, rfl⟩ | ⟨v, rfl, rfl⟩ | ⟨a, b, ha, hab, rfl⟩
    · obtain ⟨k, h1, h2, h3, h4⟩ := ih hr' mn (by rw [List.length_append]; simp; omega) h0
      refine ⟨k, ?_, h2, ?_, ?_⟩
      · simp only [smallestLoop, placement_placed, if_true]
        rw [List.length_append] at h1
        simpa using h1
      · intro w hw hlt
        rcases List.mem_cons.1 hw with rfl | hw
        · simp only at hlt; omega
        · exact h3 w hw hlt
      · intro j hj1 hj2
        have := h4 j hj1 hj2
        simp only [touched, List.any_cons, Bool.or_eq_true] at this ⊢
        exact Or.inr this
    · obtain ⟨k, h1, h2, h3, h4⟩ := ih hr' (min (m.length : Int) mn) (Int.min_le_left _ _) (by omega)
      refine ⟨k, ?_, by omega, ?_, ?_⟩
      · simp only [smallestLoop, removal_placed, removal_removed, if_true, Bool.false_eq_true, if_false]
        rw [guardUB_true (by rw [List.length_append]; simp)]
        simp only [Res.ok_bind]
        have e : (((m ++ [v]).length : Nat) : Int) - 1 = m.length := by rw [List.length_append]; simp
        rw [e]
        exact h1
      · intro w hw hlt
        rcases List.mem_cons.1 hw with rfl | hw
        · simp only at hlt; omega
        · exact h3 w hw hlt
      · intro j hj1 hj2
        rw [List.length_append] at hmn
        simp only [List.length_cons, List.length_nil] at hmn
        simp only [touched, List.any_cons, Bool.or_eq_true, beq_iff_eq]
        by_cases hj : j = m.length
        · exact Or.inl hj.symm
        · exact Or.inr (h4 j hj1 (by omega))
    · obtain ⟨k, h1, h2, h3, h4⟩ := ih hr' mn (by rw [List.length_set]; exact hmn) h0
      have hp : u.placed = false := by rw [hab]; rfl
      have hq : u.removed = false := by rw [hab]; rfl
      refine ⟨k, ?_, h2, ?_, ?_⟩
      · simp only [smallestLoop, hp, hq, Bool.false_eq_true, if_false]
        rw [List.length_set] at h1
        exact h1
      · intro w hw hlt
        rcases List.mem_cons.1 hw with rfl | hw
        · rw [hab]; rfl
        · exact h3 w hw hlt
      · intro j hj1 hj2
        have := h4 j hj1 hj2
        simp only [touched, List.any_cons, Bool.or_eq_true] at this ⊢
        exact Or.inr this

/-- The updates inside a window, moved to its start. -/
def inWindow (s e : Nat) (d : List (Update α)) : List (Update α) :=
  (d.filter fun u => decide (s ≤ u.index ∧ u.index < e)).map fun u => ⟨u.index - s, u.old, u.value⟩

theorem inWindow_snoc (s e : Nat) (d : List (Update α)) (u : Update α) :
    inWindow s e (d ++ [u]) =
      inWindow s e d ++ (if s ≤ u.index ∧ u.index < e then [⟨u.index - s, u.old, u.value⟩] else []) := by
  unfold inWindow
  rw [List.filter_append, List.map_append]
  congr 1
  by_cases h : s ≤ u.index ∧ u.index < e <;> simp [h]

/-- Changes inside the window act on any list that agrees on the window. -/
theorem inWindow_replays {P0 P1 W : List α} {d : List (Update α)} (hr : Replays P0 d P1) (s e : Nat)
    (hc : ∀ u ∈ d, s ≤ u.index → u.index < e → u.isChange = true)
    (hW : ∀ i, s + i < e → W[i]? = P0[s + i]?) :
    ∃ W', Replays W (inWindow s e d) W' ∧ W'.length = W.length ∧ (∀ i, s + i < e → W'[i]? = P1[s + i]?) ∧
      ∀ i, ¬ s + i < e → W'[i]? = W[i]? := by
  induction d generalizing P0 W with
  | nil =>
    rw [replays_nil] at hr; subst hr
    exact ⟨W, Replays.refl _, rfl, hW, fun _ _ => rfl⟩
  | cons u d ih =>
    obtain ⟨m, hm, hr⟩ := replays_cons.1 hr
    have hcd : ∀ u ∈ d, s ≤ u.index → u.index < e → u.isChange = true := fun v hv => hc v (List.mem_cons_of_mem _ hv)
    by_cases hin : s ≤ u.index ∧ u.index < e
    · have hu := hc u List.mem_cons_self hin.1 hin.2
      rcases step_cases hm with ⟨v, rfl, rfl⟩ | ⟨v, rfl, rfl⟩ | ⟨a, b, ha, hab, rfl⟩
      · simp [Update.isChange] at hu
      · simp [Update.isChange] at hu
      · have hlt := (List.getElem?_eq_some_iff.1 ha).1
        have hwa : W[u.index - s]? = some a := by
          rw [hW (u.index - s) (by omega), show s + (u.index - s) = u.index by omega, ha]
        have hwl := (List.getElem?_eq_some_iff.1 hwa).1
        obtain ⟨W', h1, h2, h3, h4⟩ := ih (W := W.set (u.index - s) b) hr hcd (by
          intro i hi
          by_cases hiu : u.index - s = i
          · rw [← hiu, List.getElem?_set_self hwl, show s + (u.index - s) = u.index by omega,
              List.getElem?_set_self hlt]
          · rw [List.getElem?_set_ne hiu, List.getElem?_set_ne (by omega), hW i hi])
        refine ⟨W', ?_, by rw [h2, List.length_set], h3, fun i hi => ?_⟩
        · have e1 : inWindow s e (u :: d) = Update.change (u.index - s) a b :: inWindow s e d := by
            unfold inWindow
            rw [List.filter_cons, if_pos (by simp [hin]), List.map_cons]
            congr 1
            rw [hab]
          rw [e1]
          exact Replays.cons (step_change hwa) h1
        · rw [h4 i hi, List.getElem?_set_ne (by omega)]
    · have e1 : inWindow s e (u :: d) = inWindow s e d := by
        unfold inWindow
        rw [List.filter_cons, if_neg (by simpa using hin)]
      have hmW : ∀ i, s + i < e → m[s + i]? = P0[s + i]? := by
        intro i hi
        apply untouched_same (d := [u]) (replays_singleton.2 hm)
        simp only [touched, List.any_cons, List.any_nil, Bool.or_false, beq_eq_false_iff_ne]
        omega
      obtain ⟨W', h1, h2, h3, h4⟩ := ih (W := W) hr hcd (fun i hi => by rw [hmW i hi, hW i hi])
      exact ⟨W', by rw [e1]; exact h1, h2, h3, h4⟩

/-- A row of changes at distinct positions. -/
theorem changes_replays (n k : Nat) (a b : Nat → α) : ∀ (W : List α), (∀ i, i < n → W[k + i]? = some (a i)) →
    ∃ W', Replays W ((List.range n).map fun (i : Nat) => Update.change (k + i) (a i) (b i)) W' ∧ W'.length = W.length ∧
      (∀ i, i < n → W'[k + i]? = some (b i)) ∧ ∀ j, (j < k ∨ k + n ≤ j) → W'[j]? = W[j]? := by
  induction n with
  | zero => intro W _; exact ⟨W, Replays.refl _, rfl, by simp, fun _ _ => rfl⟩
  | succ n ih =>
    intro W hW
    obtain ⟨W', h1, h2, h3, h4⟩ := ih W fun i hi => hW i (by omega)
    have hn : W'[k + n]? = some (a n) := by rw [h4 _ (Or.inr (le_refl _)), hW n (by omega)]
    have hl := (List.getElem?_eq_some_iff.1 hn).1
    refine ⟨W'.set (k + n) (b n), ?_, by rw [List.length_set, h2], ?_, ?_⟩
    · rw [List.range_succ, List.map_append]
      exact h1.snoc (step_change hn)
    · intro i hi
      by_cases hin : n = i
      · subst hin; rw [List.getElem?_set_self hl]
      · rw [List.getElem?_set_ne (by omega), h3 i (by omega)]
    · intro j hj
      rw [List.getElem?_set_ne (by omega), h4 j (by omega)]

/-- A row of placements. -/
theorem places_replays (n : Nat) (b : Nat → α) (W : List α) :
    Replays W ((List.range n).map fun (i : Nat) => Update.placement (W.length + i) (b i)) (W ++ (List.range n).map b) := by
  induction n with
  | zero => simp
  | succ n ih =>
    rw [List.range_succ, List.map_append, List.map_append, ← List.append_assoc]
    refine ih.snoc ?_
    have : W.length + n = (W ++ (List.range n).map b).length := by simp
    show Update.step _ (Update.placement (W.length + n) (b n)) = _
    rw [this]
    exact step_placement

/-- A row of removals from the end. -/
theorem removes_replays (n k : Nat) (a : Nat → α) (W : List α) (hl : W.length = k + n)
    (h : ∀ i, i < n → W[k + n - 1 - i]? = some (a i)) :
    Replays W ((List.range n).map fun (i : Nat) => Update.removal (k + n - 1 - i) (a i)) (W.take k) := by
  have key : ∀ m, m ≤ n → Replays W ((List.range m).map fun (i : Nat) => Update.removal (k + n - 1 - i) (a i))
      (W.take (k + n - m)) := by
    intro m
    induction m with
    | zero => intro _; simp [← hl]
    | succ m ih =>
      intro hm
      rw [List.range_succ, List.map_append]
      refine (ih (by omega)).snoc ?_
      have hg := h m (by omega)
      have e : W.take (k + n - m) = W.take (k + n - (m + 1)) ++ [a m] := by
        have hlt : k + n - (m + 1) < W.length := by omega
        rw [show k + n - m = k + n - (m + 1) + 1 by omega, List.take_add_one]
        congr 1
        rw [show k + n - (m + 1) = k + n - 1 - m by omega, hg]
        rfl
      rw [e]
      have e2 : k + n - 1 - m = (W.take (k + n - (m + 1))).length := by rw [List.length_take]; omega
      show Update.step _ (Update.removal (k + n - 1 - m) (a m)) = _
      rw [e2]
      exact step_removal
  have := key n (le_refl _)
  rwa [show k + n - n = k by omega] at this

end Verif
