import Verif.Model.Nodes.Quadratic
import Verif.Lemmas.NodeBase
import Mathlib.Algebra.BigOperators.Ring.Finset
import Mathlib.Tactic.Ring
import Mathlib.Tactic.Linarith
import Mathlib.Tactic.SplitIfs

set_option linter.unusedSectionVars false
set_option linter.unusedSimpArgs false
set_option linter.unusedVariables false

/-! Helper lemmas: adjacency lists of quadratic models. -/

namespace Verif

/-- Look up a key in a list of pairs. -/
def alook : List (Nat × Rat) → Nat → Option Rat
  | [], _ => none
  | p :: ps, v => if p.1 = v then some p.2 else alook ps v

theorem alook_none {ps : List (Nat × Rat)} {v : Nat} (h : ∀ p ∈ ps, p.1 ≠ v) : alook ps v = none := by
  induction ps with
  | nil => rfl
  | cons p ps ih =>
    rw [alook, if_neg (h p List.mem_cons_self)]
    exact ih (fun q hq => h q (List.mem_cons_of_mem _ hq))

/-- Strictly increasing keys. -/
def Sorted : List (Nat × Rat) → Prop := List.Pairwise (fun p q => p.1 < q.1)

/-- Change the entry of a key, creating it from 0. -/
def aset : List (Nat × Rat) → Nat → (Rat → Rat) → List (Nat × Rat)
  | [], v, f => [(v, f 0)]
  | p :: ps, v, f =>
    if p.1 < v then p :: aset ps v f
    else if p.1 = v then (v, f p.2) :: ps
    else (v, f 0) :: p :: ps

theorem aset_keys {ps : List (Nat × Rat)} {v : Nat} {f : Rat → Rat} :
    ∀ q ∈ aset ps v f, q.1 = v ∨ ∃ p ∈ ps, p.1 = q.1 := by
  induction ps with
  | nil => intro q hq; simp [aset] at hq; left; rw [hq]
  | cons p ps ih =>
    intro q hq
    rw [aset] at hq
    split_ifs at hq with h1 h2
    · rcases List.mem_cons.1 hq with rfl | hq
      · right; exact ⟨_, List.mem_cons_self, rfl⟩
      · rcases ih q hq with h | ⟨r, hr, e⟩
        · left; exact h
        · right; exact ⟨r, List.mem_cons_of_mem _ hr, e⟩
    · rcases List.mem_cons.1 hq with rfl | hq
      · left; rfl
      · right; exact ⟨q, List.mem_cons_of_mem _ hq, rfl⟩
    · rcases List.mem_cons.1 hq with rfl | hq
      · left; rfl
      · right; exact ⟨q, hq, rfl⟩

theorem aset_sorted {ps : List (Nat × Rat)} {v : Nat} {f : Rat → Rat} (h : Sorted ps) :
    Sorted (aset ps v f) := by
  induction ps with
  | nil => simp [aset, Sorted]
  | cons p ps ih =>
    obtain ⟨h1, h2⟩ := List.pairwise_cons.1 h
    rw [aset]
    split_ifs with c1 c2
    · refine List.pairwise_cons.2 ⟨fun q hq => ?_, ih h2⟩
      rcases aset_keys q hq with e | ⟨r, hr, e⟩
      · omega
      · have := h1 r hr; omega
    · refine List.pairwise_cons.2 ⟨fun q hq => ?_, h2⟩
      have := h1 q hq
      simp only; omega
    · refine List.pairwise_cons.2 ⟨fun q hq => ?_, h⟩
      rcases List.mem_cons.1 hq with rfl | hq
      · simp only; omega
      · have := h1 q hq
        simp only; omega

theorem alook_aset {ps : List (Nat × Rat)} {v : Nat} {f : Rat → Rat} (h : Sorted ps) (w : Nat) :
    alook (aset ps v f) w = if w = v then some (f ((alook ps v).getD 0)) else alook ps w := by
  induction ps with
  | nil =>
    simp only [aset, alook, Option.getD_none]
    by_cases e : w = v
    · simp [e]
    · simp [e, Ne.symm e]
  | cons p ps ih =>
    obtain ⟨h1, h2⟩ := List.pairwise_cons.1 h
    rw [aset]
    split_ifs with c1 c2 c3 c4 c5
    · subst c2
      rw [alook, if_neg (by omega), ih h2, if_pos rfl, alook, if_neg (show ¬ p.1 = w by omega)]
    · rw [alook, ih h2, if_neg c2, alook]
    · subst c4; simp [alook, c3]
    · simp only [alook, c3, if_neg (Ne.symm c4)]
    · subst c5
      have : alook ps w = none := alook_none (fun q hq => by have := h1 q hq; omega)
      simp [alook, c3, this]
    · simp only [alook, if_neg (Ne.symm c5)]

/-- The number of keys below a bound. -/
def below (u : Nat) (ps : List (Nat × Rat)) : Nat := (ps.filter (fun p => decide (p.1 < u))).length

theorem take_below {u : Nat} {ps : List (Nat × Rat)} (h : Sorted ps) :
    ps.take (below u ps) = ps.filter (fun p => decide (p.1 < u)) := by
  induction ps with
  | nil => rfl
  | cons p ps ih =>
    obtain ⟨h1, h2⟩ := List.pairwise_cons.1 h
    by_cases c : p.1 < u
    · simp only [below, List.filter_cons, c, decide_true, if_true, List.length_cons, List.take_succ_cons]
      exact congrArg _ (ih h2)
    · have e : (p :: ps).filter (fun p => decide (p.1 < u)) = [] := by
        rw [List.filter_eq_nil_iff]
        intro q hq
        rcases List.mem_cons.1 hq with rfl | hq
        · simpa using c
        · have := h1 q hq; simp; omega
      simp only [below, e, List.length_nil, List.take_zero]

theorem below_aset {u v : Nat} {f : Rat → Rat} {ps : List (Nat × Rat)} (h : Sorted ps) :
    below u (aset ps v f) = below u ps + if alook ps v = none ∧ v < u then 1 else 0 := by
  induction ps with
  | nil => by_cases c : v < u <;> simp [aset, below, alook, c]
  | cons p ps ih =>
    obtain ⟨h1, h2⟩ := List.pairwise_cons.1 h
    rw [aset]
    by_cases c1 : p.1 < v
    · have hv : alook (p :: ps) v = alook ps v := by rw [alook, if_neg (by omega)]
      rw [if_pos c1, hv]
      have := ih h2
      unfold below at this ⊢
      simp only [List.filter_cons]
      split_ifs at this ⊢ <;> (try simp only [List.length_cons]) <;> omega
    · rw [if_neg c1]
      by_cases c2 : p.1 = v
      · have hv : alook (p :: ps) v = some p.2 := by rw [alook, if_pos c2]
        rw [if_pos c2, hv]
        subst c2
        unfold below
        simp only [List.filter_cons]
        split_ifs <;> simp_all
      · have hv : alook (p :: ps) v = none := alook_none (fun q hq => by
          rcases List.mem_cons.1 hq with rfl | hq
          · exact c2
          · have := h1 q hq; omega)
        rw [if_neg c2, hv]
        unfold below
        rw [List.filter_cons]
        by_cases c3 : v < u <;> simp [c3]

/-- The model's parallel vectors and the list of pairs. -/
structure IsPairs (N : Neighborhood) (ps : List (Nat × Rat)) : Prop where
  neighbors : N.neighbors = ps.map Prod.fst
  biases : N.biases = ps.map Prod.snd

theorem IsPairs.zip {N : Neighborhood} {ps : List (Nat × Rat)} (h : IsPairs N ps) :
    N.neighbors.zip N.biases = ps := by
  rw [h.neighbors, h.biases]
  induction ps with
  | nil => rfl
  | cons p ps ih => simp [List.zip_map']

/-- `onRef` and `get` in terms of pairs. -/
theorem pairs_step {ps : List (Nat × Rat)} {v : Nat} (f : Rat → Rat) (h : Sorted ps) :
    (if (ps.map Prod.fst)[lowerBound (ps.map Prod.fst) v]? = some v then
      (ps.map Prod.fst = (aset ps v f).map Prod.fst ∧
       (ps.map Prod.snd).modify (lowerBound (ps.map Prod.fst) v) f = (aset ps v f).map Prod.snd ∧
       alook ps v = (ps.map Prod.snd)[lowerBound (ps.map Prod.fst) v]? ∧ (alook ps v).isSome)
     else
      ((ps.map Prod.fst).insertIdx (lowerBound (ps.map Prod.fst) v) v = (aset ps v f).map Prod.fst ∧
       (ps.map Prod.snd).insertIdx (lowerBound (ps.map Prod.fst) v) (f 0) = (aset ps v f).map Prod.snd ∧
       alook ps v = none)) := by
  induction ps with
  | nil => simp [lowerBound, aset, alook]
  | cons p ps ih =>
    obtain ⟨h1, h2⟩ := List.pairwise_cons.1 h
    have ih := ih h2
    simp only [List.map_cons, lowerBound]
    by_cases c1 : p.1 < v
    · simp only [c1, if_true, List.getElem?_cons_succ, aset, List.map_cons, alook,
        show ¬ p.1 = v by omega, if_false, List.insertIdx_succ_cons, List.modify_succ_cons]
      split_ifs at ih ⊢ with c
      · obtain ⟨a, b, c, d⟩ := ih
        exact ⟨by rw [← a], by rw [b], c, d⟩
      · obtain ⟨a, b, c⟩ := ih
        exact ⟨by rw [a], by rw [b], c⟩
    · simp only [c1, if_false, List.getElem?_cons_zero, aset, Option.some.injEq]
      by_cases c2 : p.1 = v
      · simp [c2, alook]
      · have hv : alook (p :: ps) v = none := alook_none (fun q hq => by
          rcases List.mem_cons.1 hq with rfl | hq
          · exact c2
          · have := h1 q hq; omega)
        simp [c2, hv]

/-- The invariant of one adjacency list. -/
structure NInv (n u : Nat) (N : Neighborhood) (look : Nat → Option Rat) : Prop where
  ex : ∃ ps, IsPairs N ps ∧ Sorted ps ∧ N.smaller = below u ps ∧ (∀ p ∈ ps, p.1 < n ∧ p.1 ≠ u) ∧
    ∀ v, alook ps v = look v

theorem NInv.onRef {n u v : Nat} {N : Neighborhood} {look : Nat → Option Rat} (h : NInv n u N look)
    (hv : v < n) (hu : v ≠ u) (f : Rat → Rat) :
    NInv n u (N.onRef u v f) (fun w => if w = v then some (f ((look v).getD 0)) else look w) := by
  obtain ⟨ps, hp, hs, hb, hr, hl⟩ := h.ex
  have key := pairs_step (v := v) f hs
  refine ⟨aset ps v f, ?_, aset_sorted hs, ?_, ?_, ?_⟩
  · unfold Neighborhood.onRef
    rw [hp.neighbors, hp.biases]
    by_cases c : (ps.map Prod.fst)[lowerBound (ps.map Prod.fst) v]? = some v
    · rw [if_pos c] at key ⊢
      exact ⟨key.1, key.2.1⟩
    · rw [if_neg c] at key ⊢
      exact ⟨key.1, key.2.1⟩
  · rw [below_aset hs]
    unfold Neighborhood.onRef
    rw [hp.neighbors, hp.biases]
    by_cases c : (ps.map Prod.fst)[lowerBound (ps.map Prod.fst) v]? = some v
    · rw [if_pos c] at key ⊢
      obtain ⟨_, _, _, hsome⟩ := key
      have : ¬ (alook ps v = none ∧ v < u) := by
        rintro ⟨e, _⟩; rw [e] at hsome; cases hsome
      rw [if_neg this]; exact hb
    · rw [if_neg c] at key ⊢
      obtain ⟨_, _, hnone⟩ := key
      by_cases c3 : v < u
      · simp [hnone, c3, hb]
      · simp [hnone, c3, hb]
  · intro q hq
    rcases aset_keys q hq with e | ⟨p, hp', e⟩
    · rw [e]; exact ⟨hv, hu⟩
    · rw [← e]; exact hr p hp'
  · intro w
    rw [alook_aset hs w, hl v, hl w]

theorem NInv.get {n u : Nat} {N : Neighborhood} {look : Nat → Option Rat} (h : NInv n u N look)
    (v : Nat) : N.get v = .ok ((look v).getD 0) := by
  obtain ⟨ps, hp, hs, hb, hr, hl⟩ := h.ex
  have key := pairs_step (v := v) id hs
  unfold Neighborhood.get
  rw [hp.neighbors, hp.biases, ← hl v]
  split_ifs at key ⊢ with c
  · obtain ⟨_, _, e, hsome⟩ := key
    rw [← e]
    cases hx : alook ps v with
    | none => rw [hx] at hsome; cases hsome
    | some b => rfl
  · rw [key.2.2]; rfl

theorem sum_pairs {m : Nat} (x : Nat → Rat) {ps : List (Nat × Rat)} (hs : Sorted ps)
    (hm : ∀ p ∈ ps, p.1 < m) :
    (ps.map (fun p => x p.1 * p.2)).sum = ∑ w ∈ Finset.range m, x w * (alook ps w).getD 0 := by
  induction ps with
  | nil => simp [alook]
  | cons p ps ih =>
    obtain ⟨h1, h2⟩ := List.pairwise_cons.1 hs
    have hn : alook ps p.1 = none := alook_none (fun q hq => by have := h1 q hq; omega)
    have e : ∀ w ∈ Finset.range m, x w * (alook (p :: ps) w).getD 0 =
        (if w = p.1 then x p.1 * p.2 else 0) + x w * (alook ps w).getD 0 := by
      intro w _
      by_cases c : w = p.1
      · subst c; simp [alook, hn]
      · simp [alook, c, Ne.symm c]
    rw [List.map_cons, List.sum_cons, Finset.sum_congr rfl e, Finset.sum_add_distrib,
      Finset.sum_ite_eq' (Finset.range m) p.1, if_pos (Finset.mem_range.2 (hm p List.mem_cons_self)),
      ih h2 (fun q hq => hm q (List.mem_cons_of_mem _ hq))]

theorem interact_all {n : Nat} {x : List Rat} (hx : x.length = n) {ps : List (Nat × Rat)}
    (h : ∀ p ∈ ps, p.1 < n) :
    ps.mapM (QModel.interact x) = .ok (ps.map (fun p => x.getD p.1 0 * p.2)) := by
  refine mapM_ok _ _ ps (fun p hp => ?_)
  have := h p hp
  have hg : x[p.1]? = some x[p.1] := by simp [hx, this]
  simp [QModel.interact, hg, List.getD_eq_getElem?_getD]

theorem alook_filter {u : Nat} {ps : List (Nat × Rat)} {w : Nat} (h : w < u) :
    alook (ps.filter (fun p => decide (p.1 < u))) w = alook ps w := by
  induction ps with
  | nil => rfl
  | cons p ps ih =>
    by_cases c : p.1 < u
    · simp [List.filter_cons, c, alook, ih]
    · simp [List.filter_cons, c, alook, ih, show ¬ p.1 = w by omega]

/-- The sum over the smaller neighbours. -/
theorem NInv.smaller_sum {n u : Nat} {N : Neighborhood} {look : Nat → Option Rat}
    (h : NInv n u N look) {x : List Rat} (hx : x.length = n) :
    ∃ terms, ((N.neighbors.zip N.biases).take N.smaller).mapM (QModel.interact x) = .ok terms ∧
      terms.sum = ∑ w ∈ Finset.range u, x.getD w 0 * (look w).getD 0 := by
  obtain ⟨ps, hp, hs, hb, hr, hl⟩ := h.ex
  rw [hp.zip, hb, take_below hs]
  refine ⟨_, interact_all hx (fun p hp => (hr p (List.mem_of_mem_filter hp)).1), ?_⟩
  rw [sum_pairs (m := u) (fun w => x.getD w 0) (List.Pairwise.filter _ hs)
    (fun p hp => by simpa using (List.mem_filter.1 hp).2)]
  refine Finset.sum_congr rfl (fun w hw => ?_)
  rw [alook_filter (Finset.mem_range.1 hw), hl]

/-- The sum over all neighbours. -/
theorem NInv.all_sum {n u : Nat} {N : Neighborhood} {look : Nat → Option Rat}
    (h : NInv n u N look) {x : List Rat} (hx : x.length = n) :
    ∃ terms, (N.neighbors.zip N.biases).mapM (QModel.interact x) = .ok terms ∧
      terms.sum = ∑ w ∈ Finset.range n, x.getD w 0 * (look w).getD 0 := by
  obtain ⟨ps, hp, hs, hb, hr, hl⟩ := h.ex
  rw [hp.zip]
  refine ⟨_, interact_all hx (fun p hp => (hr p hp).1), ?_⟩
  rw [sum_pairs (m := n) (fun w => x.getD w 0) hs (fun p hp => (hr p hp).1)]
  exact Finset.sum_congr rfl (fun w hw => by rw [hl])

end Verif
