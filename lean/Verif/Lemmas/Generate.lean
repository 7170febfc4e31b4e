import Verif.Model.Generators
import Verif.Spec.Problems
import Verif.Lemmas.ScriptProves
import Mathlib.Tactic.Positivity
import Mathlib.Tactic.Linarith

set_option linter.unusedSectionVars false
set_option linter.unusedSimpArgs false
set_option linter.unusedVariables false

/-! Helper lemmas: the checks of the generators, objectives and constraints. -/

namespace Verif

open Script

theorem require_ok {ndim : Nat} {positive nonnegative square : Bool} {a : Arr Rat} (h1 : a.shape.length = ndim)
    (h2 : positive = true → ∀ x ∈ a.data, 0 < x) (h3 : nonnegative = true → ∀ x ∈ a.data, 0 ≤ x)
    (h4 : square = true → a.shape.dedup.length ≤ 1) : Generators.require ndim positive nonnegative square a = .ok a := by
  unfold Generators.require
  subst h1
  simp only [Nat.sub_self, List.replicate_zero, List.nil_append]
  rw [guardThrow_true (le_refl _), Res.ok_bind, guardThrow_true (fun h x hx => not_le.2 (h2 h x hx)), Res.ok_bind,
    guardThrow_true (fun h x hx => not_lt.2 (h3 h x hx)), Res.ok_bind, guardThrow_true h4, Res.ok_bind]

/-- Arguments are rejected or have the properties asked for. -/
theorem require_cases (ndim : Nat) (positive nonnegative square : Bool) (a : Arr Rat) :
    Generators.require ndim positive nonnegative square a = .throw ∨
    (a.shape.length ≤ ndim ∧ (positive = true → ∀ x ∈ a.data, 0 < x) ∧ (nonnegative = true → ∀ x ∈ a.data, 0 ≤ x) ∧
      (square = true → (List.replicate (ndim - a.shape.length) 1 ++ a.shape).dedup.length ≤ 1) ∧
      Generators.require ndim positive nonnegative square a = .ok ⟨List.replicate (ndim - a.shape.length) 1 ++ a.shape, a.data⟩) := by
  unfold Generators.require
  rcases guardThrow_cases (a.shape.length ≤ ndim) with ⟨h1, e1⟩ | ⟨_, e1⟩
  swap
  · rw [e1]; exact .inl rfl
  rcases guardThrow_cases (positive = true → ∀ x ∈ a.data, ¬ x ≤ 0) with ⟨h2, e2⟩ | ⟨_, e2⟩
  swap
  · rw [e1, e2]; exact .inl rfl
  rcases guardThrow_cases (nonnegative = true → ∀ x ∈ a.data, ¬ x < 0) with ⟨h3, e3⟩ | ⟨_, e3⟩
  swap
  · rw [e1, e2, e3]; exact .inl rfl
  rcases guardThrow_cases (square = true → (List.replicate (ndim - a.shape.length) 1 ++ a.shape).dedup.length ≤ 1) with ⟨h4, e4⟩ | ⟨_, e4⟩
  swap
  · rw [e1, e2, e3, e4]; exact .inl rfl
  refine .inr ⟨h1, fun h x hx => not_le.1 (h2 h x hx), fun h x hx => not_lt.1 (h3 h x hx), h4, ?_⟩
  rw [e1, e2, e3, e4]
  rfl

theorem toSS_natCast (k : Nat) : toSS (k : Rat) = k := by
  simp [toSS]

theorem getD_of_lt {α : Type} {l : List α} {i : Nat} (h : i < l.length) (d : α) : l.getD i d = l[i] := by
  rw [List.getD_eq_getElem?_getD, List.getElem?_eq_getElem h, Option.getD_some]

theorem index_value {n k : Nat} (h : k < n) : ((k : Rat)).den = 1 ∧ (0 : Rat) ≤ (k : Rat) ∧ (k : Rat) ≤ (n : Rat) - 1 := by
  refine ⟨by simp, by positivity, ?_⟩
  have : ((k + 1 : Nat) : Rat) ≤ (n : Rat) := by exact_mod_cast h
  push_cast at this
  linarith

/-- `x[:-1]` and `x[1:]` have the same number of elements. -/
theorem slice_sizes (n : Nat) :
    sliceHi none (some (-1)) n - sliceLo none (some (-1)) n = sliceHi (some 1) none n - sliceLo (some 1) none n := by
  have h1 := length_sliceOf none (some (-1)) (List.replicate n 0)
  have h2 := length_sliceOf (some 1) none (List.replicate n 0)
  rw [List.length_replicate] at h1 h2
  rw [← h1, ← h2, sliceOf_init, sliceOf_tail]
  simp

theorem zipWith_dropLast_tail {α : Type} (f : Nat → Nat → α) (l : List Nat) :
    List.zipWith f l.dropLast l.tail = (List.range (l.length - 1)).map fun i => f (l.getD i 0) (l.getD (i + 1) 0) := by
  refine List.ext_getElem (by simp) fun i h1 h2 => ?_
  simp only [List.length_zipWith, List.length_dropLast, List.length_tail, Nat.min_self] at h1
  simp only [List.getElem_zipWith, List.getElem_dropLast, List.getElem_tail, List.getElem_map, List.getElem_range]
  rw [getD_of_lt (by omega), getD_of_lt (by omega)]

theorem minimize_ok {P : Nat → Prop} {s : Script} {i : Nat} {g : (Nat → Val) → Rat} (h : Computes P s i g)
    (o : Option Nat) (cs : List Nat) : Generated.minimize ⟨s, o, cs⟩ i = .ok ⟨s, some i, cs⟩ := by
  obtain ⟨c, z, k, h⟩ := h
  unfold Generated.minimize
  rw [guardUB_true h.is.lt, Res.ok_bind, guardThrow_true (by
    show sizeOne (s.row i).out.shape = true
    rw [h.out]
    rfl), Res.ok_bind]

theorem addConstraint_ok {P : Nat → Prop} {s : Script} {i : Nat} {size : SizeInfo} {const : Option (Arr Rat)} {g : (Nat → Val) → List Rat}
    (h : HasArr P s i [] (.ok ⟨⟨0, 1⟩, true⟩) size const g)
    (o : Option Nat) (cs : List Nat) : Generated.addConstraint ⟨s, o, cs⟩ i = .ok ⟨s, o, cs ++ [i]⟩ := by
  unfold Generated.addConstraint
  rw [guardUB_true h.is.lt, Res.ok_bind]
  show (do
    let a ← (s.row i).out.claim
    guardThrow (a.logical = true)
    guardThrow (sizeOne (s.row i).out.shape = true)
    .ok _) = _
  rw [h.out, Res.ok_bind, guardThrow_true (by decide), Res.ok_bind, guardThrow_true (by rfl), Res.ok_bind]

theorem wf_of_vector {a : Arr Rat} {n : Nat} (h : a.IsVector n) : a.WF := by
  unfold Arr.WF Arr.dynamic
  rw [h.1, show dynamicShape [(n : Int)] = false from by simp [dynamicShape]]
  simp [h.2]

theorem wf_of_matrix {a : Arr Rat} {m n : Nat} (h : a.IsMatrix m n) : a.WF := by
  unfold Arr.WF Arr.dynamic
  rw [h.1, show dynamicShape [(m : Int), (n : Int)] = false from by simp [dynamicShape]]
  simp [h.2]

theorem getD_map_cast (l : List Nat) (i : Nat) : (l.map fun k : Nat => (k : Rat)).getD i 0 = ((l.getD i 0 : Nat) : Rat) := by
  simp only [List.getD_eq_getElem?_getD, List.getElem?_map]
  cases l[i]? <;> simp

end Verif
