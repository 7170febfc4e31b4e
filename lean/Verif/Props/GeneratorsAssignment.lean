import Verif.Lemmas.GenerateQap
import Verif.Props.Archive

set_option linter.unusedSectionVars false
set_option linter.unusedSimpArgs false
set_option linter.unusedVariables false

/-! Property C52: the generated quadratic assignment models are models of quadratic assignment. -/

namespace Verif

open Script Graph

/-- C52: for all square matrices of nonnegative distances and flows of the same size, at least 1 x 1 and of at most 2^28 elements, the
generated model can be built and locked, its states are exactly the assignments of the facilities to the locations, its objective is
the sum over all pairs of facilities of their flow times the distance between their locations, and it is always feasible; this stays
so after every history of proposals. -/
theorem C52_quadraticAssignment_partial {n : Nat} {distances flows : Arr Rat} (hD : distances.IsMatrix n n) (hF : flows.IsMatrix n n)
    (hD0 : ∀ x ∈ distances.data, 0 ≤ x) (hF0 : ∀ x ∈ flows.data, 0 ≤ x) (hn : 0 < n) (hbig : 8 * (n * n) ≤ 2 ^ 31) :
    ∃ M m, Generators.quadraticAssignment distances flows = .ok M ∧ M.Tracks (qapProblem n distances flows) m := by
  obtain ⟨M, e, h, ho⟩ := qap_proves hD hF hD0 hF0 hn hbig
  obtain ⟨m, hm⟩ := h.tracks_orders hn hbig ho
  exact ⟨M, m, e, hm⟩

/-- Distances between three locations, and flows between three facilities. -/
def threePlaces : Arr Rat := ⟨[3, 3], [0, 1, 5, 2, 0, 7/2, 4, 9, 0]⟩
def threeFlows : Arr Rat := ⟨[3, 3], [0, 2, 0, 0, 0, 1, 3, 0, 0]⟩

example : ∃ M m, Generators.quadraticAssignment threePlaces threeFlows = .ok M ∧ M.Tracks (qapProblem 3 threePlaces threeFlows) m :=
  C52_quadraticAssignment_partial ⟨rfl, rfl⟩ ⟨rfl, rfl⟩ (by decide +kernel) (by decide +kernel) (by decide) (by decide)

-- 2 · d(0, 1) + 1 · d(1, 2) + 3 · d(2, 0)
example : (qapProblem 3 threePlaces threeFlows).cost [0, 1, 2] = 2 + 7/2 + 12 := by decide +kernel
-- 2 · d(1, 2) + 1 · d(2, 0) + 3 · d(0, 1)
example : (qapProblem 3 threePlaces threeFlows).cost [1, 2, 0] = 7 + 4 + 3 := by decide +kernel

/-- C52: matrices that are not square, have a negative element, or differ in size are rejected. -/
theorem C52_rejects {a b : Arr Rat} (ha : a.shape.length = 2) (hb : b.shape.length = 2)
    (h : (∃ x ∈ a.data, x < 0) ∨ (∃ x ∈ b.data, x < 0) ∨ (∃ m n : Int, a.shape = [m, n] ∧ m ≠ n) ∨ a.shape ≠ b.shape) :
    Generators.quadraticAssignment a b = .throw := by
  unfold Generators.quadraticAssignment
  rcases require_cases 2 false true true a with e | ⟨_, _, h1, h3, e1⟩
  · rw [e]; rfl
  rcases require_cases 2 false true true b with e | ⟨_, _, h2, h4, e2⟩
  · rw [e1, e]; rfl
  rw [e1, e2, ha, hb]
  simp only [Res.ok_bind, Nat.sub_self, List.replicate_zero, List.nil_append]
  rcases h with ⟨x, hx, h⟩ | ⟨x, hx, h⟩ | ⟨m, n, hs, hmn⟩ | h
  · exact absurd (h1 rfl x hx) (not_le.2 h)
  · exact absurd (h2 rfl x hx) (not_le.2 h)
  · rw [hs] at h3
    simp [hmn] at h3
  · rw [guardThrow_false h]; rfl

/-- What becomes of the model without facilities. -/
def noFacilities : Bool :=
  match Generators.quadraticAssignment ⟨[0, 0], []⟩ ⟨[0, 0], []⟩ with
  | .ok M => match PyModel.new.run M.ops with
    | .ok m => match initAll m.g M.rows.sem (fun _ => [⟨[0], []⟩]) PState.empty with
      | .ub => true
      | _ => false
    | _ => false
  | _ => false

/-- C52, the boundary: for matrices without elements a model is made, but setting its only state, the empty assignment, is
undefined behaviour: the permutation reads the first entry of the empty order. -/
theorem C52_no_facilities_fails : ∃ M m, Generators.quadraticAssignment ⟨[0, 0], []⟩ ⟨[0, 0], []⟩ = .ok M ∧
    PyModel.new.run M.ops = .ok m ∧ initAll m.g M.rows.sem (fun _ => [⟨[0], []⟩]) PState.empty = .ub := by
  have h : noFacilities = true := by decide +kernel
  unfold noFacilities at h
  split at h
  · rename_i M e
    split at h
    · rename_i m e'
      split at h
      · rename_i e''
        exact ⟨M, m, e, e', e''⟩
      · cases h
    · cases h
  · cases h

end Verif
