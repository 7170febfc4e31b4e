import Verif.Lemmas.GenerateTsp
import Verif.Lemmas.GenerateKnapsack
import Verif.Props.Archive

set_option linter.unusedSectionVars false
set_option linter.unusedSimpArgs false
set_option linter.unusedVariables false

/-! Properties C49, C50: the generated models are models of the problems. -/

namespace Verif

open Script

/-! ## The traveling salesperson problem -/

/-- C49: for every square matrix of nonnegative distances between at least one city, the generated model can be built and locked,
its states are exactly the orders of the cities, its objective is the length of the round trip, and it is always feasible; this
stays so after every history of proposals, accepted or rejected. -/
theorem C49_tsp {n : Nat} {D : Arr Rat} (hD : D.IsMatrix n n) (h0 : ∀ x ∈ D.data, 0 ≤ x) (hn : 0 < n) (hbig : (n : Int) ≤ ssMax) :
    ∃ M m, Generators.travelingSalesperson D = .ok M ∧ M.Tracks (tspProblem n D) m := by
  obtain ⟨M, e, h⟩ := tsp_proves (full := True) hD h0 hn hbig
  obtain ⟨m, hm⟩ := h.tracks
  exact ⟨M, m, e, hm⟩

/-- Three cities with distances that depend on the direction. -/
def threeCities : Arr Rat := ⟨[3, 3], [0, 1, 5, 2, 0, 7/2, 4, 9, 0]⟩

example : ∃ M m, Generators.travelingSalesperson threeCities = .ok M ∧ M.Tracks (tspProblem 3 threeCities) m :=
  C49_tsp ⟨rfl, rfl⟩ (by decide +kernel) (by decide) (by decide)

-- one direction around is 1 + 7/2 + 4, the other 5 + 9 + 2
example : (tspProblem 3 threeCities).cost [0, 1, 2] = 17/2 := by decide +kernel
example : (tspProblem 3 threeCities).cost [0, 2, 1] = 16 := by decide +kernel
example : (tspProblem 3 threeCities).valid [2, 0, 1] := by
  show List.Perm [2, 0, 1] (List.range 3)
  decide

/-- C49: matrices that are not square or have a negative element are rejected. -/
theorem C49_rejects {a : Arr Rat} (h : 2 < a.shape.length ∨ (∃ x ∈ a.data, x < 0) ∨ ∃ m n : Int, a.shape = [m, n] ∧ m ≠ n) :
    Generators.travelingSalesperson a = .throw := by
  have : Generators.require 2 false true true a = .throw := by
    rcases require_cases 2 false true true a with e | ⟨h1, _, h2, h3, _⟩
    · exact e
    · exfalso
      rcases h with h | ⟨x, hx, h⟩ | ⟨m, n, hs, hmn⟩
      · omega
      · exact absurd (h2 rfl x hx) (not_le.2 h)
      · rw [hs] at h3
        simp [hmn] at h3
  unfold Generators.travelingSalesperson
  rw [this]
  rfl

/-- C49, the boundary: a matrix without cities is square, but the generator does not return a model of the empty tour: the last city
of the tour does not exist, and the program ends with an exception. -/
theorem C49_no_cities_fails : Generators.travelingSalesperson ⟨[0, 0], []⟩ = .throw := by
  refine ArchiveExample.eq_throw ?_
  decide +kernel

/-! ## The knapsack problem -/

/-- C50: for nonnegative values and weights of at least one item and a positive capacity, the generated model can be built and
locked, its states are exactly the choices of items (in any order), it is feasible exactly if the weight of the chosen items is at
most the capacity, and its objective is the negative of their value; this stays so after every history of proposals. -/
theorem C50_knapsack {n : Nat} {values weights : Arr Rat} {capacity : Rat} (hv : values.IsVector n) (hw : weights.IsVector n)
    (hv0 : ∀ x ∈ values.data, 0 ≤ x) (hw0 : ∀ x ∈ weights.data, 0 ≤ x) (hc : 0 < capacity) (hn : 0 < n) :
    ∃ M m, Generators.knapsack values weights capacity = .ok M ∧ M.Tracks (knapsackProblem n values weights capacity) m := by
  obtain ⟨M, e, h⟩ := knapsack_proves (full := True) hv hw hv0 hw0 hc hn
  obtain ⟨m, hm⟩ := h.tracks
  exact ⟨M, m, e, hm⟩

example : ∃ M m, Generators.knapsack ⟨[3], [7, 3, 5/2]⟩ ⟨[3], [4, 2, 3]⟩ 6 = .ok M ∧
    M.Tracks (knapsackProblem 3 ⟨[3], [7, 3, 5/2]⟩ ⟨[3], [4, 2, 3]⟩ 6) m :=
  C50_knapsack ⟨rfl, rfl⟩ ⟨rfl, rfl⟩ (by decide +kernel) (by decide +kernel) (by decide +kernel) (by decide)

-- items 1 and 0 fit, items 0 and 2 do not
example : (knapsackProblem 3 ⟨[3], [7, 3, 5/2]⟩ ⟨[3], [4, 2, 3]⟩ 6).feasible [1, 0] := by
  show (_ : Rat) ≤ 6
  decide +kernel
example : ¬ (knapsackProblem 3 ⟨[3], [7, 3, 5/2]⟩ ⟨[3], [4, 2, 3]⟩ 6).feasible [0, 2] := by
  show ¬ (_ : Rat) ≤ 6
  decide +kernel
example : (knapsackProblem 3 ⟨[3], [7, 3, 5/2]⟩ ⟨[3], [4, 2, 3]⟩ 6).cost [1, 0] = -10 := by decide +kernel

/-- C50: values and weights of different lengths, negative ones, and capacities that are not positive are rejected. -/
theorem C50_rejects {values weights : Arr Rat} {capacity : Rat} (hv : values.shape.length = 1) (hw : weights.shape.length = 1)
    (h : (∃ x ∈ values.data, x < 0) ∨ (∃ x ∈ weights.data, x < 0) ∨ weights.shape ≠ values.shape ∨ capacity ≤ 0) :
    Generators.knapsack values weights capacity = .throw := by
  unfold Generators.knapsack
  rcases require_cases 1 false true false weights with e | ⟨_, _, h1, _, e1⟩
  · rw [e]; rfl
  rcases require_cases 1 false true false values with e | ⟨_, _, h2, _, e2⟩
  · rw [e1, e]; rfl
  rw [e1, e2, hv, hw]
  simp only [Res.ok_bind, Nat.sub_self, List.replicate_zero, List.nil_append]
  rcases h with ⟨x, hx, h⟩ | ⟨x, hx, h⟩ | h | h
  · exact absurd (h2 rfl x hx) (not_le.2 h)
  · exact absurd (h1 rfl x hx) (not_le.2 h)
  · rw [guardThrow_false h]; rfl
  · rcases guardThrow_cases (weights.shape = values.shape) with ⟨_, e⟩ | ⟨_, e⟩
    · rw [e, Res.ok_bind, guardThrow_false (not_not.2 h)]; rfl
    · rw [e]; rfl

end Verif
