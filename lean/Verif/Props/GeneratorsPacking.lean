import Verif.Lemmas.GenerateBins
import Verif.Props.Archive

set_option linter.unusedSectionVars false
set_option linter.unusedSimpArgs false
set_option linter.unusedVariables false

/-! Property C53: the generated bin packing models are models of bin packing. -/

namespace Verif

open Script Graph

/-- C53: for all nonempty vectors of nonnegative weights and every positive capacity that no weight exceeds, the generated model can be
built and locked, its states are exactly the ways to put the items into bins, its objective is the number of bins in use, and it is
feasible exactly if no bin holds more than the capacity; this stays so after every history of proposals. -/
theorem C53_binPacking {n : Nat} {weights : Arr Rat} {capacity : Rat} (hW : weights.IsVector n) (hW0 : ∀ x ∈ weights.data, 0 ≤ x)
    (hfit : ∀ x ∈ weights.data, x ≤ capacity) (hcap : 0 < capacity) (hn : 0 < n) :
    ∃ M m, Generators.binPacking weights capacity = .ok M ∧ M.Tracks (binPackingProblem n weights capacity) m := by
  obtain ⟨M, e, h⟩ := bins_proves hW hW0 hfit hcap hn
  obtain ⟨m, hm⟩ := h.tracks
  exact ⟨M, m, e, hm⟩

/-- Four items. -/
def fourItems : Arr Rat := ⟨[4], [3, 1/2, 2, 3]⟩

example : ∃ M m, Generators.binPacking fourItems 5 = .ok M ∧ M.Tracks (binPackingProblem 4 fourItems 5) m :=
  C53_binPacking ⟨rfl, rfl⟩ (by decide +kernel) (by decide +kernel) (by decide +kernel) (by decide)

-- items 0 and 2 in bin 1, items 1 and 3 in bin 3
example : (binPackingProblem 4 fourItems 5).values [1, 3, 1, 3] 2 =
    [⟨[4], [0, 0, 0, 0]⟩, ⟨[4], [1, 0, 1, 0]⟩, ⟨[4], [0, 0, 0, 0]⟩, ⟨[4], [0, 1, 0, 1]⟩] := by decide +kernel
example : (binPackingProblem 4 fourItems 5).cost [1, 3, 1, 3] = 2 := by decide +kernel
example : (binPackingProblem 4 fourItems 5).feasible [1, 3, 1, 3] := by
  show ∀ k < 4, _
  decide +kernel
-- items 0, 1 and 2 weigh 11/2
example : ¬ (binPackingProblem 4 fourItems 5).feasible [0, 0, 0, 3] := by
  intro h
  exact absurd (h 0 (by decide)) (by decide +kernel)

/-- C53: problems without items, with a negative weight, with a capacity that is not positive or with an item that fits into no bin are
rejected. -/
theorem C53_rejects {weights : Arr Rat} {capacity : Rat}
    (h : weights.shape = [0] ∨ (∃ x ∈ weights.data, x < 0) ∨ capacity ≤ 0 ∨ (∃ x ∈ weights.data, capacity < x) ∨
      1 < weights.shape.length) : Generators.binPacking weights capacity = .throw := by
  unfold Generators.binPacking
  rcases require_cases 1 false true false weights with e | ⟨h1, _, h2, _, e1⟩
  · rw [e]; rfl
  rw [e1, Res.ok_bind]
  rcases h with h | ⟨x, hx, h⟩ | h | ⟨x, hx, h⟩ | h
  · rw [guardThrow_false (by simp [h])]; rfl
  · exact absurd (h2 rfl x hx) (not_le.2 h)
  · rcases guardThrow_cases ((List.replicate (1 - weights.shape.length) 1 ++ weights.shape).headD 0 ≠ 0) with ⟨_, e⟩ | ⟨_, e⟩
    · rw [e, Res.ok_bind, guardThrow_false (by simpa using h)]; rfl
    · rw [e]; rfl
  · rcases guardThrow_cases ((List.replicate (1 - weights.shape.length) 1 ++ weights.shape).headD 0 ≠ 0) with ⟨_, e⟩ | ⟨_, e⟩
    · rw [e, Res.ok_bind]
      rcases guardThrow_cases (¬ capacity ≤ 0) with ⟨_, e⟩ | ⟨_, e⟩
      · rw [e, Res.ok_bind, guardThrow_false (by
          intro hc
          exact hc x hx h)]
        rfl
      · rw [e]; rfl
    · rw [e]; rfl
  · omega

/-- C53: every accepted problem has a feasible solution: each item in a bin of its own. -/
theorem C53_solvable {n : Nat} {weights : Arr Rat} {capacity : Rat} (hW : weights.IsVector n)
    (hfit : ∀ x ∈ weights.data, x ≤ capacity) :
    (binPackingProblem n weights capacity).valid (List.range n) ∧ (binPackingProblem n weights capacity).feasible (List.range n) ∧
      (binPackingProblem n weights capacity).cost (List.range n) = n := by
  refine ⟨⟨by simp, fun k hk => List.mem_range.1 hk⟩, ?_, ?_⟩
  · intro k hk
    have hf : ((List.range n).filter fun e => decide ((List.range n).getD e 0 = k)) = [k] := by
      have : ∀ e ∈ List.range n, decide ((List.range n).getD e 0 = k) = decide (e = k) := by
        intro e he
        have he := List.mem_range.1 he
        rw [getD_of_lt (by simpa using he)]
        simp
      rw [List.filter_congr this]
      have : (List.range n).filter (fun e => decide (e = k)) = (List.range n).filter (· == k) := by
        refine List.filter_congr fun e _ => ?_
        rfl
      rw [this, List.filter_beq, List.count_eq_one_of_mem List.nodup_range (List.mem_range.2 hk)]
      rfl
    rw [hf]
    have hk' : k < weights.data.length := by rw [hW.2]; exact hk
    simp only [List.map_cons, List.map_nil, List.sum_cons, List.sum_nil, add_zero]
    unfold Arr.elem
    rw [getD_of_lt hk']
    exact hfit _ (List.getElem_mem hk')
  · show (((List.range n).dedup.length : Nat) : Rat) = n
    rw [List.nodup_range.dedup, List.length_range]

end Verif
