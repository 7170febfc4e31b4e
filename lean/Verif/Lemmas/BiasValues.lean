import Verif.Spec.Quadratic
import Mathlib.Algebra.BigOperators.Ring.Finset
import Mathlib.Tactic.Ring

/-! Helper lemmas: the value of a quadratic polynomial whose biases are added one after the other. -/

namespace Verif

namespace Biases

theorem value_addLinear (b : Biases) {n v : Nat} (hv : v < n) (c : Rat) (x : Nat → Rat) :
    (b.onLinear v fun a => a + c).value n x = b.value n x + c * x v := by
  have h : ∑ i ∈ Finset.range n, (if i = v then b.linear i + c else b.linear i) * x i =
      ∑ i ∈ Finset.range n, b.linear i * x i + c * x v := by
    have : ∀ i ∈ Finset.range n, (if i = v then b.linear i + c else b.linear i) * x i =
        b.linear i * x i + if i = v then c * x v else 0 := by
      intro i _
      split_ifs with hi
      · subst hi; ring
      · ring
    rw [Finset.sum_congr rfl this, Finset.sum_add_distrib, Finset.sum_ite_eq', if_pos (Finset.mem_range.2 hv)]
  unfold value onLinear
  simp only
  rw [h]
  ring

theorem value_addPair (b : Biases) {n u w : Nat} (hu : u < n) (hw : w < n) (h : u ≠ w) (c : Rat) (x : Nat → Rat) :
    (b.onQuadratic u w fun a => a + c).value n x = b.value n x + c * (x u * x w) := by
  obtain ⟨i0, j0, hi0, hj0, hsel, hx⟩ : ∃ i0 j0, i0 < n ∧ j0 < i0 ∧
      (∀ i j, j < i → (((i = u ∧ j = w) ∨ (i = w ∧ j = u)) ↔ (i = i0 ∧ j = j0))) ∧ x i0 * x j0 = x u * x w := by
    rcases Nat.lt_or_gt_of_ne h with h | h
    · exact ⟨w, u, hw, h, fun i j hij => by omega, mul_comm _ _⟩
    · exact ⟨u, w, hu, h, fun i j hij => by omega, rfl⟩
  have hin : ∀ i ∈ Finset.range n, ∑ j ∈ Finset.range i,
      (if (i = u ∧ j = w) ∨ (i = w ∧ j = u) then some ((b.pair i j).getD 0 + c) else b.pair i j).getD 0 * (x i * x j) =
      ∑ j ∈ Finset.range i, (b.pair i j).getD 0 * (x i * x j) + if i = i0 then c * (x i0 * x j0) else 0 := by
    intro i _
    have : ∀ j ∈ Finset.range i,
        (if (i = u ∧ j = w) ∨ (i = w ∧ j = u) then some ((b.pair i j).getD 0 + c) else b.pair i j).getD 0 * (x i * x j) =
        (b.pair i j).getD 0 * (x i * x j) + if j = j0 then (if i = i0 then c * (x i0 * x j0) else 0) else 0 := by
      intro j hj
      have hji := Finset.mem_range.1 hj
      by_cases hs : i = i0 ∧ j = j0
      · rw [if_pos ((hsel i j hji).2 hs), if_pos hs.2, if_pos hs.1, hs.1, hs.2]
        simp only [Option.getD_some]
        ring
      · rw [if_neg (fun hc => hs ((hsel i j hji).1 hc))]
        by_cases h1 : j = j0
        · rw [if_pos h1, if_neg (fun h2 => hs ⟨h2, h1⟩), add_zero]
        · rw [if_neg h1, add_zero]
    rw [Finset.sum_congr rfl this, Finset.sum_add_distrib, Finset.sum_ite_eq']
    congr 1
    by_cases hi : i = i0
    · rw [if_pos (Finset.mem_range.2 (hi ▸ hj0))]
    · rw [if_neg hi, ite_self]
  unfold value onQuadratic
  rw [if_neg h]
  simp only
  rw [Finset.sum_congr rfl hin, Finset.sum_add_distrib, Finset.sum_ite_eq', if_pos (Finset.mem_range.2 hi0), hx]
  ring

theorem value_zero (n : Nat) (x : Nat → Rat) : zero.value n x = 0 := by
  unfold value zero
  simp

end Biases

/-- What a request adds to the value. -/
def BiasOp.adds (x : Nat → Rat) : BiasOp → Rat
  | .addLinear v c => c * x v
  | .addQuadratic u v c => c * (x u * x v)
  | _ => 0

/-- Requests that add biases of variables and of pairs of different variables. -/
def BiasOp.Adding : BiasOp → Prop
  | .addLinear _ _ => True
  | .addQuadratic u v _ => u ≠ v
  | _ => False

theorem value_biasesOf {n : Nat} {ops : List BiasOp} (hr : ∀ op ∈ ops, op.inRange n) (ha : ∀ op ∈ ops, op.Adding) (x : Nat → Rat) :
    (biasesOf ops).value n x = (ops.map (BiasOp.adds x)).sum := by
  have : ∀ (ops : List BiasOp) (b : Biases), (∀ op ∈ ops, op.inRange n) → (∀ op ∈ ops, op.Adding) →
      (ops.foldl BiasOp.apply b).value n x = b.value n x + (ops.map (BiasOp.adds x)).sum := by
    intro ops
    induction ops with
    | nil => intro b _ _; simp
    | cons op ops ih =>
      intro b hr ha
      rw [List.foldl_cons, ih _ (fun o ho => hr o (by simp [ho])) (fun o ho => ha o (by simp [ho]))]
      have h1 := hr op (by simp)
      have h2 := ha op (by simp)
      have : (op.apply b).value n x = b.value n x + op.adds x := by
        cases op with
        | setLinear v c => exact h2.elim
        | addLinear v c => exact b.value_addLinear h1 c x
        | setQuadratic u v c => exact h2.elim
        | addQuadratic u v c => exact b.value_addPair h1.1 h1.2 h2 c x
      rw [this, List.map_cons, List.sum_cons, add_assoc]
  unfold biasesOf
  rw [this ops _ hr ha, Biases.value_zero, zero_add]

end Verif
