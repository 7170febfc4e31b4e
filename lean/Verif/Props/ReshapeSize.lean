import Verif.Model.Nodes.ReshapeSize
import Verif.Lemmas.NodeBase
import Verif.Props.Shape

set_option linter.unusedSectionVars false
set_option linter.unusedSimpArgs false
set_option linter.unusedVariables false

/-!
# C29: reshaping and size
-/

namespace Verif

variable {α : Type} [DecidableEq α] [Inhabited α]

/-- `ReshapeNode` keeps the symbol contract. -/
def reshapeContract (operand shape : List Int) (h : reshapeShape operand shape = .ok shape) :
    Contract ArrRel [] (reshapeNode (α := α) operand shape) where
  Clean := fun s xs => ∃ x, xs = [x] ∧ s = ⟨x.data, x.data, []⟩
  init := by
    rintro xs ⟨x, rfl, _⟩
    exact ⟨_, rfl, x, rfl, rfl⟩
  view := by rintro s xs ⟨x, rfl, rfl⟩; rfl
  diff := by rintro s xs ⟨x, rfl, rfl⟩; rfl
  propagate := by
    rintro s xs ins ys ⟨x, rfl, rfl⟩ ⟨_, hx, hs, hw⟩ _ hi
    cases hx
    obtain ⟨d, y, rfl, rfl, hr⟩ := hi.one
    refine ⟨⟨x.data, y.data, d⟩, rfl, rfl, ⟨rfl, hr.replays, fun _ => hr.fixed ?_⟩,
      ⟨_, rfl, y, rfl, rfl⟩, ⟨_, rfl, x, rfl, rfl⟩⟩
    unfold reshapeShape at h
    obtain ⟨_, h1, _⟩ := Res.bind_eq_ok.1 h
    unfold Arr.dynamic
    rw [hs]
    exact guardThrow_eq_ok.1 h1

/-- C29, reshaping.  If the constructor accepts the shape, then after every history the reshaped array
has the new shape and the operand's elements in row-major order, and reports exactly the operand's
changes. -/
theorem C29_reshape (operand shape : List Int) (h : reshapeShape operand shape = .ok shape) :
    Incremental ArrRel [] (reshapeNode (α := α) operand shape)
      (fun xs => ⟨shape, (xs.headD ⟨[], []⟩).data⟩)
      (fun xs => ∃ x, xs = [x] ∧ x.shape = operand ∧ x.WF) :=
  (reshapeContract operand shape h).incremental

/-- C29, reshaping.  The constructor accepts exactly the fixed shapes with as many elements; the
reshaped array then has as many elements as its shape says. -/
theorem C29_reshape_accepts (operand shape : List Int) :
    (reshapeShape operand shape = .ok shape ↔
      dynamicShape operand = false ∧ dynamicShape shape = false ∧ shape.prod = operand.prod) ∧
    ∀ x : Arr α, reshapeShape operand shape = .ok shape → x.shape = operand → x.WF →
      ((reshapeNode (α := α) operand shape).f [x]).WF := by
  have key : reshapeShape operand shape = .ok shape ↔
      dynamicShape operand = false ∧ dynamicShape shape = false ∧ shape.prod = operand.prod := by
    unfold reshapeShape guardThrow
    by_cases h1 : dynamicShape operand = false <;> by_cases h2 : dynamicShape shape = false <;>
      by_cases h3 : shape.prod = operand.prod <;> simp [h1, h2, h3]
  refine ⟨key, fun x h hx hw => ?_⟩
  obtain ⟨h1, h2, h3⟩ := key.1 h
  unfold Arr.WF Arr.dynamic at hw ⊢
  rw [hx, h1] at hw
  simp only [h2, Bool.false_eq_true, if_false] at hw ⊢
  rw [h3]
  simpa using hw

/-- `SizeNode` keeps the symbol contract. -/
def sizeContract : Contract ArrRel [] sizeNode where
  Clean := fun s xs => ∃ x, xs = [x] ∧ s = ScalarState.mk' (x.data.length : Rat)
  init := by
    rintro xs ⟨x, rfl⟩
    exact ⟨_, rfl, x, rfl, rfl⟩
  view := by rintro s xs ⟨x, rfl, rfl⟩; rfl
  diff := by rintro s xs ⟨x, rfl, rfl⟩; simp [ScalarState.diff, ScalarState.mk']
  propagate := by
    rintro s xs ins ys ⟨x, rfl, rfl⟩ _ _ hi
    obtain ⟨d, y, rfl, rfl, hr⟩ := hi.one
    refine ⟨⟨x.data.length, y.data.length⟩, rfl, rfl, ⟨rfl, ?_, ?_⟩, ⟨_, rfl, y, rfl, rfl⟩,
      ⟨_, rfl, x, rfl, rfl⟩⟩
    · simp only [ScalarState.diff]
      split_ifs with h
      · simp [Replays, h]
      · simp [Replays, Update.step, Update.change]
    · intro _ u hu
      simp only [ScalarState.diff] at hu
      split_ifs at hu with h
      · simp at hu
      · simp at hu; subst hu; rfl

/-- C29, size.  After every history the size symbol has the number of elements of its operand. -/
theorem C29_size :
    Incremental ArrRel [] sizeNode
      (fun xs => ⟨[], [((xs.headD ⟨[], []⟩).data.length : Rat)]⟩) (fun xs => ∃ x, xs = [x]) :=
  sizeContract.incremental

example : reshapeShape [2, 3] [3, 2] = .ok [3, 2] := by decide
example : reshapeShape [2, 3] [4] = .throw := by decide
example : (reshapeNode [2, 3] [6]).after [⟨[2, 3], [1, 2, 3, 4, 5, 6]⟩]
    [⟨[(⟨[2, 3], [1, 2, 3, 9, 5, 6]⟩, [Update.change 3 4 9])], true⟩,
     ⟨[(⟨[2, 3], [1, 2, 3, 9, 5, 7]⟩, [Update.change 5 6 7])], false⟩] =
    .ok ((⟨[6], [1, 2, 3, 9, 5, 6]⟩ : Arr Nat), []) := by decide +kernel
example : sizeNode.after [⟨[-1], [4, 5]⟩]
    [⟨[(⟨[-1], [4]⟩, [Update.removal 1 5])], true⟩] = .ok (⟨[], [1]⟩, []) := by decide +kernel

end Verif
