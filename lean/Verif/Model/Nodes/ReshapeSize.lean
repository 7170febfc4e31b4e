import Verif.Model.NodeBase
import Mathlib.Data.Rat.Defs
import Mathlib.Algebra.Order.Ring.Rat

/-!
# Model of `ReshapeNode` and `SizeNode` (/repo/dwave/optimization/src/nodes/manipulation.cpp 173-271)
-/

namespace Verif

/-- The checks of `ReshapeNode`'s constructor, manipulation.cpp 173-204, for a contiguous operand. -/
def reshapeShape (operand shape : List Int) : Res (List Int) := do
  guardThrow (dynamicShape operand = false)
  guardThrow (dynamicShape shape = false)
  guardThrow (shape.prod = operand.prod)
  .ok shape

/-- `ReshapeNode` has no state of its own: `buff` and `diff` are the operand's (manipulation.cpp 209-217).
The state here is what it sees through its operand: the operand's committed value, present value and
diff.  `commit` and `revert` do nothing themselves (manipulation.cpp 211, 217); what changes is the
operand, which is committed or reverted along with it. -/
structure ThroughState (α : Type) where
  committed : List α
  current : List α
  diff : List (Update α)

/-- `ReshapeNode`, manipulation.cpp 173-217. -/
@[reducible] def reshapeNode {α : Type} (operand shape : List Int) : NodeSem (Arr α) (List (Update α)) where
  σ := ThroughState α
  f := fun xs => ⟨shape, (xs.headD ⟨[], []⟩).data⟩
  ok := fun xs => ∃ x, xs = [x] ∧ x.shape = operand ∧ x.WF
  init := fun xs =>
    match xs with
    | [x] => .ok ⟨x.data, x.data, []⟩
    | _ => .ub
  propagate := fun s ins =>
    match ins with
    | [(x, d)] => .ok { s with current := x.data, diff := d }
    | _ => .ub
  commit := fun s => .ok ⟨s.current, s.current, []⟩
  revert := fun s => .ok ⟨s.committed, s.committed, []⟩
  view := fun s => ⟨shape, s.current⟩
  diff := fun s => s.diff

/-- `SizeNode`, manipulation.cpp 219-271: a `ScalarNodeStateData` which holds the operand's size. -/
@[reducible] def sizeNode : NodeSem (Arr Rat) (List (Update Rat)) where
  σ := ScalarState Rat
  f := fun xs => ⟨[], [((xs.headD ⟨[], []⟩).data.length : Rat)]⟩
  ok := fun xs => ∃ x, xs = [x]
  init := fun xs =>
    match xs with
    | [x] => .ok (ScalarState.mk' (x.data.length : Rat))
    | _ => .ub
  propagate := fun s ins =>
    match ins with
    | [(x, _)] => .ok (s.set (x.data.length : Rat))
    | _ => .ub
  commit := fun s => .ok s.commit
  revert := fun s => .ok s.revert
  view := fun s => ⟨[], s.view⟩
  diff := fun s => s.diff

end Verif
