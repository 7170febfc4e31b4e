import Verif.Model.NodeBase
import Verif.Spec.Values
import Verif.Model.Shape
import Verif.Spec.Shape
import Mathlib.Data.Rat.Defs
import Mathlib.Algebra.Order.Ring.Rat

/-!
# Model of `PartialReduceNode<std::plus>` (/repo/dwave/optimization/src/nodes/mathematical.cpp 767-1073)

The operand is given by its elements in row-major order, so its strides are those of a contiguous array
(for other arrays the code reads the same elements through the array's own strides).  Arithmetic is
exact.
-/

namespace Verif

/-- The loop of `map_parent_index`, mathematical.cpp 923-941: `k` is `current_parent_axis`, the lists are
what is left of `parent_strides_c_` and of the node's own strides. -/
def mapParentLoop (axis : Nat) : Nat → List Int → List Int → Int → Res Int
  | _, [], _, _ => .ok 0
  | k, stride :: strides, own, flat => do
    guardUB (stride / 8 ≠ 0)
    if k = axis then mapParentLoop axis (k + 1) strides own (flat % (stride / 8))
    else
      match own with
      | [] => .ub
      | o :: own => do
        let rest ← mapParentLoop axis (k + 1) strides own (flat % (stride / 8))
        .ok (flat / (stride / 8) * (o / 8) + rest)

/-- `map_parent_index`, mathematical.cpp 912-944, with its assertions (the first compares the axis with
the *size* of the operand). -/
def mapParentIndex (shape : List Int) (axis : Nat) (size : Nat) (flat : Nat) : Res Int := do
  guardUB (axis < size)
  guardUB (flat < size)
  mapParentLoop axis 0 (shapeToStrides shape) (shapeToStrides (shape.eraseIdx axis)) flat

/-- `PartialReduceNode::reduce`, mathematical.cpp 997-1050.  The loop over `ax` in 1016-1022 uses the
operand's strides without the one of `axis`. -/
def partialReduce (shape : List Int) (axis : Nat) (init : Rat) (x : Arr Rat) (index : Nat) : Res Rat := do
  let indices ← unravelIndex (shapeToStrides (shape.eraseIdx axis)) index
  let start ← ravelMultiIndex ((shapeToStrides shape).eraseIdx axis) indices
  let elems ← (List.range ((shape.getD axis 0).toNat)).mapM fun (j : Nat) =>
    x.read (start + (shapeToStrides shape).getD axis 0 / 8 * j).toNat
  .ok (elems.foldl (· + ·) init)

/-- `initialize_state`, mathematical.cpp 877-892. -/
def partialSumInit (shape : List Int) (axis : Nat) (init : Rat) (xs : List (Arr Rat)) : Res (List Rat) :=
  match xs with
  | [x] => (List.range (shape.eraseIdx axis).prod.toNat).mapM (partialReduce shape axis init x)
  | _ => .ub

/-- The loop body of `propagate`, mathematical.cpp 988-991. -/
def partialSumStep (shape : List Int) (axis : Nat) (size : Nat) (s : ArrayState Rat) (u : Update Rat) :
    Res (ArrayState Rat) := do
  let index ← mapParentIndex shape axis size u.index
  match s.buffer[index.toNat]?, u.old, u.value with
  | some previous, some o, some v => s.write index.toNat (previous + (v - o))
  | _, _, _ => .ub

/-- `propagate`, mathematical.cpp 980-995. -/
def partialSumPropagate (shape : List Int) (axis : Nat) (s : ArrayState Rat)
    (ins : List (Arr Rat × List (Update Rat))) : Res (ArrayState Rat) :=
  match ins with
  | [(x, d)] => d.foldlM (partialSumStep shape axis x.data.length) s
  | _ => .ub

/-- `PartialSumNode`. -/
@[reducible] def partialSumNode (shape : List Int) (axis : Nat) (init : Rat) :
    NodeSem (Arr Rat) (List (Update Rat)) :=
  arrayNode (shape.eraseIdx axis)
    (fun xs => partialSumValue shape axis init (xs.headD ⟨[], []⟩).data)
    (fun xs => ∃ x, xs = [x] ∧ x.shape = shape ∧ x.WF)
    (partialSumInit shape axis init) (partialSumPropagate shape axis)

end Verif
