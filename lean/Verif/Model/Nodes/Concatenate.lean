import Verif.Model.NodeBase
import Verif.Spec.Values
import Verif.Model.Shape
import Verif.Model.Iterator
import Verif.Spec.Shape
import Mathlib.Data.Rat.Defs
import Mathlib.Algebra.Order.Ring.Rat

/-!
# Model of `ConcatenateNode` (/repo/dwave/optimization/src/nodes/manipulation.cpp 25-171)
-/

namespace Verif

/-- Two neighbouring operands, manipulation.cpp 89-120: as many dimensions, and the same except on the
axis. -/
def concatMatch (axis : Nat) (s t : List Int) : Bool :=
  decide (s.length = t.length) && decide (s.eraseIdx axis = t.eraseIdx axis)

/-- The loop of manipulation.cpp 87-121. -/
def concatChain (axis : Nat) : List (List Int) → Bool
  | s :: t :: rest => concatMatch axis s t && concatChain axis (t :: rest)
  | _ => true

/-- `make_concatenate_shape`, manipulation.cpp 81-146.  (A negative axis is rejected in line 126; here the
axis is a natural number.) -/
def concatShape (shapes : List (List Int)) (axis : Nat) : Res (List Int) :=
  match shapes with
  | [] => .throw
  | s :: rest => do
    guardThrow (concatChain axis (s :: rest) = true)
    guardThrow (axis < s.length)
    .ok (s.set axis ((s :: rest).map fun t => t.getD axis 0).sum)

/-- `array_starts_`, manipulation.cpp 34-41. -/
def concatStarts (axis : Nat) : Int → List (List Int) → List Int
  | _, [] => []
  | start, s :: rest => start :: concatStarts axis (start + (s.drop axis).prod) rest

/-- The position in the buffer of an iterator with the operand's shape and the result's strides
(manipulation.cpp 69-73 and 153-157) after some moves. -/
def concatPos (out : List Int) (start : Int) (shape : List Int) (moves : List IterMove) : Res Nat :=
  match Iter.make start shape (shapeToStrides out) with
  | none => .ub
  | some it0 => do
    let it ← moves.foldlM Iter.move it0
    guardUB (0 ≤ it.ptr)
    .ok it.ptr.toNat

/-- Writing to a vector; outside it is undefined. -/
def vecSet {α : Type} (l : List α) (i : Nat) (v : α) : Res (List α) :=
  if i < l.length then .ok (l.set i v) else .ub

/-- `std::copy(array->begin(), array->end(), view_it)`, manipulation.cpp 75: one operand. -/
def concatCopy (out : List Int) (values : List Rat) (x : Arr Rat × Int) : Res (List Rat) :=
  x.1.data.zipIdx.foldlM (fun values (v : Rat × Nat) => do
    let p ← concatPos out x.2 x.1.shape (List.replicate v.2 .incr)
    vecSet values p v.1) values

/-- `initialize_state`, manipulation.cpp 57-79. -/
def concatInit (axis : Nat) (out : List Int) (xs : List (Arr Rat)) : Res (List Rat) :=
  (xs.zip (concatStarts axis 0 (xs.map Arr.shape))).foldlM (concatCopy out)
    (List.replicate out.prod.toNat 0)

/-- The loop body of `propagate`, manipulation.cpp 158-165.  The recorded old value is `*view_it`, the
first element of the operand's block. -/
def concatStep (out : List Int) (start : Int) (shape : List Int) (s : ArrayState Rat) (u : Update Rat) :
    Res (ArrayState Rat) :=
  match u.old, u.value with
  | some o, some v => do
    let p ← concatPos out start shape [.advance u.index]
    match s.buffer[p]?, s.buffer[start.toNat]? with
    | some cur, some first => do
      guardUB (cur = o)
      .ok { s with
        updates := s.updates ++ [Update.change p first v]
        buffer := s.buffer.set p v }
    | _, _ => .ub
  | _, _ => .ub

/-- `propagate`, manipulation.cpp 148-167. -/
def concatPropagate (axis : Nat) (out : List Int) (s : ArrayState Rat)
    (ins : List (Arr Rat × List (Update Rat))) : Res (ArrayState Rat) :=
  (ins.zip (concatStarts axis 0 (ins.map fun i => i.1.shape))).foldlM
    (fun s i => i.1.2.foldlM (concatStep out i.2 i.1.1.shape) s) s

/-- `ConcatenateNode` for operands of the given fixed shapes. -/
@[reducible] def concatNode (shapes : List (List Int)) (axis : Nat) (out : List Int) :
    NodeSem (Arr Rat) (List (Update Rat)) :=
  arrayNode out (concatValue axis out)
    (fun xs => xs.map Arr.shape = shapes ∧ ∀ x ∈ xs, x.WF)
    (concatInit axis out) (concatPropagate axis out)

end Verif
