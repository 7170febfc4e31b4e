import Verif.Model.NodeBase
import Verif.Spec.Values
import Verif.Model.Shape

/-!
# Model of `BinaryOpNode` (/repo/dwave/optimization/src/nodes/mathematical.cpp 26-438)

The operation is a parameter.
-/

namespace Verif

variable {α : Type} [DecidableEq α] [Inhabited α]

/-- The shape checks of the constructor, mathematical.cpp 27-42: the output shape, or an exception. -/
def binaryShape (ls rs : List Int) : Res (List Int) := do
  let shape ← broadcastShape ls rs
  guardThrow (sizeOne ls ∨ sizeOne rs ∨ (¬ (dynamicShape ls ∨ dynamicShape rs) ∧ ls = rs))
  .ok shape

/-- `BinaryOpNode::initialize_state`, mathematical.cpp 71-119. -/
def binaryInit (func : α → α → α) : List (Arr α) → Res (List α)
  | [l, r] =>
    if l.shapeNow = r.shapeNow then do
      guardUB (r.data.length ≤ l.data.length)
      .ok (List.zipWith func l.data r.data)
    else if sizeOne l.shape then do
      .ok (r.data.map (func (← l.front)))
    else if sizeOne r.shape then do
      let b ← r.front
      .ok (l.data.map (func · b))
    else .ub
  | _ => .ub

/-- The loops of `propagate` when both operands were modified, mathematical.cpp 280-293. -/
def binaryBoth (func : α → α → α) (l r : Arr α) (s : ArrayState α) (u : Update α) :
    Res (ArrayState α) := do
  let a ← l.read u.index
  let b ← r.read u.index
  s.set u.index (func a b)

/-- The loop when only the left operand was modified, mathematical.cpp 297-301. -/
def binaryLeft (func : α → α → α) (r : Arr α) (s : ArrayState α) (u : Update α) :
    Res (ArrayState α) := do
  let a ← u.newValue
  let b ← r.read u.index
  s.write u.index (func a b)

/-- The loop when only the right operand was modified, mathematical.cpp 305-309. -/
def binaryRight (func : α → α → α) (l : Arr α) (s : ArrayState α) (u : Update α) :
    Res (ArrayState α) := do
  let a ← l.read u.index
  let b ← u.newValue
  s.write u.index (func a b)

/-- `BinaryOpNode::propagate`, mathematical.cpp 259-358. -/
def binaryPropagate (func : α → α → α) (s : ArrayState α) :
    List (Arr α × List (Update α)) → Res (ArrayState α)
  | [(l, dl), (r, dr)] =>
    if l.shapeNow = r.shapeNow then
      if dl ≠ [] ∧ dr ≠ [] then do
        let s ← dl.foldlM (binaryBoth func l r) s
        dr.foldlM (binaryBoth func l r) s
      else if dl ≠ [] then dl.foldlM (binaryLeft func r) s
      else dr.foldlM (binaryRight func l) s
    else if sizeOne l.shape then do
      let a ← l.front
      if dl ≠ [] then .ok (s.assign (r.data.map (func a)))
      else s.update (dr.map (Update.mapValue (func a)))
    else if sizeOne r.shape then do
      let b ← r.front
      if dr ≠ [] then .ok (s.assign (l.data.map (func · b)))
      else s.update (dl.map (Update.mapValue (func · b)))
    else .ub
  | _ => .ub

/-- `BinaryOpNode` with operands of static shapes `ls` and `rs` and the given output shape. -/
def binaryNode (func : α → α → α) (ls rs shape : List Int) : NodeSem (Arr α) (List (Update α)) :=
  arrayNode shape (fun xs => match xs with
      | [l, r] => binaryValue func l r
      | _ => [])
    (fun xs => xs.map Arr.shape = [ls, rs] ∧ ∀ x ∈ xs, x.WF)
    (binaryInit func) (binaryPropagate func)

end Verif
