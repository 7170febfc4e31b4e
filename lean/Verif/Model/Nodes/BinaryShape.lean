import Verif.Model.Nodes.Binary

/-!
# Model of what `BinaryOpNode` says about its size and shape (/repo/dwave/optimization/src/nodes/mathematical.cpp)

It takes them from its operands.  Whether an operand has one element is asked of the state, not of the symbol.
-/

namespace Verif

variable {α : Type} [DecidableEq α] [Inhabited α]

/-- An operand in a state: its values, and what its `shape(state)` returns. -/
structure Reporting (α : Type) where
  value : Arr α
  shape : List Int
  deriving DecidableEq, Repr

/-- An operand that reports the shape of its values. -/
def Reporting.true (a : Arr α) : Reporting α := ⟨a, a.shapeNow⟩

/-- `shape(state)`, mathematical.cpp 365-375, for a symbol of static shape `shape`; a failed assertion is `ub`. -/
def binaryShapeNow (shape : List Int) (l r : Reporting α) : Res (List Int) :=
  if dynamicShape shape = false then .ok shape
  else do
    guardUB (l.value.data.length = 1 ∨ r.value.data.length = 1)
    .ok (if l.value.data.length = 1 then r.shape else l.shape)

/-- `size(state)`, mathematical.cpp 377-390. -/
def binarySizeNow (shape : List Int) (l r : Reporting α) : Res Int :=
  if 0 ≤ shapeToSize shape then .ok (shapeToSize shape)
  else do
    guardUB (l.value.data.length = 1 ∨ r.value.data.length = 1)
    .ok (if l.value.data.length = 1 then r.value.data.length else l.value.data.length)

/-- `propagate`, mathematical.cpp 259-358, as `binaryPropagate`, but comparing the shapes that the operands report. -/
def binaryPropagateReported (func : α → α → α) (s : ArrayState α) (l : Reporting α) (dl : List (Update α)) (r : Reporting α)
    (dr : List (Update α)) : Res (ArrayState α) :=
  if l.shape = r.shape then
    if dl ≠ [] ∧ dr ≠ [] then do
      let s ← dl.foldlM (binaryBoth func l.value r.value) s
      dr.foldlM (binaryBoth func l.value r.value) s
    else if dl ≠ [] then dl.foldlM (binaryLeft func r.value) s
    else dr.foldlM (binaryRight func l.value) s
  else if sizeOne l.value.shape then do
    let a ← l.value.front
    if dl ≠ [] then .ok (s.assign (r.value.data.map (func a)))
    else s.update (dr.map (Update.mapValue (func a)))
  else if sizeOne r.value.shape then do
    let b ← r.value.front
    if dr ≠ [] then .ok (s.assign (l.value.data.map (func · b)))
    else s.update (dl.map (Update.mapValue (func · b)))
  else .ub

/-- `array_ptr_->shape(state)[0]`, the number of rows that a slice of an array of changing size is fitted to
(`BasicIndexingNode::update_dynamic_shape`, indexing.cpp 1085).  There is nothing to read in an empty span. -/
def rowsReported (x : Reporting α) : Res Int :=
  match x.shape with
  | d :: _ => .ok d
  | [] => .ub

end Verif
