import Verif.Model.Nodes.Where
import Verif.Model.Shape

/-!
# Model of what `WhereNode` says about its size and shape (/repo/dwave/optimization/src/nodes/flow.cpp)

It takes them from the operand that the condition selects, not from its own values.
-/

namespace Verif

/-- `shape(state)`, flow.cpp 229-238, with the operands' values `xs`; a failed assertion is `ub`. -/
def whereShapeNow (cshape shape : List Int) (xs : List (Arr Rat)) : Res (List Int) :=
  match xs with
  | [c, x, y] =>
    if dynamicShape shape = false then .ok shape
    else do
      guardUB (sizeOne cshape = true)
      if (← c.front) ≠ 0 then .ok x.shapeNow else .ok y.shapeNow
  | _ => .ub

/-- `size(state)`, flow.cpp 240-254. -/
def whereSizeNow (cshape shape : List Int) (s : ArrayState Rat) (xs : List (Arr Rat)) : Res Int :=
  match xs with
  | [c, x, y] =>
    if 0 ≤ shapeToSize shape then .ok (shapeToSize shape)
    else do
      guardUB (sizeOne cshape = true)
      let size : Int := if (← c.front) ≠ 0 then x.data.length else y.data.length
      guardUB ((s.buffer.length : Int) = size)
      .ok size
  | _ => .ub

/-- `size_diff(state)`, flow.cpp 256-259. -/
def whereSizeDiff (shape : List Int) (s : ArrayState Rat) : Int :=
  if dynamicShape shape = false then 0 else s.sizeDiff

end Verif
