import Verif.Model.Numbers
import Verif.Model.QuadraticArguments

/-!
# Model of the arguments of `integer` and `binary`
(/repo/dwave/optimization/symbols.pyx 198-219, 669-675, 1648-1662, model.py 114-131, 260-289; include/dwave-optimization/array.hpp 841-861,
868-912; src/nodes/numbers.cpp 102-113)

Simplifications: the model is not locked, and a bound beyond 2^53 is not rounded when it becomes a `double` (it is beyond the range of `int`
before and after).
-/

namespace Verif

/-- The argument `shape`. -/
inductive ShapeArg where
  | none
  | int (n : Int)
  /-- a sequence; `none` stands for an item that is no integer -/
  | sequence (items : List (Option Int))
  | other
  deriving DecidableEq

/-- An argument `lower_bound` or `upper_bound`. -/
inductive BoundArg where
  | none
  /-- an integer or a finite floating point number -/
  | number (r : Rat)
  /-- infinite, or not a number -/
  | nonfinite
  /-- what cannot become a `double` -/
  | other
  deriving DecidableEq

/-- `_as_cppshape(tuple() if shape is None else shape)`, symbols.pyx 198-219, 1649. -/
def ShapeArg.convert : ShapeArg → Res (List Int)
  | .none => .ok []
  | .int n => do
    guardThrow (0 ≤ n)
    guardThrow (fitsSsize n)
    .ok [n]
  | .sequence items => do
    guardThrow (∀ x ∈ items, x ≠ Option.none)
    guardThrow (∀ n ∈ items.filterMap id, 0 ≤ n)
    guardThrow (∀ n ∈ items.filterMap id, fitsSsize n)
    .ok (items.filterMap id)
  | .other => .throw

/-- `<double>lower_bound`, symbols.pyx 1651-1658: `none` is no bound, `some none` an infinite one or none at all. -/
def BoundArg.toDouble : BoundArg → Res (Option (Option Rat))
  | .none => .ok Option.none
  | .number r => .ok (some (some r))
  | .nonfinite => .ok (some Option.none)
  | .other => .throw

/-- The conversion to `std::optional<int>`, numbers.cpp 104-105. -/
def boundToInt : Option (Option Rat) → Res (Option Int)
  | Option.none => .ok Option.none
  | some (some r) => do
    let k ← truncIntc r
    .ok (some k)
  | some Option.none => .ub

/-- `std::reduce(shape, shape + ndim, 1, std::multiplies<ssize_t>())`, array.hpp 844: products are made in 64 bits, but kept in an `int`, which
is the type of the initial value 1.  (Grouped from the left.) -/
def reduceShape (acc : Int) : List Int → Res Int
  | [] => .ok acc
  | d :: shape => do
    guardUB (fitsSsize (acc * d))
    reduceShape (toIntc (acc * d)) shape

/-- `shape_to_size`, array.hpp 841-845. -/
def cppSize : List Int → Res Int
  | [] => .ok 1
  | d :: shape => if d < 0 then .ok (-1) else reduceShape 1 (d :: shape)

/-- `shape_to_strides`, array.hpp 851-861, in 64 bits. -/
def cppStrides : List Int → Res (List Int)
  | [] => .ok []
  | [_] => .ok [8]
  | _ :: d :: shape => do
    let rest ← cppStrides (d :: shape)
    guardUB (fitsSsize (rest.headD 0 * d))
    .ok (rest.headD 0 * d :: rest)

/-- An `IntegerNode` or a `BinaryNode`. -/
structure NumVar where
  shape : List Int
  size : Int
  lo : Int
  hi : Int
  deriving DecidableEq

/-- The constructor of `IntegerNode`, numbers.cpp 102-109, with that of `ArrayOutputMixin`, array.hpp 875-876, 907-911. -/
def makeNumVar (shape : List Int) (lo? hi? : Option Int) : Res NumVar := do
  let _ ← cppStrides shape
  let size ← cppSize shape
  let c ← NumNode.make size.toNat lo? hi?
  .ok ⟨shape, size, c.lo, c.hi⟩

/-- `integer(shape, lower_bound, upper_bound)`, symbols.pyx 1648-1662. -/
def pyInteger (shape : ShapeArg) (lower upper : BoundArg) : Res NumVar := do
  let shape ← shape.convert
  let lower ← lower.toDouble
  let upper ← upper.toDouble
  let lo? ← boundToInt lower
  let hi? ← boundToInt upper
  makeNumVar shape lo? hi?

/-- `binary(shape)`, symbols.pyx 669-675, numbers.hpp 141-142. -/
def pyBinary (shape : ShapeArg) : Res NumVar := do
  let shape ← shape.convert
  makeNumVar shape (some 0) (some 1)

/-- `dynamic()`, array.hpp 797. -/
def sizeChanges (size : Int) : Bool := decide (size < 0)

namespace NumVar

/-- `dynamic()`, array.hpp 797. -/
def dynamic (v : NumVar) : Bool := sizeChanges v.size

/-- `initialize_state`, numbers.cpp 45-60, where the size is converted to `size_t`. -/
def init (v : NumVar) (values : List Rat) : Res (ArrayState Rat) := do
  guardThrow (0 ≤ v.size)
  (NumNode.mk v.size.toNat v.lo v.hi).init values

end NumVar
end Verif
