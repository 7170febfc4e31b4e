import Verif.Spec.Res
import Mathlib.Algebra.Order.Floor.Ring
import Mathlib.Data.Rat.Floor

/-!
# The functions behind the element-wise symbols
(/repo/dwave/optimization/include/dwave-optimization/nodes/mathematical.hpp 26-92, 142-153, 195-198, 373-378)

Exact arithmetic: numbers are rational; rounding, infinities and NaN are not modelled.
-/

namespace Verif

/-- A C++ `bool` converted to `double`. -/
def ofBool (b : Bool) : Rat := if b then 1 else 0

/-- `static_cast<bool>` of a number. -/
def truth (x : Rat) : Bool := decide (x ≠ 0)

/-- Rounding towards zero, as in `std::fmod`. -/
def truncate (q : Rat) : Int := if 0 ≤ q then ⌊q⌋ else ⌈q⌉

/-- `std::fmod` for a non-zero divisor: the remainder of the division rounded towards zero. -/
def fmod (x y : Rat) : Rat := x - truncate (x / y) * y

/-- `functional::modulus`, mathematical.hpp 58-74.  `std::signbit` of a number that is not zero says whether
it is negative; for `x = 0` the remainder is zero and the sign does not matter. -/
def modulus (x y : Rat) : Rat :=
  if y = 0 then 0
  else if decide (x < 0) ≠ decide (y < 0) ∧ fmod x y ≠ 0 then fmod x y + y
  else fmod x y

/-- The unary symbols, mathematical.hpp 373-378.  `squareRoot` carries the function computed by `std::sqrt`. -/
inductive UnaryOp where
  | absolute | logical | negative | not | square
  | squareRoot (root : Rat → Rat)

/-- What they compute, mathematical.hpp 30-38, 76-90 and `std::negate`, `std::logical_not`. -/
def UnaryOp.func : UnaryOp → Rat → Rat
  | absolute => fun x => if x < 0 then -x else x
  | logical => fun x => ofBool (truth x)
  | negative => fun x => -x
  | not => fun x => ofBool (!truth x)
  | square => fun x => x * x
  | squareRoot root => root

/-- The binary symbols, mathematical.hpp 142-153. -/
inductive BinaryOp where
  | add | and | divide | equal | lessEqual | multiply | maximum | minimum | modulus | or | subtract | xor
  deriving DecidableEq, Repr

/-- What they compute, mathematical.hpp 40-74 and the functions of the standard library. -/
def BinaryOp.func : BinaryOp → Rat → Rat → Rat
  | add => fun x y => x + y
  | and => fun x y => ofBool (truth x && truth y)
  | divide => fun x y => x / y
  | equal => fun x y => ofBool (decide (x = y))
  | lessEqual => fun x y => ofBool (decide (x ≤ y))
  | multiply => fun x y => x * y
  | maximum => fun x y => if x < y then y else x
  | minimum => fun x y => if y < x then y else x
  | modulus => Verif.modulus
  | or => fun x y => ofBool (truth x || truth y)
  | subtract => fun x y => x - y
  | xor => fun x y => ofBool (truth x != truth y)

end Verif
