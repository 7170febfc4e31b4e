import Verif.Spec.Res
import Verif.Spec.Fraction

/-!
# Model of `fraction` (/repo/dwave/optimization/include/dwave-optimization/utils.hpp 77-159)

`ssize_t` is `Int`: overflow of numerator or denominator is not modelled.
-/

namespace Verif

/-- Members, utils.hpp 157-158. -/
structure Fraction where
  num : Int
  den : Int
  deriving DecidableEq, Repr

namespace Fraction

/-- First half of `reduce`, utils.hpp 147-150; C++ division truncates, division by zero is
undefined. -/
def cancel (f : Fraction) : Res Fraction :=
  if (Int.gcd f.num f.den : Int) ≠ 1 then do
    guardUB ((Int.gcd f.num f.den : Int) ≠ 0)
    .ok ⟨f.num.tdiv (Int.gcd f.num f.den), f.den.tdiv (Int.gcd f.num f.den)⟩
  else .ok f

/-- `reduce`, utils.hpp 146-155. -/
def reduce (f : Fraction) : Res Fraction := do
  let f ← f.cancel
  if f.den < 0 then .ok ⟨f.num * -1, f.den * -1⟩ else .ok f

/-- Construction from one integer, utils.hpp 81-82. -/
def ofInt (n : Int) : Fraction := ⟨n, 1⟩

/-- Construction from two integers, utils.hpp 83-87. -/
def make (num den : Int) : Res Fraction := do
  guardThrow (den ≠ 0)
  reduce ⟨num, den⟩

/-- `operator*=` with an integer, utils.hpp 104-108. -/
def mulInt (f : Fraction) (n : Int) : Res Fraction := reduce ⟨f.num * n, f.den⟩

/-- `operator*=` with a fraction, utils.hpp 109-114. -/
def mul (f g : Fraction) : Res Fraction := reduce ⟨f.num * g.num, f.den * g.den⟩

/-- `operator/=`, utils.hpp 119-124. -/
def divInt (f : Fraction) (n : Int) : Res Fraction := do
  guardThrow (n ≠ 0)
  reduce ⟨f.num, f.den * n⟩

/-- `operator==` with a fraction, utils.hpp 96-98. -/
def beq (f g : Fraction) : Bool := f.num == g.num && f.den == g.den

/-- `operator==` with an integer, utils.hpp 99-101. -/
def beqInt (f : Fraction) (n : Int) : Bool := f.num == n && f.den == 1

/-- Conversion to `ssize_t`, utils.hpp 93. -/
def toInt (f : Fraction) : Int := f.num.tdiv f.den

/-- One operation on a fraction. -/
def run1 (f : Fraction) : FracOp → Res Fraction
  | .mulInt n => f.mulInt n
  | .mulFrac a b => do f.mul (← make a b)
  | .divInt n => f.divInt n

end Fraction

end Verif
