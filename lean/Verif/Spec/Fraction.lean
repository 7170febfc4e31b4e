import Mathlib.Data.Rat.Defs
import Mathlib.Data.Rat.Floor

/-!
# What fraction arithmetic means: rational numbers
-/

namespace Verif

/-- The arithmetic operations a user of fractions has. -/
inductive FracOp where
  | mulInt (n : Int)
  | mulFrac (num den : Int)
  | divInt (n : Int)

/-- Their meaning on rational numbers; `none`: division by zero. -/
def FracOp.effect (q : Rat) : FracOp → Option Rat
  | mulInt n => some (q * n)
  | mulFrac a b => if b = 0 then none else some (q * (a / b))
  | divInt n => if n = 0 then none else some (q / n)

/-- Rounding towards zero, as C++ converts. -/
def truncRat (q : Rat) : Int := if 0 ≤ q then ⌊q⌋ else ⌈q⌉

end Verif
