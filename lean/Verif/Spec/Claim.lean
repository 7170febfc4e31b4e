import Verif.Spec.Range
import Verif.Spec.Val

/-!
# Specification: what a symbol declares about its values
-/

namespace Verif

/-- What a symbol declares about its values for all states: `min()`, `max()` and `integral()`. -/
structure Claim where
  range : Range
  integral : Bool
  deriving DecidableEq, Repr

/-- All elements of all outputs are as declared. -/
def Claim.Holds (c : Claim) (v : Val) : Prop :=
  ∀ a ∈ v, ∀ x ∈ a.data, c.range.Has x ∧ (c.integral = true → IsInt x)

/-- `Array::logical`, array.hpp 791. -/
def Claim.logical (c : Claim) : Bool := c.integral && decide (0 ≤ c.range.lo) && decide (c.range.hi ≤ 1)

end Verif
