import Mathlib.Algebra.Order.Ring.Rat
import Mathlib.Algebra.Order.AbsoluteValue.Basic

/-!
# Specification: declared value ranges
-/

namespace Verif

/-- What a symbol declares by `min()` and `max()`. -/
structure Range where
  lo : Rat
  hi : Rat
  deriving DecidableEq, Repr

/-- The value is in the range. -/
def Range.Has (r : Range) (v : Rat) : Prop := r.lo ≤ v ∧ v ≤ r.hi

instance (r : Range) (v : Rat) : Decidable (r.Has v) := by unfold Range.Has; infer_instance

/-- The largest finite `double`, `std::numeric_limits<double>::max()`. -/
def dblMax : Rat := (2 ^ 53 - 1) * 2 ^ 971

/-- The number does not overflow. -/
def Finite (v : Rat) : Prop := -dblMax ≤ v ∧ v ≤ dblMax

instance (v : Rat) : Decidable (Finite v) := by unfold Finite; infer_instance

/-- The number is an integer. -/
def IsInt (v : Rat) : Prop := ∃ k : Int, v = k

end Verif
