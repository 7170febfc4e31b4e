import Verif.Spec.Arr
import Mathlib.Data.Rat.Defs
import Mathlib.Algebra.Order.Ring.Rat
import Mathlib.Algebra.Order.Field.Power
import Mathlib.Algebra.Order.Ring.Abs

/-!
# Specification: arithmetic with doubles

The numbers that a `double` can be (IEEE 754 binary64; infinities and NaN aside), and what is asked of the result of an arithmetic
operation: it is a double, and none is nearer to the exact result.  Which one is taken if two are equally near is left open, so
that what is shown for every `Rounding` holds in particular for rounding to even.
-/

namespace Verif

/-- The finite doubles: a whole number of at most 53 bits times a power of two. -/
def IsDouble (q : Rat) : Prop := ∃ m e : Int, |m| < 2 ^ 53 ∧ -1074 ≤ e ∧ e ≤ 971 ∧ q = m * (2 : Rat) ^ e

/-- The greatest double. -/
def greatestDouble : Rat := (2 ^ 53 - 1) * (2 : Rat) ^ (971 : Int)

/-- `fl q` is a double nearest to `q`, for all numbers that do not overflow. -/
structure Rounding (fl : Rat → Rat) : Prop where
  double : ∀ q, |q| ≤ greatestDouble → IsDouble (fl q)
  nearest : ∀ q, |q| ≤ greatestDouble → ∀ d, IsDouble d → |fl q - q| ≤ |d - q|

/-- Whole numbers up to 2^53 are not rounded.  (Besides doubles, this holds of `long double`, whether it has 53 bits or more.) -/
def KeepsWhole (fl : Rat → Rat) : Prop := ∀ z : Int, |z| ≤ 2 ^ 53 → fl z = z

/-- A whole number of magnitude at most `M`. -/
def Whole (M : Int) (x : Rat) : Prop := ∃ z : Int, |z| ≤ M ∧ x = z

/-- As `Incremental`, for histories in which the operands' reported changes satisfy more (`relIn`) than what is shown of the symbol's
own (`relOut`). -/
def IncrementalWithin {V D : Type} (relIn relOut : V → D → V → Prop) (quiet : D) (N : NodeSem V D)
    (f : List V → V) (ok : List V → Prop) : Prop :=
  ∀ xs0, ok xs0 → ∀ rounds xs, Legal relIn ok xs0 rounds xs →
    ∃ s0 s, N.init xs0 = .ok s0 ∧ rounds.foldlM N.round s0 = .ok s ∧
      N.view s = f xs ∧ N.diff s = quiet ∧
      ∀ ins ys, Ins relIn xs ins ys → ok ys →
        ∃ s', N.propagate s ins = .ok s' ∧ N.view s' = f ys ∧ relOut (f xs) (N.diff s') (f ys)

/-- The array's elements are whole numbers of magnitude at most `M`, and there are at most `n` of them. -/
structure WholeArr (n : Nat) (M : Int) (x : Arr Rat) : Prop where
  size : x.data.length ≤ n
  whole : ∀ v ∈ x.data, Whole M v

/-- The change is reported exactly; the numbers in the report are whole numbers of magnitude at most `M`, and never more than `n`
elements are in use. -/
structure WholeRel (n : Nat) (M : Int) (x : Arr Rat) (d : List (Update Rat)) (y : Arr Rat) : Prop where
  exact : ArrRel x d y
  index : ∀ u ∈ d, u.index < n
  old : ∀ u ∈ d, ∀ o, u.old = some o → Whole M o
  new : ∀ u ∈ d, ∀ v, u.value = some v → Whole M v

end Verif
