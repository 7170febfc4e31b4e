import Verif.Spec.Slice
import Verif.Spec.Shape

/-!
# Specification: NumPy's basic indexing

https://numpy.org/doc/stable/user/basics.indexing.html#basic-indexing, for steps that are not negative.
-/

namespace Verif

/-- An integer, or a slice `start:stop:step` whose parts may be missing. -/
inductive BasicIndex where
  | at (i : Int)
  | slice (start stop step : Option Int)
  deriving DecidableEq, Repr

/-- The positions of `range(n)[start:stop:step]` in a dimension of `n` entries, for a positive step:
every `step`-th one from `start'` on and before `stop'`. -/
def slicePositions (start stop step : Option Int) (n : Nat) : List Nat :=
  (List.range n).filter fun i =>
    (pyIndices start stop (step.getD 1) n).1 ≤ (i : Int) ∧ (i : Int) < (pyIndices start stop (step.getD 1) n).2.1 ∧
      ((i : Int) - (pyIndices start stop (step.getD 1) n).1) % step.getD 1 = 0

/-- The coordinates selected from an array of the given shape, in row-major order of the result: integers (negative
ones count from the end) fix a coordinate, slices run through their positions. -/
def selectCoords : List Int → List BasicIndex → List (List Int)
  | [], [] => [[]]
  | n :: shape, .at i :: idx => (selectCoords shape idx).map ((if i < 0 then i + n else i) :: ·)
  | n :: shape, .slice a b c :: idx =>
    (slicePositions a b c n.toNat).flatMap fun (p : Nat) => (selectCoords shape idx).map ((p : Int) :: ·)
  | _, _ => []

/-- The shape of the result: one dimension for each slice. -/
def selectShape : List Int → List BasicIndex → List Int
  | n :: shape, .slice a b c :: idx => (slicePositions a b c n.toNat).length :: selectShape shape idx
  | _ :: shape, .at _ :: idx => selectShape shape idx
  | _, _ => []

/-- Integers are in range, steps are positive. -/
def SelectOk : List Int → List BasicIndex → Prop
  | [], [] => True
  | n :: shape, .at i :: idx => (-n ≤ i ∧ i < n) ∧ SelectOk shape idx
  | _ :: shape, .slice _ _ c :: idx => 0 < c.getD 1 ∧ SelectOk shape idx
  | _, _ => False

/-- The elements of `x[idx]`, where `x` has the given shape and the elements `data` in row-major order. -/
def basicSelect {α : Type} [Inhabited α] (shape : List Int) (data : List α) (idx : List BasicIndex) : List α :=
  (selectCoords shape idx).map fun c => data.getD (rowMajor shape c).toNat default

end Verif
