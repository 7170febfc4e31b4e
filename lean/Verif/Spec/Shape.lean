import Mathlib.Data.Int.Notation

/-!
# Shapes, broadcasting and row-major positions, as NumPy documents them

Dimensions and strides are integers; a negative leading dimension marks a dynamic array.
-/

namespace Verif

/-- The `i`-th dimension counted from the right (`i = 0` is the last one); a missing dimension
counts as 1 (NumPy: "Missing dimensions are assumed to have size one"). -/
def dimR (s : List Int) (i : Nat) : Int := (s.reverse[i]?).getD 1

/-- NumPy: "two dimensions are compatible when they are equal, or one of them is 1". -/
def Broadcastable (a b : List Int) : Prop :=
  ∀ i, dimR a i = dimR b i ∨ dimR a i = 1 ∨ dimR b i = 1

/-- `c` is the broadcast shape of `a` and `b`: as many dimensions as the longer of the two, and
each dimension is the one which is not 1 (if there is one). -/
def IsBroadcast (a b c : List Int) : Prop :=
  c.length = max a.length b.length ∧
  ∀ i, dimR c i = if dimR a i = 1 then dimR b i else dimR a i

/-- The coordinates `idx` address an element of an array of shape `shape`. -/
def InShape : List Int → List Int → Prop
  | [], [] => True
  | d :: shape, i :: idx => 0 ≤ i ∧ i < d ∧ InShape shape idx
  | _, _ => False

/-- Number of elements: product of the dimensions. -/
def shapeProd : List Int → Int
  | [] => 1
  | d :: shape => d * shapeProd shape

/-- Position of the element with coordinates `idx` when the elements are enumerated in row-major
order: the last coordinate varies fastest. -/
def rowMajor : List Int → List Int → Int
  | _ :: shape, i :: idx => i * shapeProd shape + rowMajor shape idx
  | _, _ => 0

/-- Byte offset of the element with coordinates `idx` in a strided array. -/
def byteOffset : List Int → List Int → Int
  | s :: strides, i :: idx => i * s + byteOffset strides idx
  | _, _ => 0

/-- Walking the array in row-major order visits consecutive doubles in memory. -/
def VisitsConsecutive (shape strides : List Int) : Prop :=
  ∀ idx, InShape shape idx → byteOffset strides idx = 8 * rowMajor shape idx

/-- All coordinates of an array, in row-major order. -/
def allCoords : List Int → List (List Int)
  | [] => [[]]
  | d :: shape =>
    (List.range d.toNat).flatMap fun (i : Nat) => (allCoords shape).map (Int.ofNat i :: ·)

end Verif
