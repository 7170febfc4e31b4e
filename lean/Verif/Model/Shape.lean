import Verif.Spec.Res

/-!
# Model of the shape helpers

/repo/dwave/optimization/src/array.cpp and /repo/dwave/optimization/include/dwave-optimization/array.hpp.
`ssize_t` is `Int` (no overflow); `sizeof(double)` is 8.
-/

namespace Verif

/-- The loops of `broadcast_shape`, array.cpp 214-239, over the reversed shapes. -/
def broadcastRev : List Int → List Int → Res (List Int)
  | l :: ls, r :: rs =>
    if l = r then do .ok (l :: (← broadcastRev ls rs))
    else if l = 1 then do .ok (r :: (← broadcastRev ls rs))
    else if r = 1 then do .ok (l :: (← broadcastRev ls rs))
    else .throw
  | [], rs => .ok rs
  | ls, [] => .ok ls

/-- `broadcast_shape`, array.cpp 201-243. -/
def broadcastShape (lhs rhs : List Int) : Res (List Int) := do
  .ok (← broadcastRev lhs.reverse rhs.reverse).reverse

/-- `unravel_index`, array.cpp 249-258.  The divisions are unsigned; operands that are negative (and
would be converted modulo 2^64) are outside the model and, like division by zero, count as `ub`. -/
def unravelIndex : List Int → Int → Res (List Int)
  | [], _ => .ok []
  | stride :: strides, index => do
    guardUB (0 ≤ index ∧ 0 ≤ stride ∧ stride / 8 ≠ 0)
    let rest ← unravelIndex strides (index % (stride / 8))
    .ok (index / (stride / 8) :: rest)

/-- `ravel_multi_index`, array.cpp 260-271; reading `indices[i]` past its end is undefined.
`index * stride / sizeof(double)` is an unsigned division of the product; a negative product is
outside the model. -/
def ravelMultiIndex : List Int → List Int → Res Int
  | [], _ => .ok 0
  | _ :: _, [] => .ub
  | stride :: strides, index :: indices => do
    guardUB (0 ≤ index * stride)
    let rest ← ravelMultiIndex strides indices
    .ok (index * stride / 8 + rest)

/-- `Array::shape_to_size`, array.hpp 841-845. -/
def shapeToSize : List Int → Int
  | [] => 1
  | d :: shape => if d < 0 then -1 else shape.foldl (· * ·) (1 * d)

/-- `Array::shape_to_strides`, array.hpp 851-861: the last stride is 8, and going left
`strides[i] = strides[i+1] * shape[i+1]`. -/
def shapeToStrides : List Int → List Int
  | [] => []
  | [_] => [8]
  | _ :: d :: shape =>
    match shapeToStrides (d :: shape) with
    | s :: rest => s * d :: s :: rest
    | [] => []

/-- The loop of `Array::is_contiguous`, array.hpp 820-835, over (dim, stride) from the last axis. -/
def isContiguousRev : List (Int × Int) → Int → Bool
  | [], _ => true
  | (dim, stride) :: rest, sd =>
    if dim = 0 then true
    else if dim ≠ 1 ∧ stride ≠ sd then false
    else isContiguousRev rest (sd * dim)

/-- `Array::is_contiguous`, array.hpp 816-836. -/
def isContiguous (shape strides : List Int) : Bool :=
  isContiguousRev (shape.zip strides).reverse 8

end Verif
