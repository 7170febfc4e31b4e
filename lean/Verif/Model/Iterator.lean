import Verif.Spec.Res
import Verif.Spec.Iterator

/-!
# Model of the strided array iterator

/repo/dwave/optimization/include/dwave-optimization/array.hpp 273-689, for an iterator with
`shape_` and without `mask_`.  The state is the pointer (counted in doubles), and for every axis
but axis 0 its location; the loops run from the last axis to axis 1, so the axes are kept in that
order, each with its dimension and stride.
-/

namespace Verif

/-- `loc[axis - 1]`, `shape[axis]`, `strides[axis]` for one `axis ≥ 1` (array.hpp 674-683). -/
structure Axis where
  loc : Int
  dim : Int
  stride : Int
  deriving DecidableEq, Repr

/-- `ArrayIteratorImpl_` with a `ShapeInfo` (array.hpp 505, 674-688), `ndim ≥ 1`.
`axes` are the axes `ndim - 1, ..., 1` in this order. -/
structure Iter where
  ptr : Int
  stride0 : Int
  axes : List Axis
  deriving DecidableEq, Repr

namespace Iter

/-- Constructor, array.hpp 313-317 and 535-543; `none` for `ndim = 0` (such arrays are contiguous
and use a plain pointer). -/
def make (ptr : Int) : (shape strides : List Int) → Option Iter
  | _ :: shape, s0 :: strides =>
    some ⟨ptr, s0, (shape.zipWith (fun d s => ⟨0, d, s⟩) strides).reverse⟩
  | _, _ => none

/-- The loop of `ShapeInfo::increment1`, array.hpp 595-609: (byte offset, new axes). -/
def inc1 (stride0 : Int) : List Axis → Int × List Axis
  | [] => (stride0, [])
  | a :: rest =>
    if a.loc + 1 < a.dim then (a.stride, { a with loc := a.loc + 1 } :: rest)
    else
      let (off, rest') := inc1 stride0 rest
      (a.stride - a.stride * a.dim + off, { a with loc := 0 } :: rest')

/-- The loop of `ShapeInfo::decrement1`, array.hpp 572-585. -/
def dec1 (stride0 : Int) : List Axis → Int × List Axis
  | [] => (-stride0, [])
  | a :: rest =>
    if a.loc - 1 ≥ 0 then (-a.stride, { a with loc := a.loc - 1 } :: rest)
    else
      let (off, rest') := dec1 stride0 rest
      (-a.stride + a.stride * a.dim + off, { a with loc := a.dim - 1 } :: rest')

/-- The loop of `ShapeInfo::increment`, array.hpp 632-666.  `std::div` truncates (`Int.tdiv`,
`Int.tmod`), and by zero it is undefined. -/
def incN (stride0 : Int) : List Axis → Int → Res (Int × List Axis)
  | [], quot => .ok (quot * stride0, [])
  | a :: rest, quot => do
    guardUB (0 ≤ a.loc)
    guardUB (a.dim ≠ 0)
    let n := quot + a.loc
    let q := n.tdiv a.dim
    let r := n.tmod a.dim
    let (q, r) := if r < 0 then (q - 1, r + a.dim) else (q, r)
    let off := -(a.loc * a.stride) + r * a.stride
    if q = 0 then .ok (off, { a with loc := r } :: rest)
    else do
      let (off', rest') ← incN stride0 rest q
      .ok (off + off', { a with loc := r } :: rest')

/-- `operator++`, array.hpp 347-361. -/
def incr (it : Iter) : Iter :=
  { it with ptr := it.ptr + (inc1 it.stride0 it.axes).1.tdiv 8, axes := (inc1 it.stride0 it.axes).2 }

/-- `operator--`, array.hpp 368-382. -/
def decr (it : Iter) : Iter :=
  { it with ptr := it.ptr + (dec1 it.stride0 it.axes).1.tdiv 8, axes := (dec1 it.stride0 it.axes).2 }

/-- `operator+=`, array.hpp 389-402, with the shortcuts of `ShapeInfo::increment`, 617-622. -/
def advance (it : Iter) (n : Int) : Res Iter :=
  if n = 0 then .ok it
  else if n = 1 then .ok it.incr
  else if n = -1 then .ok it.decr
  else do
    let r ← incN it.stride0 it.axes n
    .ok { it with ptr := it.ptr + r.1.tdiv 8, axes := r.2 }

/-- The loop of `operator-`, array.hpp 458-472, over the axes of `a` and `b`:
(change of offset, change of target.ptr, change of source.ptr, steps per step of axis 0). -/
def diffLoop : List Axis → List Axis → Int → Int × Int × Int × Int
  | a :: as, b :: bs, incs =>
    let (off, t, s, incs') := diffLoop as bs (incs * a.dim)
    (-(b.loc * incs) + a.loc * incs + off, -(a.loc * a.stride.tdiv 8) + t,
      -(b.loc * a.stride.tdiv 8) + s, incs')
  | _, _, incs => (0, 0, 0, incs)

/-- `operator-`, array.hpp 415-481, for two iterators over the same array.  Returns the distance and
the two *operands* afterwards: lines 455-456 take the location arrays of the operands themselves
(not of the copies), and lines 464, 469 set them to zero.  Division by a zero stride is undefined. -/
def sub (a b : Iter) : Res (Int × Iter × Iter) :=
  if a.ptr = b.ptr then .ok (0, a, b)
  else do
    let (off, t, s, incs) := diffLoop a.axes b.axes 1
    guardUB (a.stride0.tdiv 8 ≠ 0)
    .ok (off + ((a.ptr + t) - (b.ptr + s)).tdiv (a.stride0.tdiv 8) * incs,
      { a with axes := a.axes.map fun x => { x with loc := 0 } },
      { b with axes := b.axes.map fun x => { x with loc := 0 } })

/-- One move of the iterator. -/
def move (it : Iter) : IterMove → Res Iter
  | .incr => .ok it.incr
  | .decr => .ok it.decr
  | .advance n => it.advance n

end Iter

end Verif
