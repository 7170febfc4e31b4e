import Verif.Spec.Arr
import Verif.Spec.Shape
import Mathlib.Data.Rat.Defs
import Mathlib.Algebra.Order.Ring.Rat

/-!
# Specification: the values of the symbols

What each symbol's value is, as a function of its operands' values.  Elements are in row-major order.
-/

namespace Verif

section
variable {α : Type} [DecidableEq α] [Inhabited α]

/-- Specification of the value: element by element; an operand with a single element is repeated. -/
def binaryValue (func : α → α → α) (l r : Arr α) : List α :=
  if sizeOne l.shape then r.data.map (func (l.data.headD default))
  else if sizeOne r.shape then l.data.map (func · (r.data.headD default))
  else List.zipWith func l.data r.data

/-- Specification of the value: position by position, the operation over all operands. -/
def naryValue (func : α → α → α) (xs : List (Arr α)) : List α :=
  match xs with
  | [] => []
  | x :: rest => (List.range x.data.length).map fun i =>
    rest.foldl (fun val y => func (y.data.getD i default) val) (x.data.getD i default)

end

/-- The specification of the value: for all coordinates of the result, in row-major order, the initial
value plus the sum over all positions along the axis. -/
def partialSumValue (shape : List Int) (axis : Nat) (init : Rat) (data : List Rat) : List Rat :=
  (allCoords (shape.eraseIdx axis)).map fun idx =>
    init + ((List.range (shape.getD axis 0).toNat).map fun (j : Nat) =>
      data.getD (rowMajor shape (idx.insertIdx axis (j : Int))).toNat 0).sum

/-- All elements (and the initial value) are non-zero: one; otherwise zero. -/
def allValue (init : Rat) (xs : List Rat) : Rat := if init ≠ 0 ∧ ∀ x ∈ xs, x ≠ 0 then 1 else 0

/-- Some element (or the initial value) is non-zero: one; otherwise zero. -/
def anyValue (init : Rat) (xs : List Rat) : Rat := if init ≠ 0 ∨ ∃ x ∈ xs, x ≠ 0 then 1 else 0

/-- The greatest (by `max`) or least (by `min`) of the elements and the initial value, if any. -/
def foldValue (op : Rat → Rat → Rat) (init : Option Rat) (xs : List Rat) : Rat :=
  match init, xs with
  | some i, xs => xs.foldl op i
  | none, x :: xs => xs.foldl op x
  | none, [] => 0

/-- The specification of the value: a one-element condition selects a whole array, otherwise selection is
position by position. -/
def whereValue (cshape : List Int) (xs : List (Arr Rat)) : List Rat :=
  match xs with
  | [c, x, y] =>
    if sizeOne cshape then (if c.data.getD 0 0 ≠ 0 then x.data else y.data)
    else (List.range x.data.length).map fun i =>
      if c.data.getD i 0 ≠ 0 then x.data.getD i 0 else y.data.getD i 0
  | _ => []

/-- The specification: the element with coordinate `c` along the axis and coordinates `rest` on the other
axes.  It is in the first operand if `c` is within it, otherwise in the following ones. -/
def concatPick (axis : Nat) : List (Arr Rat) → List Int → Int → Rat
  | [], _, _ => 0
  | x :: xs, rest, c =>
    if c < x.shape.getD axis 0 then x.data.getD (rowMajor x.shape (rest.insertIdx axis c)).toNat 0
    else concatPick axis xs rest (c - x.shape.getD axis 0)

/-- The specification of the value: at all coordinates, in row-major order. -/
def concatValue (axis : Nat) (out : List Int) (xs : List (Arr Rat)) : List Rat :=
  (allCoords out).map fun idx => concatPick axis xs (idx.eraseIdx axis) (idx.getD axis 0)

end Verif
