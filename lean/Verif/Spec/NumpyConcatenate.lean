import Verif.Spec.Values

/-!
# `numpy.concatenate`

Part of the specification of C79; written from NumPy's documentation.
-/

namespace Verif

/-- An axis counted from the front or, if negative, from the back; `none`: `AxisError`. -/
def npAxis (ndim : Nat) (axis : Int) : Option Nat :=
  if -(ndim : Int) ≤ axis ∧ axis < ndim then some (if axis < 0 then axis + ndim else axis).toNat else none

/-- `np.concatenate(xs, axis)` of a sequence of arrays: at least one, with as many dimensions each, at least one, that are the same except
on the axis.  `none`: an exception. -/
def npConcatenate (xs : List (Arr Rat)) (axis : Int) : Option (Arr Rat) :=
  match xs with
  | [] => none
  | x :: rest =>
    match npAxis x.shape.length axis with
    | none => none
    | some a =>
      if ∀ y ∈ rest, y.shape.length = x.shape.length ∧ y.shape.eraseIdx a = x.shape.eraseIdx a then
        let out := x.shape.set a ((x :: rest).map fun y => y.shape.getD a 0).sum
        some ⟨out, concatValue a out (x :: rest)⟩
      else none

/-- An array as the sequence of its parts along the first axis; `none`: arrays without axes are no sequences. -/
def npRows (x : Arr Rat) : Option (List (Arr Rat)) :=
  match x.shape with
  | [] => none
  | d :: rest => some ((List.range d.toNat).map fun i => ⟨rest, (x.data.drop (i * rest.prod.toNat)).take rest.prod.toNat⟩)

/-- `np.concatenate(x, axis)` of a single array: it is taken as the sequence of its parts. -/
def npConcatenateArray (x : Arr Rat) (axis : Int) : Option (Arr Rat) := (npRows x).bind fun xs => npConcatenate xs axis

example : npConcatenate [⟨[2, 2], [0, 1, 2, 3]⟩, ⟨[1, 2], [4, 5]⟩] 0 = some ⟨[3, 2], [0, 1, 2, 3, 4, 5]⟩ := by decide +kernel
example : npConcatenate [⟨[2, 2], [0, 1, 2, 3]⟩, ⟨[2, 1], [4, 5]⟩] (-1) = some ⟨[2, 3], [0, 1, 4, 2, 3, 5]⟩ := by decide +kernel
example : npConcatenate [⟨[2, 2], [0, 1, 2, 3]⟩, ⟨[1, 2], [4, 5]⟩] 1 = none := by decide +kernel
example : npConcatenate [⟨[], [0]⟩, ⟨[], [1]⟩] 0 = none := by decide +kernel
example : npConcatenateArray ⟨[2, 2], [0, 1, 2, 3]⟩ 0 = some ⟨[4], [0, 1, 2, 3]⟩ := by decide +kernel

end Verif
