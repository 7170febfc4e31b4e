import Verif.Spec.Shape

/-!
# Specification: NumPy's advanced indexing with index arrays and full slices

https://numpy.org/doc/stable/user/basics.indexing.html#combining-advanced-and-basic-indexing, for indices that are full slices
`:` or index arrays of one common length.  `kinds` says for each axis whether it is indexed by an array (`true`) or taken
whole (`false`).
-/

namespace Verif

/-- Coordinates of the indexed array: those of the array axes and those of the slice axes, in order. -/
def mergeCoords : List Bool → List Int → List Int → List Int
  | true :: kinds, i :: is, ss => i :: mergeCoords kinds is ss
  | false :: kinds, is, s :: ss => s :: mergeCoords kinds is ss
  | _, _, _ => []

/-- The dimensions of the axes taken whole. -/
def sliceDims : List Bool → List Int → List Int
  | true :: kinds, _ :: shape => sliceDims kinds shape
  | false :: kinds, d :: shape => d :: sliceDims kinds shape
  | _, _ => []

/-- The number of axes before the first index array. -/
def leading (kinds : List Bool) : Nat := kinds.findIdx id

/-- A slice lies between two index arrays. -/
def separated (kinds : List Bool) : Bool := ((kinds.dropWhile (!·)).dropWhile id).any id

/-- The dimension of the index arrays comes first (first bullet of NumPy's rules) if they are separated by a slice, otherwise
it takes the place of the adjacent index arrays (second bullet). -/
def advLeft (kinds : List Bool) : Nat := if separated kinds then 0 else leading kinds

/-- The shape of the result, `arrays` being the shape of the index arrays. -/
def advShape (kinds : List Bool) (shape arrays : List Int) : List Int :=
  (sliceDims kinds shape).take (advLeft kinds) ++ arrays ++ (sliceDims kinds shape).drop (advLeft kinds)

/-- The coordinates selected by `count` rows of index arrays, in row-major order of the result: `index t` are the coordinates
the index arrays give for their `t`-th entry. -/
def advCoords (kinds : List Bool) (shape : List Int) (index : Nat → List Int) (count : Nat) : List (List Int) :=
  (allCoords ((sliceDims kinds shape).take (advLeft kinds))).flatMap fun p =>
    (List.range count).flatMap fun (t : Nat) =>
      (allCoords ((sliceDims kinds shape).drop (advLeft kinds))).map fun s => mergeCoords kinds (index t) (p ++ s)

/-- The elements of `x[indices]`, where `x` has the given shape and the elements `data` in row-major order. -/
def advSelect {α : Type} [Inhabited α] (kinds : List Bool) (shape : List Int) (data : List α) (index : Nat → List Int)
    (count : Nat) : List α :=
  (advCoords kinds shape index count).map fun c => data.getD (rowMajor shape c).toNat default

end Verif
