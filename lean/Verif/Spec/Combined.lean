import Mathlib.Data.List.Forall2
import Mathlib.Algebra.Field.Rat
import Mathlib.Data.Rat.Lemmas
import Verif.Spec.Indexing
import Verif.Spec.Advanced
import Verif.Spec.Arr

/-!
# Specification: NumPy's indexing with integers, slices and index arrays mixed

https://numpy.org/doc/stable/user/basics.indexing.html#combining-advanced-and-basic-indexing.  All index arrays have one common
shape.  As soon as there is an index array, integers count as index arrays as well.
-/

namespace Verif

/-- What stands in one place between the brackets. -/
inductive MixedIndex where
  | at (i : Int)
  | slice (start stop step : Option Int)
  | array
  deriving DecidableEq, Repr

namespace MixedIndex

/-- `:` -/
abbrev all : MixedIndex := .slice none none none

/-- Integers count as index arrays. -/
def advanced : MixedIndex → Bool
  | .slice _ _ _ => false
  | _ => true

/-- Missing indices stand for `:`. -/
def padded (idx : List MixedIndex) (ndim : Nat) : List MixedIndex := idx ++ List.replicate (ndim - idx.length) all

/-- Integers are in range, steps are positive, there is one index for each dimension. -/
def Ok : List Int → List MixedIndex → Prop
  | [], [] => True
  | n :: shape, .at i :: idx => (-n ≤ i ∧ i < n) ∧ Ok shape idx
  | _ :: shape, .slice _ _ c :: idx => 0 < c.getD 1 ∧ Ok shape idx
  | _ :: shape, .array :: idx => Ok shape idx
  | _, _ => False

/-- The positions along each dimension that is indexed by a slice. -/
def positions : List Int → List MixedIndex → List (List Nat)
  | n :: shape, .slice a b c :: idx => slicePositions a b c n.toNat :: positions shape idx
  | _ :: shape, _ :: idx => positions shape idx
  | _, _ => []

/-- The coordinates along the other dimensions, when the index arrays give the coordinates `is`. -/
def fixed : List Int → List MixedIndex → List Int → List Int
  | n :: shape, .at i :: idx, is => (if i < 0 then i + n else i) :: fixed shape idx is
  | _ :: shape, .slice _ _ _ :: idx, is => fixed shape idx is
  | _ :: shape, .array :: idx, i :: is => i :: fixed shape idx is
  | _, _, _ => []

/-- The lengths of the dimensions that are indexed by arrays. -/
def arrayAxes : List Int → List MixedIndex → List Int
  | n :: shape, .array :: idx => n :: arrayAxes shape idx
  | _ :: shape, _ :: idx => arrayAxes shape idx
  | _, _ => []

end MixedIndex

/-- The index arrays contain only integers from 0 to n - 1, n being the length of the dimension they index. -/
def IndexEntries (dims : List Int) (ys : List (Arr Rat)) : Prop :=
  List.Forall₂ (fun (d : Int) (y : Arr Rat) => ∀ v ∈ y.data, ∃ k : Nat, v = k ∧ (k : Int) < d) dims ys

/-- All choices of one position from each list; the last one changes fastest. -/
def choices : List (List Nat) → List (List Int)
  | [] => [[]]
  | l :: ls => l.flatMap fun (p : Nat) => (choices ls).map ((p : Int) :: ·)

open MixedIndex

/-- The shape of the result, `arrays` being the shape of the index arrays. -/
def mixedShape (shape : List Int) (idx : List MixedIndex) (arrays : List Int) : List Int :=
  let dims := (positions shape idx).map fun l => (l.length : Int)
  dims.take (advLeft (idx.map advanced)) ++ arrays ++ dims.drop (advLeft (idx.map advanced))

/-- The selected coordinates, in row-major order of the result: `index t` are the coordinates the `count` rows of index arrays give for
their `t`-th entry. -/
def mixedCoords (shape : List Int) (idx : List MixedIndex) (index : Nat → List Int) (count : Nat) : List (List Int) :=
  (choices ((positions shape idx).take (advLeft (idx.map advanced)))).flatMap fun p =>
    (List.range count).flatMap fun (t : Nat) =>
      (choices ((positions shape idx).drop (advLeft (idx.map advanced)))).map fun q =>
        mergeCoords (idx.map advanced) (fixed shape idx (index t)) (p ++ q)

/-- `x[idx]` in NumPy, where `x` has the given shape and the elements `data` in row-major order, and `ys` are the index arrays (of one
shape; with a negative first dimension if their size is not fixed).  Without index arrays there is one selection of coordinates, as
with index arrays without dimensions. -/
def numpyIndex (shape : List Int) (data : List Rat) (idx : List MixedIndex) (ys : List (Arr Rat)) : Arr Rat :=
  ⟨mixedShape shape idx (ys.headD ⟨[], [0]⟩).shape,
    (mixedCoords shape idx (fun t => ys.map fun y => (y.data.getD t 0).floor) (ys.headD ⟨[], [0]⟩).data.length).map
      fun c => data.getD (rowMajor shape c).toNat 0⟩

instance : ∀ (shape : List Int) (idx : List MixedIndex), Decidable (Ok shape idx)
  | [], [] => .isTrue trivial
  | [], _ :: _ => .isFalse id
  | _ :: _, [] => .isFalse id
  | n :: shape, .at i :: idx => by have := instDecidableOk shape idx; unfold Ok; infer_instance
  | _ :: shape, .slice _ _ c :: idx => by have := instDecidableOk shape idx; unfold Ok; infer_instance
  | _ :: shape, .array :: idx => by have := instDecidableOk shape idx; unfold Ok; infer_instance

instance : ∀ (dims : List Int) (ys : List (Arr Rat)), Decidable (IndexEntries dims ys)
  | [], [] => .isTrue .nil
  | [], _ :: _ => .isFalse fun h => nomatch h
  | _ :: _, [] => .isFalse fun h => nomatch h
  | d :: dims, y :: ys => by
    have := instDecidableIndexEntries dims ys
    refine decidable_of_iff ((∀ v ∈ y.data, v.den = 1 ∧ 0 ≤ v.num ∧ v.num < d) ∧ IndexEntries dims ys) ?_
    unfold IndexEntries
    rw [List.forall₂_cons]
    refine and_congr (forall₂_congr fun v _ => ?_) Iff.rfl
    constructor
    · rintro ⟨h1, h2, h3⟩
      refine ⟨v.num.toNat, ?_, by omega⟩
      have e : ((v.num.toNat : Nat) : Rat) = ((v.num : Int) : Rat) := by
        rw [← Int.cast_natCast, Int.toNat_of_nonneg h2]
      rw [e]
      exact ((Rat.den_eq_one_iff v).1 h1).symm
    · rintro ⟨k, rfl, h⟩
      exact ⟨rfl, Int.natCast_nonneg _, h⟩

/-- `a[idx]` in NumPy for index arrays `ys`, with missing indices; `none` stands for an exception.  (NumPy accepts more than this: index
arrays with negative entries, index arrays whose shapes can be broadcast, and negative steps.) -/
def numpyGetitem (a : Arr Rat) (idx : List MixedIndex) (ys : List (Arr Rat)) : Option (Arr Rat) :=
  if Ok a.shape (padded idx a.shape.length) ∧ IndexEntries (arrayAxes a.shape (padded idx a.shape.length)) ys ∧
      ∀ y ∈ ys, y.shape = (ys.headD ⟨[], [0]⟩).shape then
    some (numpyIndex a.shape a.data (padded idx a.shape.length) ys)
  else none

/-- Which of the dimensions that are left after the integers have been taken away are indexed by arrays. -/
def axisKinds (idx : List MixedIndex) : List Bool :=
  idx.filterMap fun i => match i with
    | .at _ => none
    | .slice _ _ _ => some false
    | .array => some true

/-- It makes no difference whether the integers are taken first: if a slice lies between integers and index arrays then also
one lies between index arrays, or no slice comes before the first index array. -/
def SameLayout (idx : List MixedIndex) : Prop :=
  separated (idx.map advanced) = true → separated (axisKinds idx) = true ∨ leading (axisKinds idx) = 0

instance (idx : List MixedIndex) : Decidable (SameLayout idx) := by unfold SameLayout; infer_instance

end Verif
