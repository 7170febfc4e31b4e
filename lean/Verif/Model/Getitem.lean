import Verif.Model.Script

/-!
# `x[...]` in Python

`ArraySymbol.__getitem__` and its override in `AdvancedIndexing`.  Symbols of other models are not expressible.
-/

namespace Verif

/-- What may stand between the brackets: an integer, a slice, an array symbol, anything else. -/
inductive PyIndex where
  | int (i : Int)
  | slice (start stop step : Option Int)
  | symbol (i : Nat)
  | other
  deriving DecidableEq, Repr

namespace PyIndex

/-- `slice(None)`. -/
abbrev all : PyIndex := .slice none none none

/-- `isinstance(idx, (slice, numbers.Integral))`, with what `BasicIndexing.__init__` makes of it, symbols.pyx 567-596. -/
def basic? : PyIndex → Option BasicIndex
  | int i => some (.at i)
  | slice a b c => some (.slice a b c)
  | _ => none

/-- An array symbol or an empty slice, _model.pyx 1160-1162, with what `AdvancedIndexing.__init__` makes of it, symbols.pyx 439-457
(`some`: an array). -/
def advanced? : PyIndex → Option (Option Nat)
  | symbol i => some (some i)
  | slice none none none => some none
  | _ => none

/-- `while len(index) < self.ndim(): index.append(slice(None))`, _model.pyx 1150-1153. -/
def pad (idx : List PyIndex) (ndim : Nat) : List PyIndex := idx ++ List.replicate (ndim - idx.length) all

/-- `_split_indices`, _model.pyx 1067-1105.  The error raised at the end for other types is checked by the caller first. -/
def split : List PyIndex → Res (List BasicIndex × List (Option Nat))
  | [] => .ok ([], [])
  | int i :: idx => do
    let r ← split idx
    .ok (.at i :: r.1, r.2)
  | slice a b c :: idx => do
    let r ← split idx
    .ok (.slice a b c :: r.1, none :: r.2)
  | symbol i :: idx => do
    let r ← split idx
    .ok (.slice none none none :: r.1, some i :: r.2)
  | other :: _ => .throw

end PyIndex

/-- `contiguous()`: only `BasicIndexingNode` can be non-contiguous, indexing.cpp 1041. -/
def Built.contiguous : Built → Bool
  | .basic _ _ P => P.contiguous
  | _ => true

namespace Script

/-- `BasicIndexing(x, *indices)`, symbols.pyx 567-580, with the check of indexing.cpp 926-929. -/
def basicIndexing (s : Script) (x : Nat) (idx : List BasicIndex) : Res (Script × Nat) := do
  guardThrow ((s.row x).built.contiguous = true)
  s.add (.basic idx) [x]

/-- `AdvancedIndexing(x, *indices)`, symbols.pyx 439-462. -/
def advancedIndexing (s : Script) (x : Nat) (idx : List (Option Nat)) : Res (Script × Nat) :=
  s.add (.advanced (idx.map Option.isSome)) (x :: idx.filterMap id)

/-- `ArraySymbol.__getitem__`, _model.pyx 1145-1186, for a tuple (anything else is put in a tuple first). -/
def getitemArray (s : Script) (x : Nat) (idx : List PyIndex) : Res (Script × Nat) :=
  let idx := PyIndex.pad idx (s.row x).out.shape.length
  match idx.mapM PyIndex.basic? with
  | some idx => s.basicIndexing x idx
  | none =>
    match idx.mapM PyIndex.advanced? with
    | some idx => s.advancedIndexing x idx
    | none => do
      let r ← PyIndex.split idx
      let b ← s.basicIndexing x r.1
      b.1.advancedIndexing b.2 r.2

/-- The special case in `AdvancedIndexing.__getitem__`, symbols.pyx 463-497: `A[i, :][:, i]` and `A[:, i][i, :]` with a constant square
matrix `A` give a `Permutation`: `some (A, i)`. -/
def permutes (s : Script) (x : Nat) (idx : List PyIndex) : Option (Nat × Nat) :=
  match (s.row x).built, (s.row x).ops, idx with
  | .advanced [some _, none] _ (some a), [A, i], [.slice none none none, .symbol j] =>
    if a.shape.length = 2 ∧ a.shape[0]? = a.shape[1]? ∧ i = j then some (A, i) else none
  | .advanced [none, some _] _ (some a), [A, i], [.symbol j, .slice none none none] =>
    if a.shape.length = 2 ∧ a.shape[0]? = a.shape[1]? ∧ i = j then some (A, i) else none
  | _, _, _ => none

/-- `x[...]`. -/
def getitem (s : Script) (x : Nat) (idx : List PyIndex) : Res (Script × Nat) :=
  match s.permutes x idx with
  | some (A, i) => s.add .permutation [A, i]
  | none => s.getitemArray x idx

end Script

end Verif
