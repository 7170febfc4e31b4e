import Verif.Model.Getitem
import Verif.Model.Build

/-!
# What is left of a call of an indexing constructor or of `x[...]`

`Model/Getitem.lean` says how the calls end; here they also say what the model is like afterwards, when they raise an exception.
-/

namespace Verif

namespace Act

/-- Checks that come out in the given way. -/
def checks {α : Type} : Res α → List Act
  | .ok _ => []
  | .throw => [.require false]
  | .ub => [.assume false]

end Act

/-- The bodies of the constructors of indexing symbols: the indices are parsed first, then the predecessors are added.
* `BasicIndexingNode`, indexing.cpp 1030-1043 (with the check of contiguity, 926-929, before)
* `AdvancedIndexingNode`, indexing.cpp 447-475
* `PermutationNode`, indexing.cpp 1601-1636

For symbols of the catalog see `Kind.body`. -/
def Term.indexingBody (t : Term) (contiguous : Bool) (self : Nat) (sizes : Nat → SizeInfo) (ops : List Nat) (ins : List Info) : List Act :=
  match t with
  | .kind _ => []
  | .basic idx =>
    .require contiguous :: (Act.checks (Term.construct (.basic idx) self sizes ops ins) ++ ops.map .link)
  | t => Act.checks (t.construct self sizes ops ins) ++ ops.map .link

namespace Script

/-- A call that either returns a new symbol or leaves the model as it is. -/
def whole (s : Script) : Res (Script × Nat) → Script × Res Nat
  | .ok r => (r.1, .ok r.2)
  | .throw => (s, .throw)
  | .ub => (s, .ub)

/-- `ArraySymbol.__getitem__`, _model.pyx 1145-1186: the model after the call, and how it ends.  The two symbols of a combined index are
made one after the other, 1175-1177. -/
def callArray (s : Script) (x : Nat) (idx : List PyIndex) : Script × Res Nat :=
  let idx := PyIndex.pad idx (s.row x).out.shape.length
  match idx.mapM PyIndex.basic? with
  | some idx => s.whole (s.basicIndexing x idx)
  | none =>
    match idx.mapM PyIndex.advanced? with
    | some idx => s.whole (s.advancedIndexing x idx)
    | none =>
      match PyIndex.split idx with
      | .throw => (s, .throw)
      | .ub => (s, .ub)
      | .ok r =>
        match s.basicIndexing x r.1 with
        | .throw => (s, .throw)
        | .ub => (s, .ub)
        | .ok b => b.1.whole (b.1.advancedIndexing b.2 r.2)

/-- `x[...]`: the model after the call, and how it ends. -/
def call (s : Script) (x : Nat) (idx : List PyIndex) : Script × Res Nat :=
  match s.permutes x idx with
  | some (A, i) => s.whole (s.add .permutation [A, i])
  | none => s.callArray x idx

end Script

end Verif
