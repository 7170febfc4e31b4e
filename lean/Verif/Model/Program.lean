import Verif.Model.Catalog
import Verif.Model.History

/-!
# Models built from the catalog

What each symbol of a graph is (`kind`), and the shapes of its outputs as found by its constructor.
-/

namespace Verif

/-- The kinds of the symbols and the shapes of their outputs (`Array::shape()`, fixed by the
constructors). -/
structure Symbols where
  kind : Nat → Kind
  shapes : Nat → List (List Int)

namespace Symbols

/-- The shapes of the operands of a symbol. -/
def inShapes (S : Symbols) (g : Graph) (v : Nat) : List (List (List Int)) := (g.mem v).preds.map S.shapes

/-- The behaviour of the symbols. -/
@[reducible] def sem (S : Symbols) (g : Graph) (v : Nat) : NodeSem Val Dif :=
  (S.kind v).node (S.inShapes g v) (S.shapes v)

/-- Several moves of a decision between two proposals. -/
def act (S : Symbols) (g : Graph) (v : Nat) (ms : List Move) (s : (S.sem g v).σ) : Res (S.sem g v).σ :=
  ms.foldlM ((S.kind v).step (S.inShapes g v) (S.shapes v)) s

/-- All symbols of the graph have been made by their constructors; decisions are those symbols whose
kind says so.  Nothing is said about unused addresses, which by convention hold an empty constant. -/
structure Assembled (S : Symbols) (g : Graph) : Prop where
  made : ∀ v ∈ g.nodes, (S.kind v).make (S.inShapes g v) = .ok (S.shapes v)
  regular : ∀ v ∈ g.nodes, (S.kind v).Regular (S.inShapes g v)
  good : ∀ v ∈ g.nodes, ∀ s ∈ S.shapes v, GoodShape s
  decisions : ∀ v ∈ g.nodes, v ∈ g.decisions ↔ (S.kind v).isDecision = true
  unused : ∀ v, v ∉ g.nodes → S.kind v = .constant ⟨[], []⟩

end Symbols
end Verif
