import Verif.Model.Nodes.BasicIndexing

/-!
# Model of the change of size reported by `BasicIndexingNode` (/repo/dwave/optimization/src/nodes/indexing.cpp)
-/

namespace Verif

/-- `size_diff(state)`, indexing.cpp 1585-1590. -/
def BasicState.sizeDiff {α : Type} (P : Parsed) (s : BasicState α) : Int :=
  if P.dynamic then s.size P - s.previousSize else 0

end Verif
