import Verif.Model.ProgramStates
import Verif.Spec.ProgramFile

/-!
# Specification: states of programs that can be saved and loaded again
-/

namespace Verif

/-- A value of the decision `v` that can be saved and loaded again, as `Draft.StateFits`: if there is one, it is valid; disjoint lists
and sets have a value, and all of their parts exist. -/
def Script.StateFits (s : Script) (v : Nat) (A : Option Val) : Prop :=
  (∀ x, A = some x → (s.row v).node.ok [x]) ∧
    ((s.row v).built.asKind.isArray = false → A ≠ none ∧ (s.countP fun r => v ∈ r.ops) = (s.row v).built.asKind.numParts)

end Verif
