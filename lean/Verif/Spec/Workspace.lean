import Verif.Model.Workspace

/-!
# What it means that models are separate
-/

namespace Verif

/-- Two models with the same symbols, decisions, objective, constraints and locks, whose symbols have the same operands, uses and
indices.  They only differ in memory that is not theirs. -/
structure Graph.Agree (g g' : Graph) : Prop where
  nodes : g.nodes = g'.nodes
  decisions : g.decisions = g'.decisions
  objective : g.objective = g'.objective
  constraints : g.constraints = g'.constraints
  sorted : g.sorted = g'.sorted
  mem : ∀ v ∈ g.nodes, g.mem v = g'.mem v

/-- The same with the number of locks. -/
structure PyModel.Agree (m m' : PyModel) : Prop where
  graph : m.g.Agree m'.g
  locks : m.lockCount = m'.lockCount

namespace Workspace

/-- Operations that do not use a symbol of one model in another one: operands that are added, objectives and constraints are symbols of
the model they are added to.  New symbols are put where there is none. -/
def Within (S : Workspace) : WorkspaceOp → Prop
  | .decision _ a => S.owner a = none
  | .node _ a _ _ => S.owner a = none
  | .addOperand n p => S.owner p = S.owner n
  | .minimize k o => S.owner o = some k
  | .addConstraint k c => S.owner c = some k
  | _ => True

/-- A history of such operations. -/
def AllWithin : Workspace → List WorkspaceOp → Prop
  | _, [] => True
  | S, op :: ops => S.Within op ∧ ∀ S', S.perform op = .ok S' → S'.AllWithin ops

/-- The operations of a history that are done with model `k`. -/
def history (k : Nat) : Workspace → List WorkspaceOp → List ModelOp
  | _, [] => []
  | S, op :: ops =>
    (match S.target op with
      | some (j, mop) => if j = k then [mop] else []
      | none => []) ++
    (match S.perform op with
      | .ok S' => S'.history k ops
      | _ => [])

end Workspace

end Verif
