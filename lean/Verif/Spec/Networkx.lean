import Verif.Model.Networkx

/-!
# Specification: what the exported graph says about the model
-/

namespace Verif

/-- The exported graph `G` of a model: its nodes are the symbols in their order, then `minimize` and `constraint(s)` if there is an
objective or a constraint; there is an edge for each operand of each symbol, one for the objective and one for each constraint, and no
other edges. -/
structure Graph.Exports (g : Graph) (name : Nat → List Char) (G : MultiDiGraph (List Char)) : Prop where
  nodes : G.nodes = g.nodes.map name ++ (if g.objective = none then [] else [minimizeLabel]) ++
    (if g.constraints = [] then [] else [constraintsLabel])
  operands : ∀ v ∈ g.nodes, ∀ w ∈ g.nodes, G.edges.count (name v, name w) = (g.mem w).preds.count v
  objective : ∀ v ∈ g.nodes, G.edges.count (name v, minimizeLabel) = if g.objective = some v then 1 else 0
  constraints : ∀ v ∈ g.nodes, G.edges.count (name v, constraintsLabel) = g.constraints.count v
  only : ∀ e ∈ G.edges, ∃ v ∈ g.nodes, e.1 = name v ∧
    ((∃ w ∈ g.nodes, e.2 = name w) ∨ e.2 = minimizeLabel ∨ e.2 = constraintsLabel)

end Verif
