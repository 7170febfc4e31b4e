import Verif.Model.PyModel

/-!
# Model of the numbers of symbols, decisions, constraints and edges of a model
(/repo/dwave/optimization/_model.pyx 465-566)
-/

namespace Verif
namespace PyModel

/-- `num_constraints()`, _model.pyx 465-483, graph.hpp 139. -/
def numConstraints (m : PyModel) : Nat := m.g.constraints.length

/-- `num_decisions()`, _model.pyx 485-502, graph.hpp 133. -/
def numDecisions (m : PyModel) : Nat := m.g.decisions.length

/-- `num_edges()`, _model.pyx 504-523: the sum of the numbers of successors. -/
def numEdges (m : PyModel) : Nat := m.g.nodes.foldl (fun n v => n + (m.g.mem v).succs.length) 0

/-- `num_nodes()` and `num_symbols()`, _model.pyx 525-566, graph.hpp 136. -/
def numSymbols (m : PyModel) : Nat := m.g.nodes.length

end PyModel
end Verif
