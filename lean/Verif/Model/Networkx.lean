import Verif.Model.Graph

/-!
# Exporting a model as a NetworkX graph
(/repo/dwave/optimization/model.py 420-489)
-/

namespace Verif

/-- `networkx.MultiDiGraph` without attributes: nodes in the order in which they were added, and all edges. -/
structure MultiDiGraph (L : Type) where
  nodes : List L
  edges : List (L × L)

namespace MultiDiGraph

variable {L : Type} [DecidableEq L]

/-- `add_node`: nothing happens if the node is there already. -/
def addNode (G : MultiDiGraph L) (a : L) : MultiDiGraph L :=
  if a ∈ G.nodes then G else ⟨G.nodes ++ [a], G.edges⟩

/-- `add_edge`: nodes that are not there are added; an edge may be there several times. -/
def addEdge (G : MultiDiGraph L) (a b : L) : MultiDiGraph L :=
  ⟨((G.addNode a).addNode b).nodes, ((G.addNode a).addNode b).edges ++ [(a, b)]⟩

end MultiDiGraph

/-- A digit of a hexadecimal number. -/
def hexChar (d : Nat) : Char := if d < 10 then Char.ofNat (48 + d) else Char.ofNat (87 + d)

/-- The hexadecimal digits of `f"{n:#x}"`. -/
def hexDigits (n : Nat) : List Char :=
  if n < 16 then [hexChar n] else hexDigits (n / 16) ++ [hexChar (n % 16)]
  termination_by n
  decreasing_by omega

/-- `Symbol.__repr__`, _model.pyx 668-675: class and address. -/
def symbolRepr (cls : List Char) (id : Nat) : List Char :=
  '<' :: cls ++ (" at 0x".toList ++ hexDigits id ++ ['>'])

/-- The node for the objective, model.py 481. -/
def minimizeLabel : List Char := "minimize".toList

/-- The node for the constraints, model.py 485. -/
def constraintsLabel : List Char := "constraint(s)".toList

namespace Graph

/-- The edges to the successors of a symbol, model.py 469-471.  A successor that is no symbol of the model does not exist any more. -/
def exportSuccs (g : Graph) (name : Nat → List Char) (G : MultiDiGraph (List Char)) (v : Nat) : Res (MultiDiGraph (List Char)) :=
  (g.mem v).succs.foldlM (fun G w => do
    guardUB (w ∈ g.nodes)
    .ok (G.addEdge (name v) (name w))) G

/-- `Model.to_networkx`, model.py 455-489; `name` is `repr`.  The attribute `objective` of the Python object is the objective of the
graph (model.py 349-352). -/
def toNetworkx (g : Graph) (name : Nat → List Char) : Res (MultiDiGraph (List Char)) := do
  guardThrow ((g.nodes.foldl (fun G v => G.addNode (name v)) (⟨[], []⟩ : MultiDiGraph (List Char))).nodes.length = g.nodes.length)
  let G ← g.nodes.foldlM (g.exportSuccs name) (g.nodes.foldl (fun G v => G.addNode (name v)) ⟨[], []⟩)
  guardThrow (G.nodes.length = g.nodes.length)
  let G := match g.objective with
    | some o => G.addEdge (name o) minimizeLabel
    | none => G
  .ok (g.constraints.foldl (fun G c => G.addEdge (name c) constraintsLabel) G)

end Graph

end Verif
