import Verif.Spec.Res
import Mathlib.Data.List.Sort

/-!
# Model of `Graph` and `Node`
(/repo/dwave/optimization/src/graph.cpp, include/dwave-optimization/graph.hpp)

Nodes live at addresses (`Nat`); the memory maps addresses to nodes.
-/

namespace Verif

/-- `Node` members (graph.hpp 302-309) as far as `Graph` uses them: predecessors, successors (the
position stored in `SuccessorView` is left out), the topological index, `removable()`, and whether
somebody listens to `expired_ptr_` (graph.cpp 333).  Which nodes are `DecisionNode`s is recorded in
`Graph.decisions`. -/
structure GNode where
  preds : List Nat := []
  succs : List Nat := []
  topo : Int := -1
  removable : Bool := true
  listened : Bool := false

/-- `Graph` members (graph.hpp 178-186). -/
structure Graph where
  mem : Nat → GNode
  nodes : List Nat
  decisions : List Nat
  objective : Option Nat
  constraints : List Nat
  sorted : Bool

/-- Assignment to one location. -/
def upd {β : Type _} (f : Nat → β) (n : Nat) (b : β) : Nat → β := fun m => if m = n then b else f m

@[simp] theorem upd_same {β : Type _} (f : Nat → β) (n : Nat) (b : β) : upd f n b n = b := if_pos rfl
theorem upd_ne {β : Type _} (f : Nat → β) {n m : Nat} (b : β) (h : m ≠ n) : upd f n b m = f m :=
  if_neg h

/-- `std::sort` by a key. -/
def sortBy (key : Nat → Int) (l : List Nat) : List Nat :=
  l.insertionSort (fun a b => key a ≤ key b)

theorem sortBy_perm (key : Nat → Int) (l : List Nat) : (sortBy key l).Perm l :=
  List.perm_insertionSort _ l

theorem sortBy_pairwise (key : Nat → Int) (l : List Nat) :
    (sortBy key l).Pairwise (fun a b => key a ≤ key b) := by
  have : IsTrans Nat (fun a b => key a ≤ key b) := ⟨fun a b c => by omega⟩
  have : Std.Total (fun a b : Nat => key a ≤ key b) := ⟨fun a b => by omega⟩
  exact List.pairwise_insertionSort _ l

namespace Graph

/-- The recursive lambda `visit` of `topological_sort`, graph.cpp 41-56.  `idx` are the topological
indices, `count` is `*count_ptr`.  The recursion depth is bounded by `fuel`; running out of it is `ub`
(it is proved not to happen).  The state left behind by a throw is not modelled. -/
def visit (succs : Nat → List Nat) : Nat → (Nat → Int) × Int → Nat → Res ((Nat → Int) × Int)
  | 0, _, _ => .ub
  | fuel + 1, s, n =>
    if 0 ≤ s.1 n then .ok s
    else if s.1 n = -2 then .throw
    else do
      let s' ← (succs n).reverse.foldlM (visit succs fuel) (upd s.1 n (-2), s.2)
      .ok (upd s'.1 n s'.2, s'.2 - 1)

/-- The loop over the nodes, graph.cpp 58-62, and the assertion 67: the new indices. -/
def sortIdx (succs : Nat → List Nat) (nodes : List Nat) (nd : Nat) (idx : Nat → Int) :
    Res (Nat → Int) := do
  let s ← nodes.reverse.foldlM (visit succs (nodes.length + 1)) (idx, (nodes.length : Int) - 1)
  guardUB (s.2 = (nd : Int) - 1)
  .ok s.1

/-- `topological_sort`, graph.cpp 32-77.  `std::sort` by index (71-74) is `sortBy`: the indices are
distinct, so every sort gives the same list. -/
def topologicalSort (g : Graph) : Res Graph :=
  if g.sorted then .ok g
  else do
    let idx ← sortIdx (fun v => (g.mem v).succs) g.nodes g.decisions.length (fun v => (g.mem v).topo)
    .ok { g with
      mem := fun v => { g.mem v with topo := idx v }
      nodes := sortBy idx g.nodes
      sorted := true }

/-- `reset_topological_sort`, graph.cpp 79-91: all nodes from position `num_decisions()` on. -/
def resetTopologicalSort (g : Graph) : Graph :=
  if !g.sorted then g
  else { g with
    mem := fun v => if v ∈ g.nodes.drop g.decisions.length then { g.mem v with topo := -1 } else g.mem v
    sorted := false }

/-- The empty model, graph.hpp 178-186. -/
def empty : Graph := ⟨fun _ => {}, [], [], none, [], false⟩

/-- `predecessor->successors_.emplace_back(this, ...)` for each given predecessor, graph.hpp 256-261
(and 268). -/
def linkSuccs (mem : Nat → GNode) (a : Nat) (preds : List Nat) : Nat → GNode :=
  preds.foldl (fun m p => upd m p { m p with succs := (m p).succs ++ [a] }) mem

/-- `emplace_node` (graph.hpp 313-337) of a non-decision whose constructor does not throw: a fresh node
at the unused address `a` with the given predecessors. -/
def emplaceNode (g : Graph) (a : Nat) (preds : List Nat) (removable : Bool) : Res Graph := do
  guardThrow (g.sorted = false)
  guardUB (a ∉ g.nodes ∧ ∀ p ∈ preds, p ∈ g.nodes)
  .ok { g with
    mem := linkSuccs (upd g.mem a { preds := preds, removable := removable }) a preds
    nodes := g.nodes ++ [a] }

/-- `emplace_node` (graph.hpp 313-337) of a decision: no predecessors, its index is its position among
the decisions. -/
def emplaceDecision (g : Graph) (a : Nat) : Res Graph := do
  guardThrow (g.sorted = false)
  guardUB (a ∉ g.nodes)
  .ok { g with
    mem := upd g.mem a { topo := g.decisions.length, removable := false }
    nodes := g.nodes ++ [a]
    decisions := g.decisions ++ [a] }

/-- `NaryOpNode::add_node`, mathematical.cpp 503-519 (without the checks of the shapes), with
`add_predecessor`, graph.hpp 265-270.  A `NaryOpNode` is no decision and its constructors give it at
least one predecessor (mathematical.cpp 481-500). -/
def addPredecessor (g : Graph) (n p : Nat) : Res Graph := do
  guardUB (n ∈ g.nodes ∧ p ∈ g.nodes ∧ n ∉ g.decisions ∧ (g.mem n).preds ≠ [])
  guardThrow (¬ (0 ≤ (g.mem n).topo ∧ 0 ≤ (g.mem p).topo ∧ (g.mem n).topo < (g.mem p).topo))
  guardUB ((g.mem n).topo ≤ 0)
  let mem := upd g.mem p { g.mem p with succs := (g.mem p).succs ++ [n] }
  .ok { g with mem := upd mem n { mem n with preds := (mem n).preds ++ [p] } }

/-- Marking the constraints `keep` (the index -2), graph.cpp 319-322. -/
def markConstraints (nd : Int) (cs : List Nat) (mem : Nat → GNode) : Nat → GNode :=
  cs.foldl (fun m c => if (m c).topo < nd then m else upd m c { m c with topo := -2 }) mem

/-- Marking the objective `keep`, graph.cpp 325-327. -/
def markObjective (nd : Int) (objective : Option Nat) (mem : Nat → GNode) : Nat → GNode :=
  match objective with
  | some o => if (mem o).topo ≥ nd then upd mem o { mem o with topo := -2 } else mem
  | none => mem

/-- Marking the nodes somebody listens to `keep`, graph.cpp 331-335. -/
def markListeners (vs : List Nat) (mem : Nat → GNode) : Nat → GNode :=
  vs.foldl (fun m v => if (m v).listened then upd m v { m v with topo := -2 } else m) mem

/-- Marking `keep`, graph.cpp 316-336. -/
def markKeep (g : Graph) (ignoreListeners : Bool) : Nat → GNode :=
  if ignoreListeners then
    markObjective g.decisions.length g.objective (markConstraints g.decisions.length g.constraints g.mem)
  else markListeners (g.nodes.drop g.decisions.length)
    (markObjective g.decisions.length g.objective
      (markConstraints g.decisions.length g.constraints g.mem))

/-- One turn of the loop graph.cpp 340-355: (memory, deleted nodes). -/
def removeStep (s : (Nat → GNode) × List Nat) (v : Nat) : (Nat → GNode) × List Nat :=
  if (s.1 v).removable = false then s
  else if (s.1 v).topo = -2 then s
  else if (s.1 v).succs ≠ [] then s
  else
    ((s.1 v).preds.foldl
      (fun m p => upd m p { m p with succs := (m p).succs.filter (fun w => w ≠ v) }) s.1, v :: s.2)

/-- `remove_unused_nodes`, graph.cpp 301-365. -/
def removeUnused (g : Graph) (ignoreListeners : Bool) : Res (Graph × Nat) := do
  let g ← g.topologicalSort
  let s := (g.nodes.drop g.decisions.length).reverse.foldl removeStep (g.markKeep ignoreListeners, [])
  let nodes := g.nodes.filter (fun v => v ∉ s.2)
  .ok (resetTopologicalSort { g with mem := s.1, nodes := nodes }, g.nodes.length - nodes.length)

/-- `set_objective`, graph.cpp 169-175; `scalar` is `objective_ptr->size() == 1`. -/
def setObjective (g : Graph) (o : Option Nat) (scalar : Nat → Bool) : Res Graph := do
  guardUB (∀ v ∈ o, v ∈ g.nodes)
  guardThrow (∀ v ∈ o, scalar v = true)
  .ok { g with objective := o }

/-- `add_constraint`, graph.cpp 177-189. -/
def addConstraint (g : Graph) (c : Nat) (logical scalar : Nat → Bool) : Res Graph := do
  guardUB (c ∈ g.nodes)
  guardThrow (logical c = true)
  guardThrow (scalar c = true)
  .ok { g with constraints := g.constraints ++ [c] }

/-- The loop over the successors in `descendants`, graph.cpp 211-216: (marks by topological index,
nodes appended to the queue). -/
def explore (topo : Nat → Int) (s : (Int → Bool) × List Nat) (m : Nat) : (Int → Bool) × List Nat :=
  if s.1 (topo m) then s
  else (fun i => if i = topo m then true else s.1 i, s.2 ++ [m])

/-- The breadth first search of `descendants`, graph.cpp 205-217.  `all` is the vector `sources`, `todo`
its part from `exploration_index` on.  The number of turns is bounded by `fuel`; running out of it is
`ub` (it is proved not to happen). -/
def bfs (succs : Nat → List Nat) (topo : Nat → Int) :
    Nat → (Int → Bool) → List Nat → List Nat → Res ((Int → Bool) × List Nat)
  | _, marks, all, [] => .ok (marks, all)
  | 0, _, _, _ :: _ => .ub
  | fuel + 1, marks, all, n :: todo =>
    bfs succs topo fuel ((succs n).foldl (explore topo) (marks, [])).1
      (all ++ ((succs n).foldl (explore topo) (marks, [])).2)
      (todo ++ ((succs n).foldl (explore topo) (marks, [])).2)

/-- `descendants`, graph.cpp 203-231: the nodes in topological order and the marks afterwards.  All
states are assumed to exist. -/
def descendants (g : Graph) (marks : Int → Bool) (sources : List Nat) :
    Res (List Nat × (Int → Bool)) := do
  let r ← bfs (fun v => (g.mem v).succs) (fun v => (g.mem v).topo)
    (g.nodes.length + sources.length) marks sources sources
  .ok (sortBy (fun v => (g.mem v).topo) r.2,
    r.2.foldl (fun m v => fun i => if i = (g.mem v).topo then false else m i) r.1)

end Graph

end Verif
