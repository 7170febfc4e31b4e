import Verif.Model.PyModel

/-!
# What a refused sort leaves behind
(/repo/dwave/optimization/src/graph.cpp 32-77)

`Graph.topologicalSort` and `PyModel.perform` stop where sorting a cyclic model throws.  Here the indices that are left behind by the
exception are modelled, and the history goes on.  This is what a caller in C++ sees; from Python the exception terminates the program,
since graph.pxd 64 and 66 have no `except+` (`Model/Escape.lean`).
-/

namespace Verif

/-- The indices, the counter, and whether an exception is on its way. -/
structure SortRun where
  idx : Nat → Int
  count : Int
  raised : Bool

namespace Graph

/-- The recursive lambda `visit` of `topological_sort`, graph.cpp 41-56, as in `Graph.visit`; an exception leaves the indices as they
are. -/
def visitOn (succs : Nat → List Nat) : Nat → SortRun → Nat → Res SortRun
  | 0, _, _ => .ub
  | fuel + 1, s, n =>
    if 0 ≤ s.idx n then .ok s
    else if s.idx n = -2 then .ok { s with raised := true }
    else do
      let t ← (succs n).reverse.foldlM (fun s m => if s.raised then .ok s else visitOn succs fuel s m)
        { s with idx := upd s.idx n (-2) }
      if t.raised then .ok t else .ok ⟨upd t.idx n t.count, t.count - 1, false⟩

/-- The loop over the nodes, graph.cpp 58-62. -/
def sortOn (g : Graph) : Res SortRun :=
  g.nodes.reverse.foldlM
    (fun s m => if s.raised then .ok s else visitOn (fun v => (g.mem v).succs) (g.nodes.length + 1) s m)
    ⟨fun v => (g.mem v).topo, (g.nodes.length : Int) - 1, false⟩

/-- The graph after an exception in `topological_sort`: `nodes_` has not been sorted, 71-74, and `topologically_sorted_` has not been
set, 76. -/
def afterRefusal (g : Graph) : Res Graph := do
  let s ← g.sortOn
  .ok { g with mem := fun v => { g.mem v with topo := s.idx v } }

end Graph

namespace PyModel

/-- An operation and whether it raises an exception, which the user catches.  `lock` throws in `topological_sort` before `_lock_count` is
changed, _model.pyx 428-429; `remove_unused_nodes` throws in `topological_sort`, graph.cpp 304. -/
def attempt (m : PyModel) (op : ModelOp) : Res (PyModel × Bool) :=
  match m.step op with
  | .ok m' => .ok (m', false)
  | .ub => .ub
  | .throw =>
    if m.isLocked = false ∧ (op = .lock ∨ op = .removeUnused) then do
      let g ← m.g.afterRefusal
      .ok (⟨g, m.lockCount⟩, true)
    else .ok (m, true)

/-- A whole history. -/
def attempts : PyModel → List ModelOp → Res (PyModel × List Bool)
  | m, [] => .ok (m, [])
  | m, op :: ops => do
    let r ← m.attempt op
    let q ← attempts r.1 ops
    .ok (q.1, r.2 :: q.2)

end PyModel
end Verif
