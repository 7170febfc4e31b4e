import Verif.Model.Refused
import Verif.Model.Nodes.BasicIndexing

/-!
# Exceptions that Cython does not translate
(/repo/dwave/optimization/libcpp/graph.pxd 64, 66; libcpp/array.pxd 53-57)

A C++ function that is declared without `except+` is called from the extension module without a handler: an exception that it throws
leaves the module as a C++ exception, nothing in the interpreter catches it, and the program is terminated.  `topological_sort`,
`remove_unused_nodes` and the constructors of `Slice` are declared like that.
-/

namespace Verif

/-- The outcome of a function that is declared without `except+`, as Python sees it.  Termination is not told apart from undefined
behaviour. -/
def Res.escape {α : Type} : Res α → Res α
  | .ok a => .ok a
  | .throw => .ub
  | .ub => .ub

namespace PyModel

/-- One operation, called from Python: `lock`, _model.pyx 428-429 with graph.pxd 64, and `remove_unused_symbols`, 617-619 with graph.pxd
66.  The others call functions with `except+` (graph.pxd 47-66), as in `PyModel.step`. -/
def stepPython (m : PyModel) : ModelOp → Res PyModel
  | .lock => do
    let g ← m.g.topologicalSort.escape
    .ok ⟨g, m.lockCount + 1⟩
  | .removeUnused => do
    guardThrow (m.isLocked = false)
    let r ← (m.g.removeUnused false).escape
    .ok { m with g := r.1 }
  | op => m.step op

/-- An operation and whether it raises an exception, which the Python program catches. -/
def attemptPython (m : PyModel) (op : ModelOp) : Res (PyModel × Bool) :=
  match m.stepPython op with
  | .ok m' => .ok (m', false)
  | .throw => .ok (m, true)
  | .ub => .ub

/-- A whole history. -/
def attemptsPython : PyModel → List ModelOp → Res (PyModel × List Bool)
  | m, [] => .ok (m, [])
  | m, op :: ops => do
    let r ← m.attemptPython op
    let q ← attemptsPython r.1 ops
    .ok (q.1, r.2 :: q.2)

end PyModel

/-- `BasicIndexing.cppslice` called from Python, symbols.pyx 582-596 with array.pxd 57: the constructor of `Slice` has no `except+`. -/
def BasicIndex.makePython (i : BasicIndex) : Res SliceOrInt := i.make.escape

/-- The loop over the indices, symbols.pyx 571-576. -/
def BasicIndex.makeAllPython : List BasicIndex → Res (List SliceOrInt)
  | [] => .ok []
  | i :: is => do
    let i ← i.makePython
    let is ← makeAllPython is
    .ok (i :: is)

/-- Indexing from Python, symbols.pyx 567-580. -/
def basicParsePython (shape : List Int) (idx : List BasicIndex) : Res Parsed := do
  parseIndex shape (← BasicIndex.makeAllPython idx)

end Verif
