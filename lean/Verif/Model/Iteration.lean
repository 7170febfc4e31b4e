import Verif.Model.Escape
import Verif.Spec.Iteration

/-!
# Model of the generators of `_Graph` and `Symbol`
(/repo/dwave/optimization/_model.pyx 371-421, 840-883)

The generators hold pointers into the vectors of the C++ objects while the Python program goes on.
-/

namespace Verif

/-- The memory of a `std::vector`: which block, and for how many elements there is room in it. -/
structure Buffer where
  block : Nat
  capacity : Nat
  deriving DecidableEq

/-- The memory after an operation, at the time `now`, after which the vector has `length` elements: it is kept if they fit, and otherwise
there is a new block ([vector.capacity], [vector.modifiers]).  `grow` is the implementation's choice of the capacity. -/
def Buffer.after (grow : Nat → Nat → Nat) (now : Nat) (b : Buffer) (length : Nat) : Buffer :=
  if length ≤ b.capacity then b else ⟨now, grow b.capacity length⟩

/-- The choice of libstdc++ and libc++: twice the capacity. -/
def doubling (capacity length : Nat) : Nat := max (2 * capacity) length

/-- A model with the memory of its vectors: `nodes_`, `decisions_`, `constraints_` (graph.hpp 178-183), `predecessors_` and
`successors_` (304-305).  New blocks are numbered by the operations. -/
structure Watched where
  m : PyModel
  buffer : Collection → Buffer
  now : Nat

/-- A generator: the pointer to the elements, and their number (the `std::span`, graph.hpp 105, 151-159, or the two iterators,
_model.pyx 857-858, 878-879). -/
structure PyIterator where
  collection : Collection
  block : Nat
  length : Nat

namespace Watched

def new : Watched := ⟨PyModel.new, fun _ => ⟨0, 0⟩, 0⟩

/-- An operation of the Python program, which catches exceptions. -/
def op (grow : Nat → Nat → Nat) (W : Watched) (o : ModelOp) : Res Watched := do
  let r ← W.m.attemptPython o
  .ok ⟨r.1, fun c => (W.buffer c).after grow (W.now + 1) (c.of r.1.g).length, W.now + 1⟩

def ops (grow : Nat → Nat → Nat) (W : Watched) (os : List ModelOp) : Res Watched := os.foldlM (op grow) W

/-- The generator at the first `next`. -/
def start (W : Watched) (c : Collection) : PyIterator := ⟨c, (W.buffer c).block, (c.of W.m.g).length⟩

/-- `symbol_from_ptr(self, *it)` at position `i`: _model.pyx 385-386, 401-402, 417-418, 859-861, 880-882.  If the block has been given
back, if there is no such element any more, or if the element points to a symbol that has been removed, then what happens is
undefined. -/
def deref (W : Watched) (it : PyIterator) (i : Nat) : Res Nat := do
  guardUB (it.collection.Exists W.m.g)
  guardUB ((W.buffer it.collection).block = it.block)
  match (it.collection.of W.m.g)[i]? with
  | none => .ub
  | some v => do
    guardUB (v ∈ W.m.g.nodes)
    .ok v

/-- `for v in ...:` with the given body, from position `i` with `k` symbols to come: the model afterwards, and the symbols that `v` has
been. -/
def loop (grow : Nat → Nat → Nat) (body : Nat → Nat → List ModelOp) (it : PyIterator) : Nat → Nat → Watched → Res (Watched × List Nat)
  | 0, _, W => .ok (W, [])
  | k + 1, i, W => do
    let v ← W.deref it i
    let W ← W.ops grow (body i v)
    let r ← loop grow body it k (i + 1) W
    .ok (r.1, v :: r.2)

/-- `for v in ...:`.  The body may depend on the symbol and on how many there were before. -/
def forEach (grow : Nat → Nat → Nat) (W : Watched) (c : Collection) (body : Nat → Nat → List ModelOp) : Res (Watched × List Nat) :=
  loop grow body (W.start c) (W.start c).length 0 W

end Watched
end Verif
