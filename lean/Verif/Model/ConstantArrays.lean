import Verif.Model.Constants
import Verif.Model.Shape
import Verif.Model.Graph

/-!
# Model of constants and the NumPy arrays behind them
(/repo/dwave/optimization/symbols.pyx 864-885, 893-904, 1028-1042; _model.pyx 50; include/dwave-optimization/nodes/constants.hpp 39-42, 62-71)

A Python program creates arrays, gives them names, writes into them, drops them, and makes constants of them.  Simplifications: the
elements of an array are listed in its own row-major order, whatever its memory layout is; no two array objects share memory (views,
`resize` with `refcheck=False` and `setflags` are not modelled); memory is given back at once when nothing refers to it, as CPython does;
the model is not locked.
-/

namespace Verif

/-- A NumPy array object: its memory, its shape, whether its `dtype` is `np.double`, `flags.c_contiguous` and `flags.writeable`. -/
structure NpArray where
  buffer : Nat
  shape : List Int
  double : Bool
  contiguous : Bool
  writeable : Bool
  deriving DecidableEq

/-- `ConstantNode` that is a view, constants.hpp 39-42, with its cache (130). -/
structure ConstantView where
  shape : List Int
  buffer : Nat
  cache : StatCache
  deriving DecidableEq

/-- The memory (`none`: given back, or not used yet), the names, `_data_sources` (_model.pyx 50), the constants of the model, and the next
block of memory. -/
structure ArrayWorld where
  memory : Nat → Option (List Rat)
  names : List (Nat × NpArray)
  sources : List Nat
  constants : List ConstantView
  fresh : Nat

/-- What the program does. -/
inductive NpOp where
  /-- `n = np.array(...)` -/
  | create (n : Nat) (shape : List Int) (values : List Rat) (double contiguous writeable : Bool)
  /-- `n = k` -/
  | alias (n k : Nat)
  /-- `n.flat[i] = v` -/
  | write (n i : Nat) (v : Rat)
  /-- `del n` -/
  | del (n : Nat)
  /-- `model.constant(n)` -/
  | constant (n : Nat)
  /-- `state()` of the constant number `c` -/
  | read (c : Nat)
  /-- `integral()`, `min()` or `max()` of a constant, which the constructors of other symbols call -/
  | query (c : Nat) (q : StatQuery)
  deriving DecidableEq

/-- What it sees. -/
inductive NpOut where
  | done
  | raised
  | values (l : List Rat)
  | answer (a : StatAnswer)
  deriving DecidableEq

namespace ArrayWorld

def start : ArrayWorld := ⟨fun _ => none, [], [], [], 0⟩

/-- Something refers to the memory. -/
def Used (w : ArrayWorld) (b : Nat) : Prop := b ∈ w.names.map (fun e => e.2.buffer) ∨ b ∈ w.sources

instance (w : ArrayWorld) (b : Nat) : Decidable (w.Used b) := by unfold Used; infer_instance

/-- Memory that nothing refers to is given back. -/
def collect (w : ArrayWorld) : ArrayWorld := { w with memory := fun b => if w.Used b then w.memory b else none }

/-- An assignment to a name. -/
def bind (w : ArrayWorld) (n : Nat) (a : NpArray) : ArrayWorld :=
  { w with names := (n, a) :: w.names.filter (fun e => e.1 ≠ n) }

/-- `np.asarray(a, dtype=np.double, order="C")`, symbols.pyx 866: the array itself if it is one of doubles in C order, else a new one. -/
def asarray (w : ArrayWorld) (a : NpArray) (values : List Rat) : ArrayWorld × NpArray :=
  if a.double ∧ a.contiguous then (w, a)
  else ({ w with memory := upd w.memory w.fresh (some values), fresh := w.fresh + 1 }, ⟨w.fresh, a.shape, true, true, true⟩)

/-- `Constant.__init__`, symbols.pyx 864-885.  The memoryview (873) asks for a writeable buffer, so read-only arrays are refused.
The pointer to the first element (874-876) goes to `ConstantNode` (879), and the model keeps a reference to the array (885). -/
def constant (w : ArrayWorld) (a : NpArray) (values : List Rat) : ArrayWorld × NpOut :=
  let r := w.asarray a values
  if r.2.writeable then
    ({ r.1 with constants := r.1.constants ++ [⟨r.2.shape, r.2.buffer, none⟩], sources := r.1.sources ++ [r.2.buffer] }, .done)
  else (r.1, .raised)

/-- `ConstantNode::data`, constants.hpp 62-64: memory that has been given back, or that is too short, must not be read. -/
def data (w : ArrayWorld) (c : ConstantView) : Res (List Rat) :=
  match w.memory c.buffer with
  | none => .ub
  | some l => do
    guardUB ((l.length : Int) = shapeToSize c.shape)
    .ok l

/-- One statement.  `state()`: symbols.pyx 1042 with 893-904. -/
def step (w : ArrayWorld) : NpOp → Res (ArrayWorld × NpOut)
  | .create n shape values double contiguous writeable =>
    if (∀ d ∈ shape, 0 ≤ d) ∧ (values.length : Int) = shapeToSize shape then
      .ok ((({ w with memory := upd w.memory w.fresh (some values), fresh := w.fresh + 1 } : ArrayWorld).bind n
        ⟨w.fresh, shape, double, contiguous, writeable⟩).collect, .done)
    else .ok (w, .raised)
  | .alias n k =>
    match w.names.lookup k with
    | none => .ok (w, .raised)
    | some a => .ok ((w.bind n a).collect, .done)
  | .write n i v =>
    match w.names.lookup n with
    | none => .ok (w, .raised)
    | some a =>
      match w.memory a.buffer with
      | none => .ub
      | some l =>
        if a.writeable ∧ i < l.length then .ok ({ w with memory := upd w.memory a.buffer (some (l.set i v)) }, .done)
        else .ok (w, .raised)
  | .del n => .ok (({ w with names := w.names.filter (fun e => e.1 ≠ n) } : ArrayWorld).collect, .done)
  | .constant n =>
    match w.names.lookup n with
    | none => .ok (w, .raised)
    | some a =>
      match w.memory a.buffer with
      | none => .ub
      | some l => .ok ((w.constant a l).1.collect, (w.constant a l).2)
  | .read c =>
    match w.constants[c]? with
    | none => .ok (w, .raised)
    | some k => do
      let l ← w.data k
      .ok (w, .values l)
  | .query c q =>
    match w.constants[c]? with
    | none => .ok (w, .raised)
    | some k => do
      let l ← w.data k
      let r ← statQuery l k.cache q
      .ok ({ w with constants := w.constants.set c { k with cache := r.2 } }, .answer r.1)

/-- A whole program. -/
def run : ArrayWorld → List NpOp → Res (ArrayWorld × List NpOut)
  | w, [] => .ok (w, [])
  | w, op :: ops => do
    let r ← w.step op
    let q ← run r.1 ops
    .ok (q.1, r.2 :: q.2)

/-- The operation writes into this memory. (Vocabulary for the statements, like `Untouched`.) -/
def Writes (w : ArrayWorld) (op : NpOp) (b : Nat) : Prop :=
  ∃ n i v a, op = .write n i v ∧ w.names.lookup n = some a ∧ a.buffer = b

/-- No statement of the program writes into this memory. -/
def Untouched (b : Nat) : ArrayWorld → List NpOp → Prop
  | _, [] => True
  | w, op :: ops => ¬ w.Writes op b ∧ ∀ r, w.step op = .ok r → Untouched b r.1 ops

end ArrayWorld
end Verif
