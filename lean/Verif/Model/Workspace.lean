import Verif.Model.PyModel

/-!
# Several models at once

Symbols are C++ objects in one memory; each belongs to the model that made it.  Python's constructors refuse operands of different
models: symbols.pyx 274, 337, 453, 813, 1575, 1613, 1753, 1940, 2018, 2057, 2095, 2144, 2201, 2251, 2300, 2398, 2489, 3035, 3101-3104,
3134.  Extending a symbol in place (symbols.pyx 2162-2166, 2318-2322), `minimize` (_model.pyx 434-463) and `add_constraint`
(_model.pyx 57-93) make no such check.
-/

namespace Verif

/-- A model without the memory of its symbols. -/
structure ModelPart where
  nodes : List Nat := []
  decisions : List Nat := []
  objective : Option Nat := none
  constraints : List Nat := []
  sorted : Bool := false
  lockCount : Int := 0

/-- All models of a Python program, in the order in which they were made, and the memory. -/
structure Workspace where
  mem : Nat → GNode
  models : List ModelPart

/-- What a user does with several models. -/
inductive WorkspaceOp where
  /-- `Model()` -/
  | newModel
  /-- a new decision symbol of model `k` -/
  | decision (k a : Nat)
  /-- a new symbol; it belongs to the model of its operands, or to model `k` if it has none -/
  | node (k a : Nat) (preds : List Nat) (removable : Bool)
  /-- `n += p`, `n *= p` -/
  | addOperand (n p : Nat)
  | minimize (k o : Nat)
  | addConstraint (k c : Nat)
  | reference (v : Nat) (b : Bool)
  | lock (k : Nat)
  | unlock (k : Nat)
  | removeUnused (k : Nat)
  deriving DecidableEq

namespace Workspace

/-- No models. -/
def start : Workspace := ⟨fun _ => {}, []⟩

/-- The model number `k`. -/
def model (S : Workspace) (k : Nat) : PyModel :=
  ⟨⟨S.mem, (S.models.getD k {}).nodes, (S.models.getD k {}).decisions, (S.models.getD k {}).objective, (S.models.getD k {}).constraints,
    (S.models.getD k {}).sorted⟩, (S.models.getD k {}).lockCount⟩

/-- After an operation on model `k`. -/
def put (S : Workspace) (k : Nat) (m : PyModel) : Workspace :=
  ⟨m.g.mem, S.models.set k ⟨m.g.nodes, m.g.decisions, m.g.objective, m.g.constraints, m.g.sorted, m.lockCount⟩⟩

/-- The attribute `model` of a symbol: `none` if the symbol does not exist. -/
def owner (S : Workspace) (v : Nat) : Option Nat := S.models.findIdx? fun p => decide (v ∈ p.nodes)

/-- The model that an operation is for, and what is done with it; `none` if operands are of different models. -/
def target (S : Workspace) : WorkspaceOp → Option (Nat × ModelOp)
  | .newModel => none
  | .decision k a => some (k, .decision a)
  | .node k a [] r => some (k, .node a [] r)
  | .node _ a (p :: ps) r =>
    (S.owner p).bind fun j => if ∀ q ∈ p :: ps, S.owner q = some j then some (j, .node a (p :: ps) r) else none
  | .addOperand n p => (S.owner n).map fun j => (j, .addOperand n p)
  | .minimize k o => some (k, .minimize o)
  | .addConstraint k c => some (k, .addConstraint c)
  | .reference v b => (S.owner v).map fun j => (j, .reference v b)
  | .lock k => some (k, .lock)
  | .unlock k => some (k, .unlock)
  | .removeUnused k => some (k, .removeUnused)

/-- What is done with model `j`.  New symbols get an unused address.  Operands, objectives and constraints need not be of the model:
`add_node`, mathematical.cpp 503-519, `set_objective` and `add_constraint`, graph.cpp 169-189. -/
def act (S : Workspace) (j : Nat) : ModelOp → Res PyModel
  | .decision a => do
    guardUB (S.owner a = none)
    (S.model j).step (.decision a)
  | .node a preds r => do
    guardUB (S.owner a = none)
    (S.model j).step (.node a preds r)
  | .addOperand n p => do
    guardUB (n ∈ (S.model j).g.nodes ∧ S.owner p ≠ none ∧ n ∉ (S.model j).g.decisions ∧ (S.mem n).preds ≠ [])
    guardThrow (¬ (0 ≤ (S.mem n).topo ∧ 0 ≤ (S.mem p).topo ∧ (S.mem n).topo < (S.mem p).topo))
    guardUB ((S.mem n).topo ≤ 0)
    let mem := upd S.mem p { S.mem p with succs := (S.mem p).succs ++ [n] }
    .ok { S.model j with g := { (S.model j).g with mem := upd mem n { mem n with preds := (mem n).preds ++ [p] } } }
  | .minimize o => do
    guardUB (S.owner o ≠ none)
    .ok { S.model j with g := { (S.model j).g with objective := some o } }
  | .addConstraint c => do
    guardUB (S.owner c ≠ none)
    .ok { S.model j with g := { (S.model j).g with constraints := (S.model j).g.constraints ++ [c] } }
  | op => (S.model j).step op

/-- One operation.  Symbols that do not exist any more are not used. -/
def step (S : Workspace) (op : WorkspaceOp) : Res Workspace :=
  match op with
  | .newModel => .ok ⟨S.mem, S.models ++ [{}]⟩
  | op =>
    match S.target op with
    | none => .throw
    | some (j, mop) => do
      guardUB (j < S.models.length)
      let m ← S.act j mop
      .ok (S.put j m)

/-- The user catches exceptions, as in `PyModel.perform`: sorting a cyclic model ends the history. -/
def perform (S : Workspace) (op : WorkspaceOp) : Res Workspace :=
  match S.step op with
  | .ok S' => .ok S'
  | .ub => .ub
  | .throw =>
    match op with
    | .lock k | .removeUnused k => if (S.model k).isLocked = false then .throw else .ok S
    | _ => .ok S

/-- A whole history. -/
def run (S : Workspace) (ops : List WorkspaceOp) : Res Workspace := ops.foldlM perform S

end Workspace

end Verif
