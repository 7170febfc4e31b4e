import Verif.Model.Graph

/-!
# Model of the Python class `_Graph` (/repo/dwave/optimization/_model.pyx)
-/

namespace Verif

/-- `_Graph`: the C++ graph and `_lock_count`. -/
structure PyModel where
  g : Graph
  lockCount : Int

/-- What a user can do to a model.  Addresses stand for symbols. -/
inductive ModelOp where
  /-- a new decision symbol -/
  | decision (a : Nat)
  /-- a new symbol computed from others -/
  | node (a : Nat) (preds : List Nat) (removable : Bool)
  /-- `n += p` on a symbol with a variable number of operands -/
  | addOperand (n p : Nat)
  /-- `minimize(o)` -/
  | minimize (o : Nat)
  /-- `add_constraint(c)` -/
  | addConstraint (c : Nat)
  /-- the user keeps (or drops) a reference to a symbol -/
  | reference (v : Nat) (b : Bool)
  | lock
  | unlock
  | removeUnused
  deriving DecidableEq

namespace PyModel

/-- A new model. -/
def new : PyModel := ⟨Graph.empty, 0⟩

/-- `is_locked`, _model.pyx 361-369. -/
def isLocked (m : PyModel) : Bool := decide (m.lockCount > 0)

/-- One operation.  `lock`: _model.pyx 423-432; `unlock`: 638-654; `remove_unused_symbols`: 617-619;
`minimize` and `add_constraint` with suitable (scalar, logical) symbols: 434-463; symbols are created by
`emplace_node`.  Exceptions are those of the C++ functions; see Model/Escape.lean for what becomes of them in Python. -/
def step (m : PyModel) : ModelOp → Res PyModel
  | .decision a => do
    let g ← m.g.emplaceDecision a
    .ok { m with g := g }
  | .node a preds removable => do
    let g ← m.g.emplaceNode a preds removable
    .ok { m with g := g }
  | .addOperand n p => do
    let g ← m.g.addPredecessor n p
    .ok { m with g := g }
  | .minimize o => do
    let g ← m.g.setObjective (some o) (fun _ => true)
    .ok { m with g := g }
  | .addConstraint c => do
    let g ← m.g.addConstraint c (fun _ => true) (fun _ => true)
    .ok { m with g := g }
  | .reference v b =>
    .ok { m with g := { m.g with mem := upd m.g.mem v { m.g.mem v with listened := b } } }
  | .lock => do
    let g ← m.g.topologicalSort
    .ok ⟨g, m.lockCount + 1⟩
  | .unlock =>
    if m.lockCount < 1 then .ok m
    else if m.lockCount - 1 < 1 then .ok ⟨m.g.resetTopologicalSort, m.lockCount - 1⟩
    else .ok ⟨m.g, m.lockCount - 1⟩
  | .removeUnused => do
    guardThrow (m.isLocked = false)
    let r ← m.g.removeUnused false
    .ok { m with g := r.1 }

/-- The user catches exceptions and goes on with the model, which the rejected operation has left
unchanged.  The exception is sorting a cyclic model (`lock` or `removeUnused` on an unlocked model):
the history ends there; `PyModel.attempt` (Model/Refused.lean) says what is left behind. -/
def perform (m : PyModel) (op : ModelOp) : Res PyModel :=
  match m.step op with
  | .ok m' => .ok m'
  | .ub => .ub
  | .throw => if m.isLocked = false ∧ (op = .lock ∨ op = .removeUnused) then .throw else .ok m

/-- A whole history. -/
def run (m : PyModel) (ops : List ModelOp) : Res PyModel := ops.foldlM perform m

end PyModel
end Verif
