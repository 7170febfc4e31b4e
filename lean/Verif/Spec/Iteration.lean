import Verif.Model.PyModel

/-!
# Specification: collections of a model that can be iterated over
-/

namespace Verif

/-- What `iter_symbols`, `iter_decisions`, `iter_constraints` of a model, and `iter_predecessors`, `iter_successors` of a symbol give. -/
inductive Collection where
  | symbols
  | decisions
  | constraints
  | predecessors (v : Nat)
  | successors (v : Nat)
  deriving DecidableEq

namespace Collection

/-- The symbols in the collection, in order. -/
def of (c : Collection) (g : Graph) : List Nat :=
  match c with
  | symbols => g.nodes
  | decisions => g.decisions
  | constraints => g.constraints
  | predecessors v => (g.mem v).preds
  | successors v => (g.mem v).succs

/-- It is a collection of this model. -/
def Exists (c : Collection) (g : Graph) : Prop :=
  match c with
  | predecessors v | successors v => v ∈ g.nodes
  | _ => True

instance (c : Collection) (g : Graph) : Decidable (c.Exists g) := by
  cases c <;> unfold Exists <;> infer_instance

/-- Operations that do not concern the collection.  Symbols: no new ones, no removal, no sorting by `lock()`; decisions: no new ones;
constraints: no new ones; predecessors of `v`: `v` is not extended, and no removal; successors of `v`: `v` gets no new ones, and no
removal. -/
def Leaves (c : Collection) (op : ModelOp) : Prop :=
  match c, op with
  | symbols, .decision _ | symbols, .node _ _ _ | symbols, .lock | symbols, .removeUnused => False
  | decisions, .decision _ => False
  | constraints, .addConstraint _ => False
  | predecessors v, .addOperand n _ => n ≠ v
  | predecessors _, .removeUnused => False
  | successors v, .node _ preds _ => v ∉ preds
  | successors v, .addOperand _ p => p ≠ v
  | successors _, .removeUnused => False
  | _, _ => True

end Collection
end Verif
