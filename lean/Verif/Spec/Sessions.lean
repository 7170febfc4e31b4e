import Verif.Model.PyModel
import Verif.Spec.Node

/-!
# Specification for C64: working on a model and its states

A session is a sequence of operations on a model (`ModelOp`: new symbols, locking, unlocking, removing unused symbols, ...) and on its
states.  The specification knows the model and a table with the decisions' values in every state.
-/

namespace Verif

variable {V D : Type}

/-- What a user does to a model and its states; `i` are numbers of states. -/
inductive SessionOp (V : Type) where
  /-- an operation on the model -/
  | edit (op : ModelOp)
  /-- `model.states.resize(n)` -/
  | resize (n : Int)
  /-- `d.set_state(i, x)` -/
  | set (d : Nat) (i : Int) (x : V)
  /-- `v.reset_state(i)` -/
  | reset (v : Nat) (i : Int)
  /-- `v.state(i)` -/
  | read (v : Nat) (i : Int)
  /-- `model.states.initialize()` -/
  | fill
  /-- `model.states.from_file(file)` with a file that has been made by a model with these decisions (see C65), or with the first few of
  them: for each state in the file the values of the decisions, if they were initialised -/
  | load (rows : List (List (Option V)))

/-- What the user sees: nothing, a value, or an exception. -/
inductive Seen (V : Type) where
  | done
  | shown (x : V)
  | raised
  deriving DecidableEq

/-- The model after an operation. -/
def SessionOp.model (m : PyModel) : SessionOp V → Res PyModel
  | .edit op => m.perform op
  | _ => .ok m

/-- The operations on the model in a session. -/
def edits : List (SessionOp V) → List ModelOp
  | [] => []
  | .edit op :: ops => op :: edits ops
  | _ :: ops => edits ops

/-- The decisions' values in a loaded state. -/
def loadedValues (ds : List Nat) (dflt : Nat → V) (row : List (Option V)) (v : Nat) : V := ((ds.zip row).lookup v).join.getD (dflt v)

/-- The operation names symbols that are in the model; only decisions are set, to values that they accept or refuse with an
exception. -/
def SessionOp.Names (sem : Nat → NodeSem V D) (m : PyModel) : SessionOp V → Prop
  | .set d _ x => d ∈ m.g.decisions ∧ ((sem d).ok [x] ∨ (sem d).init [x] = .throw)
  | .reset v _ | .read v _ => v ∈ m.g.nodes
  | .load rows => ∀ row ∈ rows, row.length ≤ m.g.decisions.length ∧ ∀ p ∈ m.g.decisions.zip row, ∀ x ∈ p.2, (sem p.1).ok [x]
  | _ => True

/-- All operations of a session do. -/
def SessionOp.NamesAll (sem : Nat → NodeSem V D) : PyModel → List (SessionOp V) → Prop
  | _, [] => True
  | m, op :: ops => op.Names sem m ∧ ∀ m', op.model m = .ok m' → NamesAll sem m' ops

end Verif
