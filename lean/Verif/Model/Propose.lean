import Verif.Model.Graph
import Verif.Spec.Node

/-!
# Model of proposing changes (/repo/dwave/optimization/src/graph.cpp 190-299)
-/

namespace Verif
namespace Graph

variable {V D : Type}

/-- `State`: one state per node, all initialised. -/
def St (sem : Nat → NodeSem V D) : Type := (v : Nat) → (sem v).σ

/-- Replace the state of one node. -/
def St.set {sem : Nat → NodeSem V D} (st : St sem) (v : Nat) (s : (sem v).σ) : St sem :=
  fun w => if h : w = v then h ▸ s else st w

@[simp] theorem St.set_same {sem : Nat → NodeSem V D} (st : St sem) (v : Nat) (s : (sem v).σ) :
    st.set v s v = s := by simp [St.set]

theorem St.set_ne {sem : Nat → NodeSem V D} (st : St sem) {v w : Nat} (s : (sem v).σ) (h : w ≠ v) :
    st.set v s w = st w := by simp [St.set, h]

/-- `node_ptr->propagate(state)`: a node reads the values and changes of its predecessors. -/
def propagate1 (g : Graph) (sem : Nat → NodeSem V D) (st : St sem) (v : Nat) : Res (St sem) := do
  let s ← (sem v).propagate (st v)
    ((g.mem v).preds.map fun p => ((sem p).view (st p), (sem p).diff (st p)))
  .ok (st.set v s)

/-- `propagate`, graph.cpp 233-241. -/
def propagateAll (g : Graph) (sem : Nat → NodeSem V D) (st : St sem) (queue : List Nat) : Res (St sem) :=
  queue.foldlM (propagate1 g sem) st

/-- `n_ptr->commit(state)`. -/
def commit1 (sem : Nat → NodeSem V D) (st : St sem) (v : Nat) : Res (St sem) := do
  let s ← (sem v).commit (st v)
  .ok (st.set v s)

/-- `n_ptr->revert(state)`. -/
def revert1 (sem : Nat → NodeSem V D) (st : St sem) (v : Nat) : Res (St sem) := do
  let s ← (sem v).revert (st v)
  .ok (st.set v s)

/-- `commit`, graph.cpp 247-259, with its assertion that no changes are left. -/
def commitAll [DecidableEq D] (quiet : D) (sem : Nat → NodeSem V D) (st : St sem) (changed : List Nat) :
    Res (St sem) := do
  let st ← changed.foldlM (commit1 sem) st
  guardUB (∀ v ∈ changed, (sem v).diff (st v) = quiet)
  .ok st

/-- `revert`, graph.cpp 265-277, with its assertion that no changes are left. -/
def revertAll [DecidableEq D] (quiet : D) (sem : Nat → NodeSem V D) (st : St sem) (changed : List Nat) :
    Res (St sem) := do
  let st ← changed.foldlM (revert1 sem) st
  guardUB (∀ v ∈ changed, (sem v).diff (st v) = quiet)
  .ok st

/-- `propose`, graph.cpp 285-299.  The result also tells what the acceptance function answered. -/
def propose [DecidableEq D] (g : Graph) (quiet : D) (sem : Nat → NodeSem V D) (st : St sem)
    (marks : Int → Bool) (sources : List Nat) (accept : St sem → Bool) :
    Res (St sem × (Int → Bool) × Bool) := do
  let r ← g.descendants marks sources
  let st ← propagateAll g sem st r.1
  if accept st then do
    let st ← commitAll quiet sem st r.1
    .ok (st, r.2, true)
  else do
    let st ← revertAll quiet sem st r.1
    .ok (st, r.2, false)

end Graph
end Verif
