import Verif.Model.Propose

/-!
# Model of lazily initialised states
(/repo/dwave/optimization/src/graph.cpp 99-161, _model.pyx 980-994, states.pyx 195-230, 305-311)
-/

namespace Verif
namespace Graph

variable {V D : Type}

/-- A `State` vector with possibly missing entries: its size, and the entry of each node (the entry of
node `v` is at its topological index). -/
structure PState (sem : Nat → NodeSem V D) where
  size : Nat
  cell : (v : Nat) → Option (sem v).σ

namespace PState

variable {sem : Nat → NodeSem V D}

/-- A new state. -/
def empty : PState sem := ⟨0, fun _ => none⟩

/-- Replace the entry of one node. -/
def put (st : PState sem) (v : Nat) (s : Option (sem v).σ) : PState sem :=
  { st with cell := fun w => if h : w = v then h ▸ s else st.cell w }

@[simp] theorem put_same (st : PState sem) (v : Nat) (s : Option (sem v).σ) :
    (st.put v s).cell v = s := by simp [put]

theorem put_ne (st : PState sem) {v w : Nat} (s : Option (sem v).σ) (h : w ≠ v) :
    (st.put v s).cell w = st.cell w := by simp [put, h]

@[simp] theorem put_size (st : PState sem) (v : Nat) (s : Option (sem v).σ) :
    (st.put v s).size = st.size := rfl

/-- `state.resize(n)` in case `n` is larger. -/
def grow (st : PState sem) (n : Nat) : PState sem := { st with size := max st.size n }

end PState

variable (g : Graph) (sem : Nat → NodeSem V D) (dflt : Nat → V)

/-- The operands a node reads when it is initialised; a missing one is a null dereference.  A decision
initialises itself to its default. -/
def readOperands (st : PState sem) (v : Nat) : Res (List V) :=
  if v ∈ g.decisions then .ok [dflt v]
  else (g.mem v).preds.mapM fun p => match st.cell p with
    | some s => .ok ((sem p).view s)
    | none => .ub

/-- `recursive_initialize`, graph.cpp 115-135.  The recursion depth is bounded by `fuel`; running out
of it is `ub` (it is proved not to happen). -/
def recInit : Nat → PState sem → Nat → Res (PState sem)
  | 0, _, _ => .ub
  | fuel + 1, st, v =>
    if (g.mem v).topo < 0 then .throw
    else if (st.cell v).isSome then .ok (st.grow ((g.mem v).topo.toNat + 1))
    else do
      let st ← (g.mem v).preds.foldlM (recInit fuel) (st.grow ((g.mem v).topo.toNat + 1))
      let xs ← readOperands g sem dflt st v
      let s ← (sem v).init xs
      .ok (st.put v (some s))

/-- `recursive_reset`, graph.cpp 137-156. -/
def recReset : Nat → PState sem → Nat → Res (PState sem)
  | 0, _, _ => .ub
  | fuel + 1, st, v =>
    if (g.mem v).topo < 0 then .throw
    else if (st.size : Int) ≤ (g.mem v).topo then .ok st
    else (g.mem v).succs.foldlM
      (fun st u => if (g.mem u).topo < 0 then .ok st else recReset fuel st u) (st.put v none)

/-- `Symbol.reset_state`, _model.pyx 979-994. -/
def resetState (st : PState sem) (v : Nat) : Res (PState sem) :=
  if (g.mem v).topo < 0 then .ok st
  else recReset g sem (g.nodes.length + 1) (st.grow ((g.mem v).topo.toNat + 1)) v

/-- `set_state` of a decision, e.g. symbols.pyx 764-781: reset, then `initialize_state` with the given
value. -/
def setState (st : PState sem) (d : Nat) (x : V) : Res (PState sem) := do
  let st ← resetState g sem st d
  let s ← (sem d).init [x]
  .ok (st.put d (some s))

/-- Reading a symbol's state (`StateView.__init__`, states.pyx 301-311): initialise what is missing. -/
def readState (st : PState sem) (v : Nat) : Res (PState sem) :=
  recInit g sem dflt (g.nodes.length + 1) st v

/-- One turn of the loop of `initialize_state`, graph.cpp 108-112. -/
def initOne (st : PState sem) (v : Nat) : Res (PState sem) :=
  if (st.cell v).isSome then .ok st
  else do
    let xs ← readOperands g sem dflt st v
    let s ← (sem v).init xs
    .ok (st.put v (some s))

/-- `States.initialize`, states.pyx 191-200, with `initialize_state`, graph.cpp 104-113. -/
def initAll (st : PState sem) : Res (PState sem) :=
  g.nodes.foldlM (initOne g sem dflt) (st.grow g.nodes.length)

/-- `_reset_intermediate_states`, states.pyx 224-228 (called on unlocking, model.py 491-499):
`resize(num_decisions)`. -/
def dropIntermediate (st : PState sem) : PState sem :=
  ⟨g.decisions.length, fun v => if (g.mem v).topo < g.decisions.length then st.cell v else none⟩

end Graph

/-- What a user does to a state of a locked model. -/
inductive StateOp (V : Type) where
  | set (d : Nat) (x : V)
  | reset (v : Nat)
  | read (v : Nat)
  | fill
  /-- unlock and lock again -/
  | relock

namespace Graph

variable {V D : Type} (g : Graph) (sem : Nat → NodeSem V D) (dflt : Nat → V)

def stateStep (st : PState sem) : StateOp V → Res (PState sem)
  | .set d x => setState g sem st d x
  | .reset v => resetState g sem st v
  | .read v => readState g sem dflt st v
  | .fill => initAll g sem dflt st
  | .relock => .ok (dropIntermediate g sem st)

end Graph
end Verif
