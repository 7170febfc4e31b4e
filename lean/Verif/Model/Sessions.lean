import Verif.Spec.Sessions
import Verif.Model.Graph

/-!
# Model of the states of a model that is worked on
(/repo/dwave/optimization/src/graph.cpp 104-156, include/dwave-optimization/graph.hpp 279-296, _model.pyx 979-994, 1426-1441,
states.pyx 191-200, 224-254, 301-311, model.py 491-499)

Here a state is the vector that the code has: entries are found by the topological index of their symbol, which changes when the model
is worked on.  An entry remembers the symbol that made it; when another symbol uses it, a pointer is cast to a wrong type, and that is
undefined behaviour.
-/

namespace Verif

variable {V D : Type}

/-- `NodeStateData`, and the symbol that made it. -/
structure Entry (sem : Nat → NodeSem V D) where
  owner : Nat
  data : (sem owner).σ

/-- `State`, a `std::vector<std::unique_ptr<NodeStateData>>`, state.hpp 21-41. -/
abbrev StateVec (sem : Nat → NodeSem V D) := List (Option (Entry sem))

namespace StateVec

variable {sem : Nat → NodeSem V D}

/-- `resize(n)`. -/
def resize (vec : StateVec sem) (n : Nat) : StateVec sem := vec.take n ++ List.replicate (n - vec.length) none

/-- Make sure that there is an entry with the given index, graph.cpp 122-125, _model.pyx 991-992. -/
def extend (vec : StateVec sem) (i : Nat) : StateVec sem := if vec.length ≤ i then vec.resize (i + 1) else vec

variable (g : Graph) (dflt : Nat → V)

/-- `data_ptr`, graph.hpp 279-296, with its assertions, and then the value. -/
def value (vec : StateVec sem) (v : Nat) : Res V :=
  if (g.mem v).topo < 0 then .ub
  else match vec[(g.mem v).topo.toNat]? with
    | some (some e) => if e.owner = v then .ok ((sem e.owner).view e.data) else .ub
    | _ => .ub

/-- What a symbol reads when it is initialised; decisions initialise themselves to their default. -/
def operandValues (vec : StateVec sem) (v : Nat) : Res (List V) :=
  if v ∈ g.decisions then .ok [dflt v] else (g.mem v).preds.mapM (value g vec)

/-- `state[index] = std::make_unique<...>(...)` in `initialize_state`, with the assertions of e.g. mathematical.cpp 73-76. -/
def emplace (vec : StateVec sem) (v : Nat) (s : (sem v).σ) : Res (StateVec sem) :=
  if (g.mem v).topo < 0 then .ub
  else match vec[(g.mem v).topo.toNat]? with
    | some none => .ok (vec.set (g.mem v).topo.toNat (some ⟨v, s⟩))
    | _ => .ub

/-- `initialize_state` of a symbol. -/
def initNode (vec : StateVec sem) (v : Nat) : Res (StateVec sem) := do
  let xs ← operandValues g dflt vec v
  let s ← (sem v).init xs
  emplace g vec v s

/-- `recursive_initialize`, graph.cpp 115-135.  The recursion depth is bounded by `fuel`; running out of it is `ub` (it is proved not to
happen). -/
def recInit : Nat → StateVec sem → Nat → Res (StateVec sem)
  | 0, _, _ => .ub
  | fuel + 1, vec, v =>
    if (g.mem v).topo < 0 then .throw
    else match (vec.extend (g.mem v).topo.toNat)[(g.mem v).topo.toNat]? with
      | some (some _) => .ok (vec.extend (g.mem v).topo.toNat)
      | _ => do
        let vec ← (g.mem v).preds.foldlM (recInit fuel) (vec.extend (g.mem v).topo.toNat)
        initNode g dflt vec v

/-- `recursive_reset`, graph.cpp 137-156. -/
def recReset : Nat → StateVec sem → Nat → Res (StateVec sem)
  | 0, _, _ => .ub
  | fuel + 1, vec, v =>
    if (g.mem v).topo < 0 then .throw
    else if (vec.length : Int) ≤ (g.mem v).topo then .ok vec
    else (g.mem v).succs.foldlM
      (fun vec u => if (g.mem u).topo < 0 then .ok vec else recReset fuel vec u) (vec.set (g.mem v).topo.toNat none)

/-- `Symbol.reset_state`, _model.pyx 987-994. -/
def resetState (vec : StateVec sem) (v : Nat) : Res (StateVec sem) :=
  if (g.mem v).topo < 0 then .ok vec
  else recReset g (g.nodes.length + 1) (vec.extend (g.mem v).topo.toNat) v

/-- The rest of `set_state`: an exception of the constructor of the state's data leaves the state as it is. -/
def assign (vec : StateVec sem) (d : Nat) : Res (sem d).σ → Res (StateVec sem × Seen V)
  | .ok s => (emplace g vec d s).bind fun vec => .ok (vec, .done)
  | .throw => .ok (vec, .raised)
  | .ub => .ub

/-- `set_state` after the conversion of the value, e.g. symbols.pyx 770-781. -/
def setState (vec : StateVec sem) (d : Nat) (x : V) : Res (StateVec sem × Seen V) := do
  let vec ← resetState g vec d
  assign g vec d ((sem d).init [x])

/-- `StateView.__init__`, states.pyx 301-311. -/
def readState (vec : StateVec sem) (v : Nat) : Res (StateVec sem) := recInit g dflt (g.nodes.length + 1) vec v

/-- One turn of the loop of `initialize_state`, graph.cpp 108-112: the entry is found by the position of the symbol. -/
def initOne (vec : StateVec sem) (vi : Nat × Nat) : Res (StateVec sem) :=
  match vec[vi.2]? with
  | some (some _) => .ok vec
  | _ => initNode g dflt vec vi.1

/-- `States.initialize`, states.pyx 198-200, with `initialize_state`, graph.cpp 104-113. -/
def initAll (vec : StateVec sem) : Res (StateVec sem) :=
  g.nodes.zipIdx.foldlM (initOne g dflt) (vec.resize g.nodes.length)

/-- One entry of a state in a file: the file's model has a decision like `d`, and its state is set to the value (`_state_from_zipfile`,
_model.pyx 1443-1460). -/
def loadEntry (p : Nat × Option V) : Res (Option (Entry sem)) :=
  match p.2 with
  | none => .ok none
  | some x => do
    let s ← (sem p.1).init [x]
    .ok (some ⟨p.1, s⟩)

/-- One state in a file. -/
def loadRow (ds : List Nat) (row : List (Option V)) : Res (StateVec sem) := (ds.zip row).mapM loadEntry

end StateVec

/-- A model and its states. -/
structure Session (sem : Nat → NodeSem V D) where
  m : PyModel
  sts : List (StateVec sem)

namespace Session

variable {sem : Nat → NodeSem V D} (dflt : Nat → V)

/-- `Model.unlock` removes the states of symbols that are no decisions, when it releases the last lock, model.py 491-499, states.pyx
224-228. -/
def afterEdit (s : Session sem) (m' : PyModel) : List (StateVec sem) :=
  if s.m.isLocked = true ∧ m'.isLocked = false then s.sts.map fun vec => vec.resize m'.g.decisions.length else s.sts

/-- An operation on the model. -/
def edit (s : Session sem) (op : ModelOp) : Res (Session sem × Seen V) := do
  let m' ← s.m.perform op
  .ok (⟨m', s.afterEdit m'⟩, match s.m.step op with | .throw => .raised | _ => .done)

/-- An operation on one state. -/
def onState (s : Session sem) (i : Nat) (f : StateVec sem → Res (StateVec sem × Seen V)) : Res (Session sem × Seen V) :=
  match s.sts[i]? with
  | none => .ub
  | some vec => (f vec).bind fun r => .ok ({ s with sts := s.sts.set i r.1 }, r.2)

/-- `state(index)`, _model.pyx 1430-1441. -/
def read (s : Session sem) (v : Nat) (i : Int) : Res (Session sem × Seen V) :=
  if -(s.sts.length : Int) ≤ i ∧ i < s.sts.length then
    if s.m.isLocked = false ∧ (s.m.g.mem v).topo < 0 then .ok (s, .raised)
    else
      match s.sts[(if i < 0 then i + s.sts.length else i).toNat]? with
      | none => .ub
      | some vec =>
        match StateVec.readState s.m.g dflt vec v with
        | .ok vec' =>
          match StateVec.value s.m.g vec' v with
          | .ok x => .ok ({ s with sts := s.sts.set (if i < 0 then i + s.sts.length else i).toNat vec' }, .shown x)
          | _ => .ub
        | .throw => .ok (s, .raised)
        | .ub => .ub
  else .ok (s, .raised)

/-- One operation. -/
def step (s : Session sem) : SessionOp V → Res (Session sem × Seen V)
  | .edit op => s.edit op
  | .resize n =>
    if n < 0 then .ok (s, .raised)
    else .ok ({ s with sts := s.sts.take n.toNat ++ List.replicate (n.toNat - s.sts.length) [] }, .done)
  | .set d i x => if 0 ≤ i ∧ i < s.sts.length then s.onState i.toNat fun vec => StateVec.setState s.m.g vec d x else .ok (s, .raised)
  | .reset v i =>
    if 0 ≤ i ∧ i < s.sts.length then s.onState i.toNat fun vec => (StateVec.resetState s.m.g vec v).bind fun vec => .ok (vec, .done)
    else .ok (s, .raised)
  | .read v i => s.read dflt v i
  | .fill =>
    if s.m.isLocked = false then .ok (s, .raised)
    else do
      let sts ← s.sts.mapM (StateVec.initAll s.m.g dflt)
      .ok ({ s with sts := sts }, .done)
  | .load rows => do
    -- states.pyx 140-172; the entries are those of the file's model, which has decisions of the same kinds
    let sts ← rows.mapM (StateVec.loadRow s.m.g.decisions)
    .ok ({ s with sts := sts }, .done)

/-- A session, and what the user sees. -/
def run : Session sem → List (SessionOp V) → Res (Session sem × List (Seen V))
  | s, [] => .ok (s, [])
  | s, op :: ops => do
    let r ← s.step dflt op
    let q ← run r.1 ops
    .ok (q.1, r.2 :: q.2)

end Session

end Verif
