import Verif.Model.ProgramFile
import Verif.Model.StateSize

/-!
# Saving and loading programs with their states
(/repo/dwave/optimization/_model.pyx 193-234, 236-359, 1443-1470, symbols.pyx 1176-1192, 1429-1445)

`Model/ProgramFile.lean` with the header and the states of the decisions.
-/

namespace Verif

/-- A saved program with its states. -/
structure ProgramArchive where
  /-- at the beginning of the file -/
  header : Header
  /-- `info.json` -/
  info : Header
  file : ProgramFile
  /-- `nodes/<i>/states/<j>/`: the arrays there -/
  state : Int → Nat → List (Arr Rat)

namespace Script

/-- `successors()`: symbols are appended when they are made, graph.hpp 256-261. -/
def users (s : Script) (v : Nat) : List Nat := (List.range s.length).filter fun w => v ∈ (s.row w).ops

/-- The arrays saved for a state of a decision, as `Draft.savedState`: `_state_into_zipfile`, _model.pyx 1462-1470,
symbols.pyx 1184-1192, 1437-1445. -/
def savedState (s : Script) (A : Option Val) (v : Nat) : List (Arr Rat) :=
  match A with
  | none => []
  | some x =>
    if (s.row v).built.asKind.isArray then x.take 1
    else (s.users v).map fun w =>
      match (s.row w).built with
      | .kind (.output j) => x.getD j ⟨[], []⟩
      | _ => ⟨[], []⟩

/-- `_state_from_zipfile`, _model.pyx 1443-1460, symbols.pyx 1176-1182, 1429-1435, as `Draft.loadState`: the new value of a symbol. -/
def loadState (s : Script) (v : Nat) (files : List (Arr Rat)) : Res (Option Val) :=
  if (s.row v).built.asKind.isArray then
    match files with
    | [] => .ok none
    | a :: _ => do
      guardThrow ((s.row v).decision = true)
      let t ← (s.row v).node.init [[a]]
      .ok (some ((s.row v).node.view t))
  else do
    guardThrow ((s.row v).built.asKind.numParts ≤ files.length)
    let t ← (s.row v).node.init [files.take (s.row v).built.asKind.numParts]
    .ok (some ((s.row v).node.view t))

/-- `num_decisions()`. -/
def numDecisions (s : Script) : Nat := s.countP Row.decision

/-- `topological_index()` of a symbol in a model that has not been locked: the position among the decisions, graph.hpp 313-337. -/
def openIndex (s : Script) (v : Nat) : Int := if (s.row v).decision then (s.take v).countP Row.decision else -1

/-- `_header_data(only_decision=False)`, _model.pyx 218-234, of a model with `numStates` states. -/
def headerData (s : Script) (decisions nodes : List Nat) (numStates : Nat) : Res Header := do
  let dss ← s.stateSizes decisions
  let ss ← s.stateSizes nodes
  .ok ⟨dss, nodes.length, ss, numStates⟩

end Script

/-- `into_file` of a locked model, _model.pyx 236-359: `Generated.save` with the header and the first `numStates` states.  `states j v` is
the value of the decision `v` in state `j`, if it is initialised. -/
def Generated.saveStates (M : Generated) (m : PyModel) (isList : Nat → Bool) (numStates : Nat) (states : Nat → Nat → Option Val) :
    Res ProgramArchive := do
  let h ← M.rows.headerData m.g.decisions m.g.nodes numStates
  let F ← M.save m isList
  .ok {
    header := h
    info := h
    file := F
    state := fun i j =>
      if 0 ≤ i ∧ i.toNat < m.g.decisions.length ∧ j < numStates then
        M.rows.savedState (states j ((M.draft m).at_ i.toNat)) ((M.draft m).at_ i.toNat)
      else [] }

/-- A loaded program with its states. -/
structure LoadedProgram where
  M : Generated
  numStates : Nat
  /-- `states[i][j]`: state `j` of symbol `i`, for the first `num_decisions()` symbols -/
  states : List (List (Option Val))

/-- `from_file`, _model.pyx 139-216. -/
def ProgramArchive.load (checkHeader : Bool) (a : ProgramArchive) : Res LoadedProgram := do
  guardThrow (0 ≤ a.info.numNodes)
  let L ← a.file.load
  guardThrow (0 ≤ a.info.numStates)
  let states ← ((List.range L.rows.length).take L.rows.numDecisions).mapM fun v =>
    (List.range a.info.numStates.toNat).mapM fun j => L.rows.loadState v (a.state (L.rows.openIndex v) j)
  if checkHeader then do
    let h ← L.rows.headerData ((List.range L.rows.length).filter fun i => (L.rows.row i).decision) (List.range L.rows.length)
      a.info.numStates.toNat
    guardThrow (h = a.header)
    .ok ⟨L, a.info.numStates.toNat, states⟩
  else .ok ⟨L, a.info.numStates.toNat, states⟩

end Verif
