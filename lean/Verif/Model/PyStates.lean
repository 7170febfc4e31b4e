import Verif.Model.LazyState
import Verif.Model.Build
import Verif.Spec.PyStates
import Verif.Spec.Expressions
import Verif.Model.Script

/-!
# Model of the states in Python
(/repo/dwave/optimization/states.pyx 191-254, symbols.pyx 741-785, 1142-1175, 1398-1428, 1704-1727, 1829-1850, 2892-2916, _model.pyx
979-994, 1399-1441)

An exception does not end the history: it is caught by the user.
-/

namespace Verif

/-- The conversions at the begin of `set_state`; `none` is an exception.
* `BinaryVariable`, `IntegerVariable`: `np.asarray(state, dtype=np.intp).flatten()`, symbols.pyx 767, 1712.
* `ListVariable`, `SetVariable`: `Py_ssize_t[:] arr = np.asarray(state, dtype=np.intp)`, which must have one dimension, symbols.pyx
  1837, 2903; a Python set is sorted first, 2897-2898.  The two classes are one kind in the catalog, and Python sets are given to
  `SetVariable`s only.
* `DisjointBitSets`: `bool[:, :] arr = np.asarray(state, dtype=np.bool_)`, which must have two dimensions, symbols.pyx 1161-1170.
* `DisjointLists`: each part is converted on its own, symbols.pyx 1414-1424. -/
def Kind.given (k : Kind) (x : PyValue) : Option Val :=
  match k with
  | .integer shape _ _ => do
    let a ← x.asArray
    some [⟨shape, a.data.map roundToZero⟩]
  | .binaryVar shape => do
    let a ← x.asArray
    some [⟨shape, a.data.map roundToZero⟩]
  | .collection n lo hi =>
    match x with
    | .set s => some [⟨collShape (Kind.collNode n lo hi), (s.sort (· ≤ ·)).map roundToZero⟩]
    | x => do
      let a ← x.asArray
      if a.shape.length = 1 then some [⟨collShape (Kind.collNode n lo hi), a.data.map roundToZero⟩] else none
  | .disjointBitSets P _ => do
    let a ← x.asArray
    match a.shape with
    | [n, m] => some ((List.range n.toNat).map fun i =>
        ⟨[(P.toNat : Int)], ((a.data.map fun v => if v = 0 then 0 else 1).drop (i * m.toNat)).take m.toNat⟩)
    | _ => none
  | .disjointLists _ _ => do
    let l ← x.asRows
    some (l.map fun r => ⟨[-1], r.map roundToZero⟩)
  | _ => none

/-- What a symbol of a program is; symbols that are not in the catalog are arrays and no decisions, as are sizes. -/
def Row.kind (r : Row) : Kind :=
  match r.built with
  | .kind k => k
  | _ => .size

namespace Graph

variable (g : Graph) (kind : Nat → Kind) (sem : Nat → NodeSem Val Dif) (dflt : Nat → Val)

/-- `reset_state(index)`, which checks the index, and `initialize_state` with the converted value; the latter may raise an exception
after the former, and so may the conversion (`none`). -/
def place (sts : List (PState sem)) (d : Nat) (i : Int) (y : Option Val) :
    Res (List (PState sem) × Outcome) :=
  if 0 ≤ i ∧ i < sts.length then
    match sts[i.toNat]? with
    | none => .ub
    | some st =>
      match resetState g sem st d with
      | .ok st1 =>
        match y with
        | none => .ok (sts.set i.toNat st1, .raised)
        | some y =>
          match (sem d).init [y] with
          | .ok s => .ok (sts.set i.toNat (st1.put d (some s)), .done)
          | .throw => .ok (sts.set i.toNat st1, .raised)
          | .ub => .ub
      | .throw => .ok (sts, .raised)
      | .ub => .ub
  else .ok (sts, .raised)

/-- `reset_state(index)`, _model.pyx 979-994. -/
def resetAt (sts : List (PState sem)) (v : Nat) (i : Int) : Res (List (PState sem) × Outcome) :=
  if 0 ≤ i ∧ i < sts.length then
    match sts[i.toNat]? with
    | none => .ub
    | some st =>
      match resetState g sem st v with
      | .ok st1 => .ok (sts.set i.toNat st1, .done)
      | .throw => .ok (sts, .raised)
      | .ub => .ub
  else .ok (sts, .raised)

/-- `state(index)`, _model.pyx 1426-1441, with `StateView`, states.pyx 297-330.  Negative indices count from the end. -/
def stateAt (sts : List (PState sem)) (v : Nat) (i : Int) : Res (List (PState sem) × Outcome) :=
  if -(sts.length : Int) ≤ i ∧ i < sts.length then
    let j := if i < 0 then i + sts.length else i
    match sts[j.toNat]? with
    | none => .ub
    | some st =>
      match readState g sem dflt st v with
      | .ok st1 =>
        match st1.cell v with
        | some s => .ok (sts.set j.toNat st1, .shown (single ((sem v).view s)).present)
        | none => .ub
      | .throw => .ok (sts, .raised)
      | .ub => .ub
  else .ok (sts, .raised)

/-- One operation.  `kind` says what the symbols are: only decisions have `set_state`, only array symbols have `state`. -/
def pyStep (sts : List (PState sem)) : PyStateOp → Res (List (PState sem) × Outcome)
  | .resize n =>
    if n < 0 then .ok (sts, .raised)
    else .ok (sts.take n.toNat ++ List.replicate (n.toNat - sts.length) PState.empty, .done)
  | .setState d i x =>
    if (kind d).isDecision = true then
      if (kind d).isArray = true then
        match (kind d).given x with
        | some y => place g sem sts d i (some y)
        | none => .ok (sts, .raised)
      else place g sem sts d i ((kind d).given x)
    else .ok (sts, .raised)
  | .resetState v i => resetAt g sem sts v i
  | .state v i => if (kind v).isArray = true then stateAt g sem dflt sts v i else .ok (sts, .raised)
  | .fill => do
    let sts ← sts.mapM (initAll g sem dflt)
    .ok (sts, .done)
  | .relock => .ok (sts.map (dropIntermediate g sem), .done)

/-- The operations one after the other, and what the user sees. -/
def pyRun : List (PState sem) → List PyStateOp → Res (List (PState sem) × List Outcome)
  | sts, [] => .ok (sts, [])
  | sts, op :: ops => do
    let (sts, o) ← pyStep g kind sem dflt sts op
    let (sts, os) ← pyRun sts ops
    .ok (sts, o :: os)

end Graph
end Verif
