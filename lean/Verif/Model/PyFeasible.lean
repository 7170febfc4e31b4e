import Verif.Model.PyStates

/-!
# Model of `Model.feasible` in Python
(/repo/dwave/optimization/model.py 230-258, _model.pyx 371-386)
-/

namespace Verif

/-- What a user does with states, checking their feasibility included. -/
inductive StateUse where
  | op (o : PyStateOp)
  /-- `model.feasible(i)` -/
  | feasible (i : Int)

/-- What the user sees. -/
inductive UseOutcome where
  | seen (o : Outcome)
  /-- the answer of `feasible` -/
  | answer (b : Bool)
  deriving DecidableEq

namespace Graph

variable (g : Graph) (kind : Nat → Kind) (sem : Nat → NodeSem Val Dif) (dflt : Nat → Val)

/-- `all(sym.state(index) for sym in self.iter_constraints())`, model.py 258: the constraints' states are read one after the other, up
to the first one that is zero.  An exception of `state` ends the call, and so does the truth value of an array that has not exactly
one element. -/
def feasibleFrom (i : Int) : List (PState sem) → List Nat → Res (List (PState sem) × UseOutcome)
  | sts, [] => .ok (sts, .answer true)
  | sts, c :: cs => do
    let (sts, o) ← pyStep g kind sem dflt sts (.state c i)
    match o with
    | .shown a =>
      match a.data with
      | [x] => if x = 0 then .ok (sts, .answer false) else feasibleFrom i sts cs
      | _ => .ok (sts, .seen .raised)
    | _ => .ok (sts, .seen .raised)

/-- One use of the states. -/
def useStep (sts : List (PState sem)) : StateUse → Res (List (PState sem) × UseOutcome)
  | .op o => do
    let (sts, o) ← pyStep g kind sem dflt sts o
    .ok (sts, .seen o)
  | .feasible i => feasibleFrom g kind sem dflt i sts g.constraints

/-- One after the other. -/
def useRun : List (PState sem) → List StateUse → Res (List (PState sem) × List UseOutcome)
  | sts, [] => .ok (sts, [])
  | sts, u :: us => do
    let (sts, o) ← useStep g kind sem dflt sts u
    let (sts, os) ← useRun sts us
    .ok (sts, o :: os)

end Graph
end Verif
