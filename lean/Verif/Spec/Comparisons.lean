import Verif.Spec.Expressions

/-!
# Specification: comparisons in Python code

Code as in `Spec/Expressions.lean` in which arrays are also compared with `<`, `<=`, `==`, `!=`, `>` and `>=`.
-/

namespace Verif

/-- The operators. -/
inductive Comparison where
  | lt | le | eq | ne | gt | ge
  deriving DecidableEq

/-- `numpy.less`, `less_equal`, `equal`, `not_equal`, `greater` and `greater_equal`, for one element; 1 is true and 0 is false. -/
def Comparison.numpy : Comparison → Rat → Rat → Rat
  | lt => fun x y => if x < y then 1 else 0
  | le => fun x y => if x ≤ y then 1 else 0
  | eq => fun x y => if x = y then 1 else 0
  | ne => fun x y => if x ≠ y then 1 else 0
  | gt => fun x y => if x > y then 1 else 0
  | ge => fun x y => if x ≥ y then 1 else 0

/-- A number as an array. -/
def scalarArr (q : Rat) : Arr Rat := ⟨[], [q]⟩

/-- `bool(x)`, `if x:` with a NumPy array; an exception unless it has exactly one element. -/
def numpyTruth (x : Arr Rat) : Option Bool :=
  match x.data with
  | [q] => some (decide (q ≠ 0))
  | _ => none

/-- A statement. -/
inductive CompareStmt where
  | plain (p : PyStmt)
  /-- `v = x op y` -/
  | compare (v : Nat) (op : Comparison) (x y : Nat)

/-- One statement with NumPy arrays. -/
def CompareStmt.numpy (given : Arr Rat) (w : NumPy) : CompareStmt → Option NumPy
  | plain p => p.numpy given w
  | compare v op x y => do
    let a ← w.env x
    let b ← w.env y
    let r ← numpyZip op.numpy a b
    some { w with env := fun u => if u = v then some r else w.env u }

/-- The statements one after the other, counted from `t`. -/
def compareRun (given : Nat → Arr Rat) : Nat → NumPy → List CompareStmt → Option NumPy
  | _, w, [] => some w
  | t, w, p :: ps => do
    let w ← p.numpy (given t) w
    compareRun given (t + 1) w ps

/-- What is known about the names, as in `Spec/Expressions.lean`: a comparison uses both and makes something new. -/
def Names.compareStep (N : Names) : CompareStmt → Option Names
  | .plain p => N.step p
  | .compare v _ x y => some ((N.use [x, y]).bind v true false false)

/-- The code never extends a sum or product in place that has been used. -/
def CarefulCompare (ps : List CompareStmt) : Prop := ∃ N, ps.foldlM Names.compareStep Names.start = some N

end Verif
