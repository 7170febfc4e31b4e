import Verif.Spec.Problems

/-!
# Constrained quadratic models

What a constrained quadratic model (of the package `dimod`) means: a quadratic objective to be minimised, quadratic constraints, some
of them soft: these may be violated, at a price.
-/

namespace Verif

/-- The types of variables. -/
inductive Vartype where
  | binary | spin | integer | real
deriving DecidableEq

/-- A quadratic expression: a number, the variables with their linear biases, and pairs of variables with their quadratic biases.
Variables are numbered as in the model. -/
structure QuadExpr where
  offset : Rat
  linear : List (Nat × Rat)
  quadratic : List (Nat × Nat × Rat)

/-- The relation between the two sides of a constraint. -/
inductive Sense where
  | eq | le | ge
deriving DecidableEq

/-- A constraint; `weight` is `none` for a hard constraint, and the weight of a soft constraint with linear penalty. -/
structure CqmConstraint where
  lhs : QuadExpr
  sense : Sense
  rhs : Rat
  weight : Option Rat

/-- A constrained quadratic model. -/
structure Cqm where
  vartypes : List Vartype
  objective : QuadExpr
  constraints : List CqmConstraint

/-- The value of an expression. -/
def QuadExpr.value (e : QuadExpr) (x : Nat → Rat) : Rat :=
  e.offset + (e.linear.map fun p => p.2 * x p.1).sum + (e.quadratic.map fun t => t.2.2 * (x t.1 * x t.2.1)).sum

/-- By how much a constraint is violated. -/
def CqmConstraint.violation (c : CqmConstraint) (x : Nat → Rat) : Rat :=
  match c.sense with
  | .eq => |c.lhs.value x - c.rhs|
  | .le => max 0 (c.lhs.value x - c.rhs)
  | .ge => max 0 (c.rhs - c.lhs.value x)

/-- Whether a constraint holds. -/
def CqmConstraint.holds (c : CqmConstraint) (x : Nat → Rat) : Prop :=
  match c.sense with
  | .eq => c.lhs.value x = c.rhs
  | .le => c.lhs.value x ≤ c.rhs
  | .ge => c.rhs ≤ c.lhs.value x

/-- The variables of an expression are among the `n` of the model, and the pairs are pairs of its variables. -/
def QuadExpr.Over (n : Nat) (e : QuadExpr) : Prop :=
  (∀ p ∈ e.linear, p.1 < n) ∧ ∀ t ∈ e.quadratic, t.1 ∈ e.linear.map Prod.fst ∧ t.2.1 ∈ e.linear.map Prod.fst

/-- What `dimod` ensures. -/
def Cqm.WF (c : Cqm) : Prop :=
  c.objective.Over c.vartypes.length ∧ ∀ k ∈ c.constraints, k.lhs.Over c.vartypes.length

/-- The number a truth value stands for. -/
def bitOf (b : Bool) : Rat := if b then 1 else 0

/-- The problem a model with binary variables stands for: each soft constraint adds its weight times its violation to the cost, and
a solution is feasible if it satisfies all hard constraints. -/
def cqmProblem (c : Cqm) : Problem (List Bool) where
  valid := fun x => x.length = c.vartypes.length
  values := fun x _ => [⟨[(c.vartypes.length : Int)], x.map bitOf⟩]
  cost := fun x => c.objective.value (fun i => bitOf (x.getD i false)) +
    (c.constraints.map fun k => k.weight.getD 0 * k.violation fun i => bitOf (x.getD i false)).sum
  feasible := fun x => ∀ k ∈ c.constraints, k.weight = none → k.holds fun i => bitOf (x.getD i false)

/-- The same model with all constraints hard. -/
def Cqm.hard (c : Cqm) : Cqm := { c with constraints := c.constraints.map fun k => { k with weight := none } }

end Verif
