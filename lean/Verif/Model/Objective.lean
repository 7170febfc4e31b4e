import Verif.Model.Declared

/-!
# Models of `Graph::energy`, `Graph::feasible` and of choosing objective and constraints
(/repo/dwave/optimization/src/graph.cpp 169-201)
-/

namespace Verif

/-- `Graph::energy`, graph.cpp 191-194; `vals` are the present values.  `front` of an empty array is
undefined. -/
def Graph.energy (g : Graph) (vals : Nat → Val) : Res Rat :=
  match g.objective with
  | none => .ok 0
  | some o => (single (vals o)).front

/-- The loop of `Graph::feasible`, graph.cpp 195-201. -/
def feasibleLoop (vals : Nat → Val) : List Nat → Res Bool
  | [] => .ok true
  | c :: cs => do
    guardUB ((single (vals c)).data.length = 1)
    let v ← (single (vals c)).read 0
    if v = 0 then .ok false else feasibleLoop vals cs

/-- `Graph::feasible`, graph.cpp 195-201. -/
def Graph.feasible (g : Graph) (vals : Nat → Val) : Res Bool := feasibleLoop vals g.constraints

/-- Choosing the objective and the constraints. -/
inductive TargetOp where
  | objective (o : Option Nat)
  | constraint (c : Nat)
  deriving DecidableEq, Repr

namespace Symbols

/-- `size() == 1`. -/
def scalar (S : Symbols) (v : Nat) : Bool := sizeOne (Kind.shape1 (S.shapes v))

/-- `set_objective` and `add_constraint` with the symbols' own answers. -/
def target (S : Symbols) (claim : Nat → Claim) (g : Graph) : TargetOp → Res Graph
  | .objective o => g.setObjective o S.scalar
  | .constraint c => g.addConstraint c (fun v => (claim v).logical) S.scalar

/-- A sequence of calls; exceptions are caught by the caller. -/
def targets (S : Symbols) (claim : Nat → Claim) (g : Graph) : List TargetOp → Res Graph
  | [] => .ok g
  | op :: ops =>
    match S.target claim g op with
    | .ok g' => S.targets claim g' ops
    | .throw => S.targets claim g ops
    | .ub => .ub

end Symbols
end Verif
