import Verif.Model.Generators
import Verif.Model.Archive
import Verif.Spec.ProblemsCqm

/-!
# Models from constrained quadratic models

`_from_constrained_quadratic_model`, `dwave/optimization/generators.py` 92-149.  A constrained quadratic model of `dimod` is
represented by what the function reads of it (`Cqm`); it does not read the weights of soft constraints.
-/

namespace Verif

namespace Generators

/-- `QuadraticModel(x, (data, coords), linear)`, symbols.pyx 2561-2641: the checks and the requests are those of `biasesFit` and
`loadedBiases`. -/
def quadraticModel (s : Script) (x : Nat) (linear : List Rat) (terms : List (Int × Int × Rat)) : Res (Script × Nat) := do
  guardThrow (Draft.biasesFit (s.row x).out.shape linear terms)
  let c ← (s.row x).out.claim
  s.add (.kind (.quadratic (s.row x).out.shape.prod.toNat (Draft.loadedBiases c.logical linear terms))) [x]

/-- `qm.variables.index(u)`: the position of a variable in an expression. -/
def positionOf (e : QuadExpr) (u : Nat) : Res Nat := do
  guardThrow (u ∈ e.linear.map Prod.fst)
  .ok ((e.linear.map Prod.fst).idxOf u)

/-- The positions and the bias of an interaction, generators.py 122-124. -/
def termOf (e : QuadExpr) (t : Nat × Nat × Rat) : Res (Int × Int × Rat) := do
  let u ← positionOf e t.1
  let v ← positionOf e t.2.1
  .ok (u, v, t.2.2)

/-- An expression without its offset, generators.py 116-126. -/
def cqmTerms (s : Script) (x indices linear : Nat) (e : QuadExpr) : Res (Script × Nat) :=
  if e.quadratic = [] then do
    let (s, xs) ← s.add (.advanced [true]) [x, indices]
    let (s, ys) ← s.add (.kind (.binary .multiply)) [linear, xs]
    s.add (.kind (.reduce .sum 0)) [ys]
  else do
    let ts ← e.quadratic.mapM (termOf e)
    let (s, xs) ← s.add (.advanced [true]) [x, indices]
    quadraticModel s xs (e.linear.map Prod.snd) ts

/-- The offset, generators.py 128-131. -/
def cqmOffset (s : Script) (out : Nat) (offset : Rat) : Res (Script × Nat) :=
  if offset = 0 then .ok (s, out)
  else do
    let (s, o) ← s.add (.kind (.constant (scalar offset))) []
    s.add (.kind (.binary .add)) [out, o]

/-- `quadratic_model(qm)`, generators.py 106-131. -/
def cqmExpression (s : Script) (x : Nat) (e : QuadExpr) : Res (Script × Nat) := do
  let (s, indices) ← s.add (.kind (.constant ⟨[(e.linear.length : Int)], e.linear.map fun p => (p.1 : Rat)⟩)) []
  let (s, linear) ← s.add (.kind (.constant ⟨[(e.linear.length : Int)], e.linear.map Prod.snd⟩)) []
  let (s, out) ← cqmTerms s x indices linear e
  cqmOffset s out e.offset

/-- The comparison, generators.py 140-148. -/
def cqmCompare (s : Script) (sense : Sense) (lhs rhs : Nat) : Res (Script × Nat) :=
  match sense with
  | .eq => s.add (.kind (.binary .equal)) [lhs, rhs]
  | .le => s.add (.kind (.binary .lessEqual)) [lhs, rhs]
  | .ge => s.add (.kind (.binary .lessEqual)) [rhs, lhs]

/-- A constraint, generators.py 136-148. -/
def cqmConstraint (x : Nat) (M : Generated) (c : CqmConstraint) : Res Generated := do
  let (s, lhs) ← cqmExpression M.rows x c.lhs
  let (s, rhs) ← s.add (.kind (.constant (scalar c.rhs))) []
  let (s, r) ← cqmCompare s c.sense lhs rhs
  Generated.addConstraint { M with rows := s } r

/-- A model with variables, generators.py 104-149. -/
def cqmModel (c : Cqm) : Res Generated := do
  let (s, x) ← Script.add [] (.kind (.binaryVar [(c.vartypes.length : Int)])) []
  let (s, o) ← cqmExpression s x c.objective
  let M ← Generated.minimize ⟨s, none, []⟩ o
  c.constraints.foldlM (cqmConstraint x) M

/-- `_from_constrained_quadratic_model`, generators.py 92-149.  The model is not locked at the end; `Generated.ops` locks it, as
everybody must who wants to make states. -/
def fromCqm (c : Cqm) : Res Generated := do
  guardThrow (∀ t ∈ c.vartypes, t = .binary)
  if c.vartypes.length = 0 then .ok ⟨[], none, []⟩ else cqmModel c

end Generators
end Verif
