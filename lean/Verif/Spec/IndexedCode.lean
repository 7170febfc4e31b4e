import Verif.Spec.Expressions
import Verif.Spec.Getitem

/-!
# Specification: what Python code with symbols and indexing means

As in `Verif.Spec.Expressions`, with indexing, sizes and decisions that consist of several arrays.  What is missing here are sums and
products that are extended in place by `+=` and `*=`.
-/

namespace Verif

open MixedIndex

/-- A statement. -/
inductive CodeStmt where
  | assign (v : Nat) (c : PyCall)
  /-- `v = x[…]`; the symbols between the brackets are names -/
  | getitem (v x : Nat) (idx : List PyIndex)
  /-- `v = x.size()`, for an array whose size varies -/
  | size (v x : Nat)
  /-- `main, (v1, v2, …) = model.disjoint_lists(n, len(vs))` -/
  | disjointLists (vs : List Nat) (n : Int)
  /-- `main, (v1, v2, …) = model.disjoint_bit_sets(n, len(vs))` -/
  | disjointBitSets (vs : List Nat) (n : Int)
  /-- `v += x` -/
  | iadd (v x : Nat)
  /-- `v *= x` -/
  | imul (v x : Nat)
  /-- `model.minimize(v)` -/
  | minimize (v : Nat)
  /-- `model.add_constraint(v)` -/
  | constraint (v : Nat)

/-- The name `v` stands for `a`. -/
def NumPy.bind (w : NumPy) (v : Nat) (a : Arr Rat) : NumPy := { w with env := fun u => if u = v then some a else w.env u }

/-- The names stand for the arrays, one after the other. -/
def NumPy.bindAll : NumPy → List Nat → List (Arr Rat) → NumPy
  | w, v :: vs, a :: as => (w.bind v a).bindAll vs as
  | w, _, _ => w

/-- One statement with NumPy arrays; `none` stands for an exception.  `given` are the arrays of the decision, if the statement makes
one. -/
def CodeStmt.numpy (given : List (Arr Rat)) (w : NumPy) : CodeStmt → Option NumPy
  | assign v c => do
    let a ← c.numpy (given.headD ⟨[], []⟩) w.env
    some (w.bind v a)
  | getitem v x idx => do
    let a ← w.env x
    let ys ← (PyIndex.symbols idx).mapM w.env
    let z ← numpyGetitem a (idx.map PyIndex.mixed) ys
    some (w.bind v z)
  | size v x => do
    let a ← w.env x
    some (w.bind v ⟨[], [a.data.length]⟩)
  | disjointLists vs _ | disjointBitSets vs _ => if given.length = vs.length then some (w.bindAll vs given) else none
  | iadd v x => do
    let a ← w.env v
    let b ← w.env x
    let z ← numpyZip BinaryOp.add.numpy a b
    some (w.bind v z)
  | imul v x => do
    let a ← w.env v
    let b ← w.env x
    let z ← numpyZip BinaryOp.multiply.numpy a b
    some (w.bind v z)
  | minimize v => do
    let a ← w.env v
    some { w with objective := some a }
  | constraint v => do
    let a ← w.env v
    some { w with constraints := w.constraints ++ [a] }

/-- The statements one after the other, counted from `t`; the decision made by statement `t` consists of the arrays `given t`. -/
def codeNumpy (given : Nat → List (Arr Rat)) : Nat → NumPy → List CodeStmt → Option NumPy
  | _, w, [] => some w
  | t, w, p :: ps => do
    let w ← p.numpy (given t) w
    codeNumpy given (t + 1) w ps

/-- In no `x[…]` with index arrays it makes a difference whether integers are taken first. -/
def PlainLayout (ps : List CodeStmt) : Prop :=
  ∀ v x idx, .getitem v x idx ∈ ps → PyIndex.symbols idx ≠ [] → SameLayout (idx.map PyIndex.mixed)

end Verif
