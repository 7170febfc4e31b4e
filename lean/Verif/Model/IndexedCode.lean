import Verif.Model.Expressions
import Verif.Model.Getitem
import Verif.Model.Programs
import Verif.Spec.IndexedCode

/-!
# Model of Python code with indexing

Code with `x[…]` (_model.pyx 1145-1186, symbols.pyx 463-497), `x.size()` (1380-1397), `model.disjoint_lists` and
`model.disjoint_bit_sets` (model.py 168-228) and the operators, functions and methods of `Verif.Model.Expressions`.  An exception ends the
code.
-/

namespace Verif

/-- The symbols, objective and constraints made so far, the symbols that the names stand for, and the symbol that each statement made
(any number, if it made none). -/
structure Code where
  M : Generated
  names : Nat → Option Nat
  made : List Nat

namespace Code

/-- An empty model. -/
def start : Code := ⟨⟨[], none, []⟩, fun _ => none, []⟩

/-- The symbol that a name stands for; otherwise `NameError`. -/
def lookup (s : Code) (x : Nat) : Res Nat :=
  match s.names x with
  | some a => .ok a
  | none => .throw

/-- The name `v` stands for the symbol `r.2`. -/
def bind (s : Code) (v : Nat) (r : Script × Nat) : Code :=
  ⟨{ s.M with rows := r.1 }, fun u => if u = v then some r.2 else s.names u, s.made ++ [r.2]⟩

/-- The symbol is a sum (product) of several symbols: `+=` (`*=`) changes it in place. -/
def extends_ (op : NaryOp) : Built → Bool
  | .kind (.nary o) => decide (o = op)
  | _ => false

/-- The right-hand sides, see `PyCall.eval`.  `x ** n` with n > 2 makes the product of n symbols `x`, _model.pyx 1242-1248: of two by the
first `*=`, to which the others are added in place.  If `x` itself is a product it is changed in place: this is left out here (the
code ends as with an exception), see C62. -/
def call (s : Code) : PyCall → Res (Script × Nat)
  | .constant a => s.M.rows.add (.kind (.constant a)) []
  | .decision k => do
    guardThrow ((k.isDecision && k.isArray) = true)
    s.M.rows.add (.kind k) []
  | .name x => do
    let a ← s.lookup x
    .ok (s.M.rows, a)
  | .unary op x => do
    let a ← s.lookup x
    s.M.rows.add (.kind (.unary op)) [a]
  | .binary op x y => do
    let a ← s.lookup x
    let b ← s.lookup y
    s.M.rows.add (.kind (.binary op)) [a, b]
  | .nary op x y z more => do
    let as ← (x :: y :: z :: more).mapM s.lookup
    s.M.rows.add (.kind (.nary op)) as
  | .power x n => do
    let a ← s.lookup x
    if n = 1 then .ok (s.M.rows, a)
    else if n = 2 then s.M.rows.add (.kind (.unary .square)) [a]
    else do
      guardThrow (3 ≤ n)
      guardThrow (extends_ .multiply (s.M.rows.row a).built = false)
      s.M.rows.add (.kind (.nary .multiply)) (List.replicate n.toNat a)
  | .reduce op x => do
    let a ← s.lookup x
    s.M.rows.add (.kind op.kind) [a]
  | .sumAxis x axis => do
    let a ← s.lookup x
    guardThrow (0 ≤ axis ∧ axis < (s.M.rows.row a).out.shape.length)
    s.M.rows.add (.kind (.partialSum axis.toNat 0)) [a]
  | .reshape x shape => do
    let a ← s.lookup x
    s.M.rows.add (.kind (.reshape shape)) [a]
  | .where_ c x y => do
    let b ← s.lookup c
    let a ← s.lookup x
    let a' ← s.lookup y
    s.M.rows.add (.kind .where_) [b, a, a']

/-- The symbols between the brackets. -/
def index (s : Code) : PyIndex → Res PyIndex
  | .symbol x => do
    let a ← s.lookup x
    .ok (.symbol a)
  | i => .ok i

/-- `[DisjointList(main, i) for i in range(n)]`, model.py 191-193 and 226-228, with the names they get. -/
def outputs (main : Nat) : Nat → List Nat → Script × (Nat → Option Nat) → Res (Script × (Nat → Option Nat))
  | _, [], r => .ok r
  | i, v :: vs, r => do
    let q ← r.1.add (.kind (.output i)) [main]
    outputs main (i + 1) vs (q.1, fun u => if u = v then some q.2 else r.2 u)

/-- `model.disjoint_lists` and `model.disjoint_bit_sets`. -/
def disjoint (s : Code) (k : Kind) (vs : List Nat) : Res Code := do
  let r ← s.M.rows.add (.kind k) []
  let q ← outputs r.2 0 vs (r.1, s.names)
  .ok ⟨{ s.M with rows := q.1 }, q.2, s.made ++ [r.2]⟩

/-- `v += x` and `v *= x` make a new symbol, _model.pyx 1188-1205, unless `v` is a sum (product), which is left out here as above. -/
def inplace (s : Code) (op : NaryOp) (v x : Nat) : Res Code := do
  let a ← s.lookup v
  let b ← s.lookup x
  guardThrow (extends_ op (s.M.rows.row a).built = false)
  let r ← s.M.rows.add (.kind (.nary op)) [a, b]
  .ok (s.bind v r)

/-- A statement. -/
def step (s : Code) : CodeStmt → Res Code
  | .assign v c => do
    let r ← s.call c
    .ok (s.bind v r)
  | .getitem v x idx => do
    let a ← s.lookup x
    let is ← idx.mapM s.index
    let r ← s.M.rows.getitem a is
    .ok (s.bind v r)
  | .size v x => do
    let a ← s.lookup x
    guardThrow (dynamicShape (s.M.rows.row a).out.shape = true)
    let r ← s.M.rows.add (.kind .size) [a]
    .ok (s.bind v r)
  | .disjointLists vs n => s.disjoint (.disjointLists n vs.length) vs
  | .disjointBitSets vs n => s.disjoint (.disjointBitSets n vs.length) vs
  | .iadd v x => s.inplace .add v x
  | .imul v x => s.inplace .multiply v x
  | .minimize v => do
    let a ← s.lookup v
    let M ← s.M.minimize a
    .ok { s with M := M, made := s.made ++ [a] }
  | .constraint v => do
    let a ← s.lookup v
    let M ← s.M.addConstraint a
    .ok { s with M := M, made := s.made ++ [a] }

/-- The statements one after the other. -/
def run (s : Code) : List CodeStmt → Res Code
  | [] => .ok s
  | p :: ps => do
    let s ← s.step p
    s.run ps

end Code

/-- What `where` needs to agree with NumPy, for all symbols (see `Kind.PlainWhere`). -/
def Script.PlainWhere (s : Script) : Prop :=
  ∀ i < s.length, ∀ k, (s.row i).built = .kind k → k.PlainWhere ((s.row i).ins.map Info.shapes)

end Verif
