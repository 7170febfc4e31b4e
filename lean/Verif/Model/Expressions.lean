import Verif.Model.Power
import Verif.Spec.Expressions

/-!
# Model of the operators, functions and methods that make symbols
(/repo/dwave/optimization/_model.pyx 1120-1280, 1311-1356, 1521-1538, /repo/dwave/optimization/mathematical.py,
/repo/dwave/optimization/symbols.pyx)

An exception ends the code.  The symbol that statement number `t` makes, if any, is at the address `t`.
-/

namespace Verif

/-- The model and the symbols that the names stand for. -/
structure Py where
  d : Draft
  names : Nat → Option Nat

namespace Py

/-- An empty model. -/
def start : Py := ⟨.new, fun _ => none⟩

/-- The symbol that a name stands for; otherwise `NameError`. -/
def lookup (s : Py) (x : Nat) : Res Nat :=
  match s.names x with
  | some a => .ok a
  | none => .throw

/-- An exception ends the code. -/
def ended : Draft × Res Nat → Res (Draft × Nat)
  | (d, .ok a) => .ok (d, a)
  | (_, .throw) => .throw
  | (_, .ub) => .ub

/-- A call of a symbol's constructor. -/
def new (decl : Symbols → Graph → Nat → Claim) (s : Py) (t : Nat) (k : Kind) (ops : List Nat) : Res (Draft × Nat) :=
  ended (Draft.andThen (s.d.perform decl (.construct t k ops)) t)

end Py

/-- `All`, `Any`, `Sum`, `Prod`, `Max`, `Min` without initial value: mathematical.cpp 1279-1650 with the defaults of
mathematical.hpp. -/
def PyReduce.kind : PyReduce → Kind
  | all => .reduce .all 1
  | any => .reduce .any 0
  | sum => .reduce .sum 0
  | prod => .reduce .prod 1
  | max => .fold .max none
  | min => .fold .min none

/-- The right-hand sides.
* Operators: _model.pyx 1120-1263.  Methods: `all` to `prod` 1265-1329, `reshape` 1331-1356, `sum` 1521-1538.
* Functions of mathematical.py: `add`, `maximum`, `minimum` and `multiply` make a binary symbol of two operands and an n-ary one of
  more (`_op`, 60-75); the others call one constructor each. -/
def PyCall.eval (decl : Symbols → Graph → Nat → Claim) (s : Py) (t : Nat) : PyCall → Res (Draft × Nat)
  | constant a => s.new decl t (.constant a) []
  | decision k => do
    guardThrow ((k.isDecision && k.isArray) = true)
    s.new decl t k []
  | name x => do
    let a ← s.lookup x
    .ok (s.d, a)
  | unary op x => do
    let a ← s.lookup x
    s.new decl t (.unary op) [a]
  | binary op x y => do
    let a ← s.lookup x
    let b ← s.lookup y
    s.new decl t (.binary op) [a, b]
  | nary op x y z more => do
    let as ← (x :: y :: z :: more).mapM s.lookup
    s.new decl t (.nary op) as
  | power x n => do
    let a ← s.lookup x
    Py.ended (s.d.pow decl a t n)
  | reduce op x => do
    let a ← s.lookup x
    s.new decl t op.kind [a]
  | sumAxis x axis => do
    let a ← s.lookup x
    guardThrow (0 ≤ axis ∧ axis < (Kind.shape1 (s.d.S.shapes a)).length)
    s.new decl t (.partialSum axis.toNat 0) [a]
  | reshape x shape => do
    let a ← s.lookup x
    s.new decl t (.reshape shape) [a]
  | where_ c x y => do
    let b ← s.lookup c
    let a ← s.lookup x
    let a' ← s.lookup y
    s.new decl t .where_ [b, a, a']

/-- `out += x`: `NaryAdd.__iadd__` (symbols.pyx 2162-2167) adds an operand in place, all other array symbols make a new `NaryAdd`
(_model.pyx 1188-1195), here at the address `a`. -/
def Draft.iadd (decl : Symbols → Graph → Nat → Claim) (d : Draft) (out x a : Nat) : Draft × Res Nat :=
  match d.S.kind out with
  | .nary .add => andThen (d.perform decl (.addOperand out x)) out
  | _ => andThen (d.perform decl (.construct a (.nary .add) [out, x])) a

namespace Py

/-- The name `v` stands for the symbol `a`. -/
def bind (s : Py) (v : Nat) (r : Draft × Nat) : Py := ⟨r.1, fun u => if u = v then some r.2 else s.names u⟩

/-- The objective or a constraint: `minimize`, `add_constraint`, _model.pyx 57-93, 434-463. -/
def tell (decl : Symbols → Graph → Nat → Claim) (s : Py) (op : BuildOp) : Res Py :=
  match s.d.perform decl op with
  | (d, .ok _) => .ok { s with d := d }
  | (_, .throw) => .throw
  | (_, .ub) => .ub

/-- A statement. -/
def step (decl : Symbols → Graph → Nat → Claim) (s : Py) (t : Nat) : PyStmt → Res Py
  | .assign v c => do
    let r ← c.eval decl s t
    .ok (s.bind v r)
  | .iadd v x => do
    let a ← s.lookup v
    let b ← s.lookup x
    let r ← ended (s.d.iadd decl a b t)
    .ok (s.bind v r)
  | .imul v x => do
    let a ← s.lookup v
    let b ← s.lookup x
    let r ← ended (s.d.imul decl a b t)
    .ok (s.bind v r)
  | .minimize v => do
    let a ← s.lookup v
    s.tell decl (.minimize a)
  | .constraint v => do
    let a ← s.lookup v
    s.tell decl (.constraint a)

/-- The statements one after the other, counted from `t`. -/
def run (decl : Symbols → Graph → Nat → Claim) : Nat → Py → List PyStmt → Res Py
  | _, s, [] => .ok s
  | t, s, p :: ps => do
    let s ← s.step decl t p
    run decl (t + 1) s ps

/-- The whole code, then `model.lock()`. -/
def program (decl : Symbols → Graph → Nat → Claim) (ps : List PyStmt) : Res Py := do
  let s ← run decl 0 start ps
  s.tell decl .lock

end Py

/-- What `where` needs to agree with NumPy: arrays of fixed size, and no one-element condition with more dimensions than they have
(see `C62_where_fails`). -/
def Kind.PlainWhere (k : Kind) (ps : List (List (List Int))) : Prop :=
  match k with
  | .where_ => dynamicShape (shape1 (ps.getD 1 [])) = false ∧
      (sizeOne (shape1 (ps.getD 0 [])) = true → (shape1 (ps.getD 0 [])).length ≤ (shape1 (ps.getD 1 [])).length)
  | _ => True

/-- So for all symbols of a model. -/
def Draft.PlainWhere (d : Draft) : Prop := ∀ v ∈ d.m.g.nodes, (d.S.kind v).PlainWhere (d.S.inShapes d.m.g v)

end Verif
