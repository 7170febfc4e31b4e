import Verif.Model.Expressions
import Verif.Spec.Comparisons

/-!
# Model of comparisons, truth values and conversions to integers
(/repo/dwave/optimization/_model.pyx 1131-1143, 1206-1211, 1231-1249, /repo/dwave/optimization/symbols.pyx 887-891, 906-952)

Python calls the method of the left operand, then the reflected method of the right one, and then compares by identity
(`do_richcompare` in CPython).  No class of array symbols is derived from another one, so the right operand never goes first.

Cython makes a `!=` from `ArraySymbol.__eq__`: it takes the truth value of the result and negates it.  There are no `__lt__`, `__gt__`
and `__ge__`.

Operands are array symbols of one model and Python's numbers.
-/

namespace Verif

/-- An operand: the array symbol at an address, or a number. -/
inductive PyObj where
  | symbol (a : Nat)
  | number (q : Rat)
  deriving DecidableEq

/-- What a comparison gives: a symbol, a NumPy array, or `True` or `False`. -/
inductive Compared where
  | symbol (a : Nat)
  | array (x : Arr Rat)
  | bool (b : Bool)

/-- The reflected operator. -/
def Comparison.swap : Comparison → Comparison
  | lt => gt
  | le => ge
  | eq => eq
  | ne => ne
  | gt => lt
  | ge => le

namespace Draft

/-- `bool(x)`: array symbols have none (`ArraySymbol.__bool__`, _model.pyx 1131-1134), except `Constant`s that are scalars
(symbols.pyx 887-891, `_is_scalar` 949-952). -/
def truth (d : Draft) (a : Nat) : Res Bool :=
  match d.S.kind a with
  | .constant A => do
    guardThrow (A.data.length = 1 ∧ A.shape.length = 0)
    .ok (decide (A.data.headD 0 ≠ 0))
  | _ => .throw

/-- `x.__index__()`: only `Constant`s have one (symbols.pyx 906-912, `_is_integer` 940-947).  The conversion of a double that is out
of the range of `Py_ssize_t` is undefined. -/
def index (d : Draft) (a : Nat) : Res Int :=
  match d.S.kind a with
  | .constant A => do
    guardThrow (A.data.length = 1 ∧ A.shape.length = 0)
    guardThrow ((A.data.headD 0).den = 1)
    guardUB (IsSS (A.data.headD 0).num)
    .ok (A.data.headD 0).num
  | _ => .throw

/-- `ArraySymbol.__eq__`, `__le__` (_model.pyx 1136-1143, 1206-1211) and the `!=` made by Cython; `none` is `NotImplemented`. -/
def arraySlot (decl : Symbols → Graph → Nat → Claim) (d : Draft) (t : Nat) (op : Comparison) (a : Nat) (rhs : PyObj) :
    Draft × Res (Option Compared) :=
  match op, rhs with
  | .eq, .symbol b =>
    match d.perform decl (.construct t (.binary .equal) [a, b]) with
    | (d, .ok _) => (d, .ok (some (.symbol t)))
    | (d, .throw) => (d, .throw)
    | (d, .ub) => (d, .ub)
  | .le, .symbol b =>
    match d.perform decl (.construct t (.binary .lessEqual) [a, b]) with
    | (d, .ok _) => (d, .ok (some (.symbol t)))
    | (d, .throw) => (d, .throw)
    | (d, .ub) => (d, .ub)
  | .ne, .symbol b =>
    match d.perform decl (.construct t (.binary .equal) [a, b]) with
    | (d, .ok _) =>
      match d.truth t with
      | .ok b => (d, .ok (some (.bool !b)))
      | .throw => (d, .throw)
      | .ub => (d, .ub)
    | (d, .throw) => (d, .throw)
    | (d, .ub) => (d, .ub)
  | _, _ => (d, .ok none)

/-- The method of an operand: `Constant.__richcmp__` (symbols.pyx 914-938) leaves numbers to NumPy and everything else to
`ArraySymbol`; numbers know only numbers. -/
def slot (decl : Symbols → Graph → Nat → Claim) (d : Draft) (t : Nat) (op : Comparison) : PyObj → PyObj → Draft × Res (Option Compared)
  | .symbol a, rhs =>
    match d.S.kind a, rhs with
    | .constant A, .number q =>
      match numpyZip op.numpy A (scalarArr q) with
      | some r => (d, .ok (some (.array r)))
      | none => (d, .throw)
    | _, rhs => d.arraySlot decl t op a rhs
  | .number p, .number q => (d, .ok (some (.bool (decide (op.numpy p q = 1)))))
  | .number _, .symbol _ => (d, .ok none)

/-- `v op w`, as `do_richcompare` does it.  A new symbol gets the address `t`. -/
def compare (decl : Symbols → Graph → Nat → Claim) (d : Draft) (t : Nat) (op : Comparison) (v w : PyObj) : Draft × Res Compared :=
  match d.slot decl t op v w with
  | (d, .ok (some r)) => (d, .ok r)
  | (d, .throw) => (d, .throw)
  | (d, .ub) => (d, .ub)
  | (d, .ok none) =>
    match d.slot decl t op.swap w v with
    | (d, .ok (some r)) => (d, .ok r)
    | (d, .throw) => (d, .throw)
    | (d, .ub) => (d, .ub)
    | (d, .ok none) =>
      match op with
      | .eq => (d, .ok (.bool (decide (v = w))))
      | .ne => (d, .ok (.bool (decide (v ≠ w))))
      | _ => (d, .throw)

/-- `x op y op' z` is `x op y and y op' z`: the second comparison is made if the first one is true.  The second one makes its symbol at
the address `t + 1`. -/
def chained (decl : Symbols → Graph → Nat → Claim) (d : Draft) (t : Nat) (op op' : Comparison) (x y z : Nat) : Draft × Res Compared :=
  match d.compare decl t op (.symbol x) (.symbol y) with
  | (d, .ok (.symbol a)) =>
    match d.truth a with
    | .ok true => d.compare decl (t + 1) op' (.symbol y) (.symbol z)
    | .ok false => (d, .ok (.symbol a))
    | .throw => (d, .throw)
    | .ub => (d, .ub)
  | (d, .ok r) => (d, .ok r)
  | (d, .throw) => (d, .throw)
  | (d, .ub) => (d, .ub)

/-- `x ** e`, where `e` is a symbol: it must have an `__index__` (_model.pyx 1231-1236). -/
def powSymbol (decl : Symbols → Graph → Nat → Claim) (d : Draft) (x e t : Nat) : Draft × Res Nat :=
  match d.index e with
  | .ok n => d.pow decl x t n
  | .throw => (d, .throw)
  | .ub => (d, .ub)

end Draft

namespace Py

/-- A statement.  Names stand for symbols, so a comparison that gives something else ends the code here. -/
def compareStep (decl : Symbols → Graph → Nat → Claim) (s : Py) (t : Nat) : CompareStmt → Res Py
  | .plain p => s.step decl t p
  | .compare v op x y => do
    let a ← s.lookup x
    let b ← s.lookup y
    match s.d.compare decl t op (.symbol a) (.symbol b) with
    | (d, .ok (.symbol c)) => .ok (s.bind v (d, c))
    | (_, .ub) => .ub
    | _ => .throw

/-- The statements one after the other, counted from `t`. -/
def compareRun (decl : Symbols → Graph → Nat → Claim) : Nat → Py → List CompareStmt → Res Py
  | _, s, [] => .ok s
  | t, s, p :: ps => do
    let s ← s.compareStep decl t p
    compareRun decl (t + 1) s ps

/-- The whole code, then `model.lock()`. -/
def compareProgram (decl : Symbols → Graph → Nat → Claim) (ps : List CompareStmt) : Res Py := do
  let s ← compareRun decl 0 start ps
  s.tell decl .lock

end Py

end Verif
