import Verif.Spec.Values
import Verif.Model.Catalog
import Verif.Model.NodeBase

/-!
# Specification: what Python code with symbols means

Python code in which every operation is a statement of its own: `z = a * b + c` is `t = a * b` and `z = t + c`.  Names are numbers.

The meaning of the code is what it computes if the names stand for NumPy arrays and numbers are exact.  `x += y` means `x = x + y`.
-/

namespace Verif

/-! ## NumPy -/

/-- NumPy: "Two dimensions are compatible when they are equal, or one of them is 1", counted from the right. -/
def NumpyFits (a b : List Int) : Prop := ∀ i < max a.length b.length, dimR a i = dimR b i ∨ dimR a i = 1 ∨ dimR b i = 1

instance (a b : List Int) : Decidable (NumpyFits a b) := by unfold NumpyFits; infer_instance

/-- The shape of the result: each dimension is the one which is not 1, if there is one. -/
def broadcastDims (a b : List Int) : List Int :=
  ((List.range (max a.length b.length)).map fun i => if dimR a i = 1 then dimR b i else dimR a i).reverse

/-- The element of `x` which is used for the coordinates `idx` of the result: leading coordinates are ignored, and so are those
along dimensions of `x` that are 1. -/
def Arr.aligned (x : Arr Rat) (idx : List Int) : Rat :=
  x.data.getD (rowMajor x.shape
    (List.zipWith (fun d i => if d = 1 then 0 else i) x.shape (idx.drop (idx.length - x.shape.length)))).toNat 0

/-- Element by element, with broadcasting. -/
def numpyZip (op : Rat → Rat → Rat) (x y : Arr Rat) : Option (Arr Rat) :=
  if NumpyFits x.shape y.shape then
    some ⟨broadcastDims x.shape y.shape,
      (allCoords (broadcastDims x.shape y.shape)).map fun idx => op (x.aligned idx) (y.aligned idx)⟩
  else none

/-- `numpy.where`. -/
def numpyWhere (c x y : Arr Rat) : Option (Arr Rat) :=
  if NumpyFits x.shape y.shape ∧ NumpyFits c.shape (broadcastDims x.shape y.shape) then
    some ⟨broadcastDims c.shape (broadcastDims x.shape y.shape),
      (allCoords (broadcastDims c.shape (broadcastDims x.shape y.shape))).map fun idx =>
        if c.aligned idx ≠ 0 then x.aligned idx else y.aligned idx⟩
  else none

/-- `abs(x)`, `logical(x)`, `-x`, `logical_not(x)`, `x ** 2`, `sqrt(x)`, for one element. -/
def UnaryOp.numpy : UnaryOp → Rat → Rat
  | absolute => fun x => |x|
  | logical => fun x => if x = 0 then 0 else 1
  | negative => fun x => -x
  | not => fun x => if x = 0 then 1 else 0
  | square => fun x => x ^ 2
  | squareRoot root => root

/-- `x + y`, `logical_and(x, y)`, `x / y`, `x == y`, `x <= y`, `x * y`, `maximum(x, y)`, `minimum(x, y)`, `x % y`,
`logical_or(x, y)`, `x - y`, `logical_xor(x, y)`, for one element.  (The quotient and the remainder of a division by zero count as
zero.) -/
def BinaryOp.numpy : BinaryOp → Rat → Rat → Rat
  | add => fun x y => x + y
  | and => fun x y => if x ≠ 0 ∧ y ≠ 0 then 1 else 0
  | divide => fun x y => x / y
  | equal => fun x y => if x = y then 1 else 0
  | lessEqual => fun x y => if x ≤ y then 1 else 0
  | multiply => fun x y => x * y
  | maximum => fun x y => max x y
  | minimum => fun x y => min x y
  | modulus => fun x y => if y = 0 then 0 else x - ⌊x / y⌋ * y
  | or => fun x y => if x ≠ 0 ∨ y ≠ 0 then 1 else 0
  | subtract => fun x y => x - y
  | xor => fun x y => if (x ≠ 0) ≠ (y ≠ 0) then 1 else 0

/-- `add(…)`, `multiply(…)`, `maximum(…)`, `minimum(…)`, for two elements. -/
def NaryOp.numpy : NaryOp → Rat → Rat → Rat
  | add => fun x y => x + y
  | multiply => fun x y => x * y
  | maximum => fun x y => max x y
  | minimum => fun x y => min x y

/-- Methods that reduce an array to one number. -/
inductive PyReduce where
  | all | any | sum | prod | max | min
  deriving DecidableEq

/-- `numpy.all`, `any`, `sum`, `prod`, `max` and `min`; the last two raise an exception for empty arrays. -/
def PyReduce.numpy (op : PyReduce) (x : List Rat) : Option Rat :=
  match op with
  | all => some (if ∀ v ∈ x, v ≠ 0 then 1 else 0)
  | any => some (if ∃ v ∈ x, v ≠ 0 then 1 else 0)
  | sum => some x.sum
  | prod => some x.prod
  | max => if x = [] then none else some (foldValue Max.max none x)
  | min => if x = [] then none else some (foldValue Min.min none x)

/-- The array as NumPy sees it: the open dimension of an array of varying size is as long as the array is now. -/
def Arr.present (x : Arr Rat) : Arr Rat := ⟨x.shapeNow, x.data⟩

/-! ## Python code -/

/-- What can stand on the right of `=`. -/
inductive PyCall where
  /-- `model.constant(a)` -/
  | constant (a : Arr Rat)
  /-- `model.integer(…)`, `model.binary(…)`, `model.list(…)`, `model.set(…)` -/
  | decision (k : Kind)
  /-- another name for the same symbol -/
  | name (x : Nat)
  | unary (op : UnaryOp) (x : Nat)
  | binary (op : BinaryOp) (x y : Nat)
  /-- `add(x, y, z, …)` and so on, of three or more symbols -/
  | nary (op : NaryOp) (x y z : Nat) (more : List Nat)
  /-- `x ** n` -/
  | power (x : Nat) (n : Int)
  /-- `x.sum()` and so on -/
  | reduce (op : PyReduce) (x : Nat)
  /-- `x.sum(axis)` -/
  | sumAxis (x : Nat) (axis : Int)
  | reshape (x : Nat) (shape : List Int)
  | where_ (c x y : Nat)

/-- A statement. -/
inductive PyStmt where
  | assign (v : Nat) (c : PyCall)
  /-- `v += x` -/
  | iadd (v x : Nat)
  /-- `v *= x` -/
  | imul (v x : Nat)
  /-- `model.minimize(v)` -/
  | minimize (v : Nat)
  /-- `model.add_constraint(v)` -/
  | constraint (v : Nat)

/-! ## What the code means -/

/-- The arrays that the names stand for, the objective and the constraints. -/
structure NumPy where
  env : Nat → Option (Arr Rat)
  objective : Option (Arr Rat)
  constraints : List (Arr Rat)

/-- Nothing has been computed. -/
def NumPy.start : NumPy := ⟨fun _ => none, none, []⟩

/-- The value of a right-hand side; `none` stands for an exception.  `given` is the value of the decision, if it is one. -/
def PyCall.numpy (given : Arr Rat) (env : Nat → Option (Arr Rat)) : PyCall → Option (Arr Rat)
  | constant a => some a
  | decision _ => some given
  | name x => env x
  | unary op x => do
    let a ← env x
    some ⟨a.shape, a.data.map op.numpy⟩
  | binary op x y => do
    let a ← env x
    let b ← env y
    numpyZip op.numpy a b
  | nary op x y z more => do
    let a ← env x
    (y :: z :: more).foldlM (fun a y => do
      let b ← env y
      numpyZip op.numpy a b) a
  | power x n => do
    let a ← env x
    if 1 ≤ n then some ⟨a.shape, a.data.map (· ^ n.toNat)⟩ else none
  | reduce op x => do
    let a ← env x
    let v ← op.numpy a.data
    some ⟨[], [v]⟩
  | sumAxis x axis => do
    let a ← env x
    if 0 ≤ axis ∧ axis < a.shape.length then
      some ⟨a.shape.eraseIdx axis.toNat, partialSumValue a.shape axis.toNat 0 a.data⟩
    else none
  | reshape x shape => do
    let a ← env x
    if (∀ d ∈ shape, 0 ≤ d) ∧ shapeProd shape = shapeProd a.shape then some ⟨shape, a.data⟩ else none
  | where_ c x y => do
    let b ← env c
    let a ← env x
    let a' ← env y
    numpyWhere b a a'

/-- One statement. -/
def PyStmt.numpy (given : Arr Rat) (w : NumPy) : PyStmt → Option NumPy
  | assign v c => do
    let a ← c.numpy given w.env
    some { w with env := fun u => if u = v then some a else w.env u }
  | iadd v x => do
    let a ← (PyCall.binary .add v x).numpy given w.env
    some { w with env := fun u => if u = v then some a else w.env u }
  | imul v x => do
    let a ← (PyCall.binary .multiply v x).numpy given w.env
    some { w with env := fun u => if u = v then some a else w.env u }
  | minimize v => do
    let a ← w.env v
    some { w with objective := some a }
  | constraint v => do
    let a ← w.env v
    some { w with constraints := w.constraints ++ [a] }

/-- The statements one after the other, counted from `t`; the decision made by statement `t` has the value `given t`. -/
def numpyRun (given : Nat → Arr Rat) : Nat → NumPy → List PyStmt → Option NumPy
  | _, w, [] => some w
  | t, w, p :: ps => do
    let w ← p.numpy (given t) w
    numpyRun given (t + 1) w ps

/-! ## Code that does not change what has been used -/

/-- What is known about the names from reading the code: whether the symbol has not been used since it got the name (in another
operation, as objective or constraint, or under another name), and whether it may be a sum or product that is extended in place. -/
structure Names where
  fresh : Nat → Bool
  sum : Nat → Bool
  product : Nat → Bool

namespace Names

def start : Names := ⟨fun _ => false, fun _ => false, fun _ => false⟩

/-- The names are used. -/
def use (N : Names) (xs : List Nat) : Names := { N with fresh := fun v => N.fresh v && !decide (v ∈ xs) }

/-- The name `v` stands for something else. -/
def bind (N : Names) (v : Nat) (fresh sum product : Bool) : Names where
  fresh := fun u => if u = v then fresh else N.fresh u
  sum := fun u => if u = v then sum else N.sum u
  product := fun u => if u = v then product else N.product u

end Names

/-- The names in a right-hand side. -/
def PyCall.used : PyCall → List Nat
  | constant _ | decision _ => []
  | name x | unary _ x | power x _ | reduce _ x | sumAxis x _ | reshape x _ => [x]
  | binary _ x y => [x, y]
  | nary _ x y z more => x :: y :: z :: more
  | where_ c x y => [c, x, y]

/-- One statement; `none` if it may change something that has been used.  `x ** 1` is `x` itself; `x ** n` with `n ≥ 3` extends `x`
in place if `x` is a product. -/
def Names.step (N : Names) : PyStmt → Option Names
  | .assign v (.name x) => some ((N.use [x]).bind v false (N.sum x) (N.product x))
  | .assign v (.power x n) =>
    if n = 1 then some ((N.use [x]).bind v false (N.sum x) (N.product x))
    else if 3 ≤ n ∧ N.product x = true then none
    else some ((N.use [x]).bind v true false (decide (3 ≤ n)))
  | .assign v (.nary op x y z more) =>
    some ((N.use (x :: y :: z :: more)).bind v true (decide (op = .add)) (decide (op = .multiply)))
  | .assign v c => some ((N.use c.used).bind v true false false)
  | .iadd v x =>
    if N.sum v then (if N.fresh v = true ∧ v ≠ x then some (N.use [x]) else none)
    else some ((N.use [v, x]).bind v true true false)
  | .imul v x =>
    if N.product v then (if N.fresh v = true ∧ v ≠ x then some (N.use [x]) else none)
    else some ((N.use [v, x]).bind v true false true)
  | .minimize v => some (N.use [v])
  | .constraint v => some (N.use [v])

/-- The code never extends a sum or product in place that has been used. -/
def Careful (ps : List PyStmt) : Prop := ∃ N, ps.foldlM Names.step Names.start = some N

end Verif
