import Verif.Spec.Range
import Verif.Model.Catalog

/-!
# Models of `min()`, `max()` and `integral()`
(/repo/dwave/optimization/src/nodes/mathematical.cpp, flow.cpp, constants.cpp, array.hpp)
-/

namespace Verif

/-- `Array::min` and `Array::max`, array.hpp 784-785. -/
def Range.default : Range := ⟨-dblMax, dblMax⟩

/-! ## Unary symbols -/

/-- The check of the constructor, mathematical.cpp 1714-1718. -/
def UnaryOp.accepts (op : UnaryOp) (r : Range) : Prop :=
  match op with
  | squareRoot _ => ¬ r.lo < 0
  | _ => True

/-- `UnaryOpNode::max`, mathematical.cpp 1777-1824.  `|max| >= sqrt(M)` is `M <= max * max`. -/
def UnaryOp.max (op : UnaryOp) (r : Range) : Res Rat :=
  match op with
  | absolute => do
    guardUB (r.lo ≤ r.hi)
    if 0 ≤ r.lo ∧ 0 ≤ r.hi then .ok r.hi
    else if 0 ≤ r.hi then .ok (Max.max r.hi (-r.lo))
    else .ok (-r.lo)
  | negative => .ok (-r.lo)
  | square => if dblMax ≤ r.hi * r.hi then .ok dblMax else .ok (r.hi * r.hi)
  | squareRoot root => do
    guardUB (0 ≤ r.hi)
    .ok (root r.hi)
  | logical => .ok 1
  | not => .ok 1

/-- `UnaryOpNode::min`, mathematical.cpp 1826-1871. -/
def UnaryOp.min (op : UnaryOp) (r : Range) : Res Rat :=
  match op with
  | absolute => do
    guardUB (r.lo ≤ r.hi)
    if 0 ≤ r.lo ∧ 0 ≤ r.hi then .ok r.lo
    else if 0 ≤ r.hi then .ok 0
    else .ok (-r.hi)
  | negative => .ok (-r.hi)
  | square => if dblMax ≤ r.lo * r.lo then .ok dblMax else .ok (r.lo * r.lo)
  | squareRoot root => do
    guardUB (0 ≤ r.lo)
    .ok (root r.lo)
  | logical => .ok 0
  | not => .ok 0

/-- `UnaryOpNode::integral`, mathematical.cpp 1754-1775. -/
def UnaryOp.integral (op : UnaryOp) (x : Bool) : Bool :=
  match op with
  | absolute => x
  | negative => x
  | square => x
  | squareRoot _ => false
  | logical => true
  | not => true

/-! ## Binary symbols -/

/-- The check of the constructor, mathematical.cpp 44-50. -/
def BinaryOp.accepts (op : BinaryOp) (r : Range) : Prop :=
  match op with
  | divide => (r.lo < 0 ∧ r.hi < 0) ∨ (0 < r.lo ∧ 0 < r.hi)
  | _ => True

/-- `std::max({a, b, c, d})`. -/
def max4 (a b c d : Rat) : Rat := Max.max (Max.max (Max.max a b) c) d

/-- `std::min({a, b, c, d})`. -/
def min4 (a b c d : Rat) : Rat := Min.min (Min.min (Min.min a b) c) d

/-- `BinaryOpNode::max`, mathematical.cpp 150-204. -/
def BinaryOp.max (op : BinaryOp) (l r : Range) : Res Rat :=
  match op with
  | divide => do
    guardUB (l.lo ≠ 0)
    guardUB (l.hi ≠ 0)
    guardUB (r.lo ≠ 0)
    guardUB (r.hi ≠ 0)
    .ok (max4 (l.lo / r.lo) (l.lo / r.hi) (l.hi / r.lo) (l.hi / r.hi))
  | maximum => .ok (BinaryOp.maximum.func l.hi r.hi)
  | minimum => .ok (BinaryOp.minimum.func l.hi r.hi)
  | add => .ok (l.hi + r.hi)
  | subtract => .ok (l.hi - r.lo)
  | modulus => .ok (if -r.lo > r.hi then -r.lo else r.hi)
  | multiply => .ok (max4 (l.lo * r.lo) (l.lo * r.hi) (l.hi * r.lo) (l.hi * r.hi))
  | and | or | xor | equal | lessEqual => .ok 1

/-- `BinaryOpNode::min`, mathematical.cpp 206-257. -/
def BinaryOp.min (op : BinaryOp) (l r : Range) : Res Rat :=
  match op with
  | divide => .ok (min4 (l.lo / r.lo) (l.lo / r.hi) (l.hi / r.lo) (l.hi / r.hi))
  | maximum => .ok (BinaryOp.maximum.func l.lo r.lo)
  | minimum => .ok (BinaryOp.minimum.func l.lo r.lo)
  | add => .ok (l.lo + r.lo)
  | subtract => .ok (l.lo - r.hi)
  | modulus => .ok (if -r.hi < r.lo then -r.hi else r.lo)
  | multiply => .ok (min4 (l.lo * r.lo) (l.lo * r.hi) (l.hi * r.lo) (l.hi * r.hi))
  | and | or | xor | equal | lessEqual => .ok 0

/-- `BinaryOpNode::integral`, mathematical.cpp 121-148. -/
def BinaryOp.integral (op : BinaryOp) (x y : Bool) : Bool :=
  match op with
  | divide => false
  | maximum | minimum | subtract | modulus | multiply | add => x && y
  | and | or | xor | equal | lessEqual => true

/-! ## N-ary symbols -/

/-- The function of an n-ary symbol. -/
def NaryOp.func : NaryOp → Rat → Rat → Rat
  | add => (· + ·)
  | multiply => (· * ·)
  | maximum => Max.max
  | minimum => Min.min

/-- The loop of mathematical.cpp 576-592 and 627-643. -/
def productRange (l r : Range) : Range :=
  ⟨min4 (l.lo * r.lo) (l.lo * r.hi) (l.hi * r.lo) (l.hi * r.hi),
    max4 (l.lo * r.lo) (l.lo * r.hi) (l.hi * r.lo) (l.hi * r.hi)⟩

/-- `NaryOpNode::max`, mathematical.cpp 549-598. -/
def NaryOp.max (op : NaryOp) (rs : List Range) : Res Rat :=
  match op, rs with
  | add, rs => .ok (rs.foldl (fun lhs r => lhs + r.hi) 0)
  | maximum, r :: rs => .ok (rs.foldl (fun lhs r => Max.max lhs r.hi) r.hi)
  | minimum, r :: rs => .ok (rs.foldl (fun lhs r => Min.min lhs r.hi) r.hi)
  | multiply, r :: rs => .ok (rs.foldl productRange r).hi
  | _, [] => .ub

/-- `NaryOpNode::min`, mathematical.cpp 600-649. -/
def NaryOp.min (op : NaryOp) (rs : List Range) : Res Rat :=
  match op, rs with
  | add, rs => .ok (rs.foldl (fun lhs r => lhs + r.lo) 0)
  | maximum, r :: rs => .ok (rs.foldl (fun lhs r => Max.max lhs r.lo) r.lo)
  | minimum, r :: rs => .ok (rs.foldl (fun lhs r => Min.min lhs r.lo) r.lo)
  | multiply, r :: rs => .ok (rs.foldl productRange r).lo
  | _, [] => .ub

/-- `NaryOpNode::integral`, mathematical.cpp 531-546. -/
def NaryOp.integral (_ : NaryOp) (xs : List Bool) : Bool := xs.all id

/-! ## Reductions -/

/-- What a reduction knows about the size of its operand: a fixed size, or the bounds found by
`sizeinfo().substitute(100)`. -/
inductive SizeKnown where
  | fixed (n : Nat)
  | dynamic (min max : Option Int)
  deriving DecidableEq, Repr

/-- The actual size agrees with what is known. -/
def SizeKnown.Has : SizeKnown → Nat → Prop
  | fixed n, k => k = n
  | dynamic lo hi, k => (∀ m ∈ lo, m ≤ (k : Int)) ∧ ∀ m ∈ hi, (k : Int) ≤ m

/-- `ReduceNode::max`, mathematical.cpp 1300-1385 (all, any, sum, product). -/
def ReduceOp.max (op : ReduceOp) (init : Rat) (size : SizeKnown) (r : Range) : Rat :=
  match op, size with
  | all, _ => 1
  | any, _ => 1
  | prod, .dynamic _ _ => dblMax
  | prod, .fixed 0 => init
  | prod, .fixed 1 => Max.max (init * r.lo) (init * r.hi)
  | prod, .fixed (n + 2) => max4 (init * r.lo ^ (n + 2)) (init * r.hi ^ (n + 2))
      (init * r.lo * r.hi ^ (n + 1)) (init * r.hi * r.lo ^ (n + 1))
  | sum, .fixed n => if r.hi = 0 then init else init + n * r.hi
  | sum, .dynamic lo hi =>
    if r.hi = 0 then init
    else if r.hi > 0 then (match hi with
      | none => dblMax
      | some m => init + m * r.hi)
    else init + (lo.getD 0) * r.hi

/-- `ReduceNode::min`, mathematical.cpp 1387-1472 (all, any, sum, product). -/
def ReduceOp.min (op : ReduceOp) (init : Rat) (size : SizeKnown) (r : Range) : Rat :=
  match op, size with
  | all, _ => 0
  | any, _ => 0
  | prod, .dynamic _ _ => -dblMax
  | prod, .fixed 0 => init
  | prod, .fixed 1 => Min.min (init * r.lo) (init * r.hi)
  | prod, .fixed (n + 2) => min4 (init * r.lo ^ (n + 2)) (init * r.hi ^ (n + 2))
      (init * r.lo * r.hi ^ (n + 1)) (init * r.hi * r.lo ^ (n + 1))
  | sum, .fixed n => if r.lo = 0 then init else init + n * r.lo
  | sum, .dynamic lo hi =>
    if r.lo = 0 then init
    else if r.lo < 0 then (match hi with
      | none => -dblMax
      | some m => init + m * r.lo)
    else init + (lo.getD 0) * r.lo

/-- `is_integer`, utils.cpp 80-83. -/
def isInteger (x : Rat) : Bool := decide (x = truncate x)

/-- `ReduceNode::integral`, mathematical.cpp 1279-1297. -/
def ReduceOp.integral (op : ReduceOp) (init : Rat) (x : Bool) : Bool :=
  match op with
  | all | any => true
  | sum | prod => x && isInteger init

/-- `ReduceNode::max`, mathematical.cpp 1310-1317 (maximum, minimum). -/
def FoldOp.rangeMax (op : FoldOp) (init : Option Rat) (r : Range) : Rat :=
  match op, init with
  | max, some i => Max.max i r.hi
  | min, some i => Min.min i r.hi
  | _, none => r.hi

/-- `ReduceNode::min`, mathematical.cpp 1397-1404 (maximum, minimum). -/
def FoldOp.rangeMin (op : FoldOp) (init : Option Rat) (r : Range) : Rat :=
  match op, init with
  | max, some i => Max.max i r.lo
  | min, some i => Min.min i r.lo
  | _, none => r.lo

/-- `ReduceNode::integral`, mathematical.cpp 1279-1297. -/
def FoldOp.integral (init : Option Rat) (x : Bool) : Bool := x && isInteger (init.getD 0)

/-- `PartialReduceNode::max`, mathematical.cpp 946-961. -/
def partialSumMax (init : Rat) (dim : Int) (r : Range) : Rat := init + dim * r.hi

/-- `PartialReduceNode::min`, mathematical.cpp 963-978. -/
def partialSumMin (init : Rat) (dim : Int) (r : Range) : Rat := init + dim * r.lo

/-- `PartialReduceNode::integral`, mathematical.cpp 894-910. -/
def partialSumIntegral (init : Rat) (x : Bool) : Bool := x && isInteger init

/-! ## Where -/

/-- `WhereNode::max`, flow.cpp 178. -/
def whereMax (x y : Range) : Rat := Max.max x.hi y.hi

/-- `WhereNode::min`, flow.cpp 180. -/
def whereMin (x y : Range) : Rat := Min.min x.lo y.lo

/-- `WhereNode::integral`, flow.cpp 176. -/
def whereIntegral (x y : Bool) : Bool := x && y

end Verif
