import Verif.Model.Operations
import Verif.Model.NodeBase
import Verif.Spec.Values
import Mathlib.Data.Rat.Defs
import Mathlib.Algebra.Order.Ring.Rat

/-!
# Model of `ReduceNode` (/repo/dwave/optimization/src/nodes/mathematical.cpp 1075-1699)

Elements are rationals (every finite double is one); arithmetic is exact.  `std::reduce` may combine in
any order; the operations it is used with here are associative and commutative in exact arithmetic, so
it is modelled by a fold from the left.
-/

namespace Verif

/-- `ReduceNodeData`, mathematical.cpp 1136-1157: the update `values` (index 0, old, value) and the
op-specific `extra` with its saved copy (mathematical.cpp 1077-1134). -/
structure ReduceState (E : Type) where
  old : Rat
  value : Rat
  extra : E
  oldExtra : E

namespace ReduceState

variable {E : Type}

/-- The constructors, mathematical.cpp 1138-1140, 1086, 1099, 1112. -/
def mk' (value : Rat) (extra : E) : ReduceState E := ⟨value, value, extra, extra⟩

/-- mathematical.cpp 1144-1147 (and the `commit`s of the extra data). -/
def commit (s : ReduceState E) : ReduceState E := { s with old := s.value, oldExtra := s.extra }

/-- mathematical.cpp 1148-1151. -/
def revert (s : ReduceState E) : ReduceState E := { s with value := s.old, extra := s.oldExtra }

/-- `ReduceNode::diff`, mathematical.cpp 1203-1207: one update if the value differs. -/
def diff (s : ReduceState E) : List (Update Rat) :=
  if s.old ≠ s.value then [Update.change 0 s.old s.value] else []

end ReduceState

/-- A `ReduceNode` (a scalar): `init` gives the initial value and extra data, `propagate` the new ones
from the present ones, the operand's value and its diff. -/
@[reducible] def reduceNode (E : Type) (f : List Rat → Rat) (ok : Arr Rat → Prop)
    (init : List Rat → Res (Rat × E))
    (propagate : Rat × E → List Rat → List (Update Rat) → Res (Rat × E)) :
    NodeSem (Arr Rat) (List (Update Rat)) where
  σ := ReduceState E
  f := fun xs => ⟨[], [f (xs.headD ⟨[], []⟩).data]⟩
  ok := fun xs => ∃ x, xs = [x] ∧ ok x
  init := fun xs =>
    match xs with
    | [x] => do
      let (v, e) ← init x.data
      .ok (ReduceState.mk' v e)
    | _ => .ub
  propagate := fun s ins =>
    match ins with
    | [(x, d)] => do
      let (v, e) ← propagate (s.value, s.extra) x.data d
      .ok { s with value := v, extra := e }
    | _ => .ub
  commit := fun s => .ok s.commit
  revert := fun s => .ok s.revert
  view := fun s => ⟨[], [s.value]⟩
  diff := fun s => s.diff

/-! ## Reductions -/

/-- `ReduceNode::reduce`, mathematical.cpp 1672-1694. -/
def reduceFold (op : Rat → Rat → Rat) (init : Option Rat) (xs : List Rat) : Res Rat :=
  match init, xs with
  | some i, xs => .ok (xs.foldl op i)
  | none, x :: xs => .ok (xs.foldl op x)
  | none, [] => .ub

/-- A double used as a number of an update: `!value`. -/
def isZero (x : Rat) : Bool := decide (x = 0)

/-- `x += b` for a bool `b`. -/
def boolCount (b : Bool) : Int := if b then 1 else 0

/-! ### Logical and -/

/-- mathematical.cpp 1219-1232. -/
def allInit (init : Rat) (xs : List Rat) : Res (Rat × Int) :=
  .ok (ofBool (decide ((if init ≠ 0 then 0 else 1) + (xs.map fun x => boolCount (isZero x)).sum = 0)),
    (if init ≠ 0 then 0 else 1) + (xs.map fun x => boolCount (isZero x)).sum)

/-- The loop body, mathematical.cpp 1482-1499. -/
def allStep (n : Int) (u : Update Rat) : Res Int :=
  match u.old, u.value with
  | none, some v => .ok (n + boolCount (isZero v))
  | some o, none => .ok (n - boolCount (isZero o))
  | some o, some v =>
    if o = 0 ∧ v ≠ 0 then .ok (n - 1)
    else if o ≠ 0 ∧ v = 0 then .ok (n + 1)
    else do
      guardUB (decide (o ≠ 0) = decide (v ≠ 0))
      .ok n
  | none, none => .ub

/-- mathematical.cpp 1474-1506. -/
def allPropagate (s : Rat × Int) (_ : List Rat) (d : List (Update Rat)) : Res (Rat × Int) := do
  let n ← d.foldlM allStep s.2
  guardUB (n ≥ 0)
  .ok (ofBool (decide (n < 1)), n)

/-- `AllNode`. -/
@[reducible] def allNode (init : Rat) : NodeSem (Arr Rat) (List (Update Rat)) :=
  reduceNode Int (allValue init) (fun _ => True) (allInit init) allPropagate

/-! ### Logical or -/

/-- mathematical.cpp 1234-1247. -/
def anyInit (init : Rat) (xs : List Rat) : Res (Rat × Int) :=
  .ok (ofBool (decide ((if init ≠ 0 then 1 else 0) + (xs.map fun x => boolCount (!isZero x)).sum > 0)),
    (if init ≠ 0 then 1 else 0) + (xs.map fun x => boolCount (!isZero x)).sum)

/-- The loop body, mathematical.cpp 1516-1533. -/
def anyStep (n : Int) (u : Update Rat) : Res Int :=
  match u.old, u.value with
  | none, some v => .ok (n + boolCount (!isZero v))
  | some o, none => .ok (n - boolCount (!isZero o))
  | some o, some v =>
    if o = 0 ∧ v ≠ 0 then .ok (n + 1)
    else if o ≠ 0 ∧ v = 0 then .ok (n - 1)
    else do
      guardUB (decide (o ≠ 0) = decide (v ≠ 0))
      .ok n
  | none, none => .ub

/-- mathematical.cpp 1508-1540. -/
def anyPropagate (s : Rat × Int) (_ : List Rat) (d : List (Update Rat)) : Res (Rat × Int) := do
  let n ← d.foldlM anyStep s.2
  guardUB (n ≥ 0)
  .ok (ofBool (decide (n > 0)), n)

/-- `AnyNode`. -/
@[reducible] def anyNode (init : Rat) : NodeSem (Arr Rat) (List (Update Rat)) :=
  reduceNode Int (anyValue init) (fun _ => True) (anyInit init) anyPropagate

/-! ### Maximum and minimum -/

/-- The loop of `ReduceNode<max>::propagate`, mathematical.cpp 1549-1566; `none` is `reinitialize`
followed by `break`. -/
def maxLoop (value : Rat) : List (Update Rat) → Res (Option Rat)
  | [] => .ok (some value)
  | u :: d =>
    match u.old, u.value with
    | some o, none => if o ≥ value then .ok none else maxLoop value d
    | none, some v => maxLoop (max v value) d
    | some o, some v =>
      if v > o then maxLoop (max v value) d
      else if o = value ∧ o ≠ v then do
        guardUB (v < o)
        .ok none
      else maxLoop value d
    | none, none => .ub

/-- mathematical.cpp 1542-1573. -/
def maxPropagate (init : Option Rat) (s : Rat × Unit) (xs : List Rat) (d : List (Update Rat)) :
    Res (Rat × Unit) := do
  match ← maxLoop s.1 d with
  | some v => .ok (v, ())
  | none => do
    let v ← reduceFold max init xs
    .ok (v, ())

/-- The loop of `ReduceNode<min>::propagate`, mathematical.cpp 1582-1599. -/
def minLoop (value : Rat) : List (Update Rat) → Res (Option Rat)
  | [] => .ok (some value)
  | u :: d =>
    match u.old, u.value with
    | some o, none => if o ≤ value then .ok none else minLoop value d
    | none, some v => minLoop (min v value) d
    | some o, some v =>
      if v < o then minLoop (min v value) d
      else if o = value ∧ o ≠ v then do
        guardUB (v > o)
        .ok none
      else minLoop value d
    | none, none => .ub

/-- mathematical.cpp 1575-1606. -/
def minPropagate (init : Option Rat) (s : Rat × Unit) (xs : List Rat) (d : List (Update Rat)) :
    Res (Rat × Unit) := do
  match ← minLoop s.1 d with
  | some v => .ok (v, ())
  | none => do
    let v ← reduceFold min init xs
    .ok (v, ())

/-- `ReduceNode::initialize_state` without extra data, mathematical.cpp 1209-1217. -/
def plainInit (op : Rat → Rat → Rat) (init : Option Rat) (xs : List Rat) : Res (Rat × Unit) := do
  let v ← reduceFold op init xs
  .ok (v, ())

/-- The constructor without initial value, mathematical.cpp 1177-1191: the array must have a fixed size
of at least one. -/
def reduceOperand (init : Option Rat) (x : Arr Rat) : Prop :=
  x.WF ∧ (init = none → x.dynamic = false ∧ 1 ≤ x.shape.prod)

/-- `MaxNode`. -/
@[reducible] def maxNode (init : Option Rat) : NodeSem (Arr Rat) (List (Update Rat)) :=
  reduceNode Unit (foldValue max init) (reduceOperand init) (plainInit max init) (maxPropagate init)

/-- `MinNode`. -/
@[reducible] def minNode (init : Option Rat) : NodeSem (Arr Rat) (List (Update Rat)) :=
  reduceNode Unit (foldValue min init) (reduceOperand init) (plainInit min init) (minPropagate init)

/-! ### Product -/

/-- The loop of mathematical.cpp 1264-1270; the state is `(nonzero, num_zero)`. -/
def prodCount (s : Rat × Int) (x : Rat) : Rat × Int :=
  if x = 0 then (s.1, s.2 + 1) else (s.1 * x, s.2)

/-- mathematical.cpp 1249-1277. -/
def prodInit (init : Rat) (xs : List Rat) : Res (Rat × (Rat × Int)) :=
  .ok (if (xs.foldl prodCount (init, 0)).2 > 0 then 0 else (xs.foldl prodCount (init, 0)).1,
    xs.foldl prodCount (init, 0))

/-- The loop body, mathematical.cpp 1619-1644.  Division by a non-zero number only. -/
def prodStep (s : Rat × Int) (u : Update Rat) : Res (Rat × Int) :=
  match u.old, u.value with
  | none, some v => if v = 0 then .ok (s.1, s.2 + 1) else .ok (s.1 * v, s.2)
  | some o, none => if o = 0 then .ok (s.1, s.2 - 1) else .ok (s.1 / o, s.2)
  | some o, some v =>
    if o = 0 ∧ v = 0 then .ok s
    else if o = 0 then .ok (s.1 * v, s.2 - 1)
    else if v = 0 then .ok (s.1 / o, s.2 + 1)
    else .ok (s.1 * (v / o), s.2)
  | none, none => .ub

/-- mathematical.cpp 1608-1649. -/
def prodPropagate (s : Rat × (Rat × Int)) (_ : List Rat) (d : List (Update Rat)) :
    Res (Rat × (Rat × Int)) := do
  guardUB (s.2.2 = 0 ∨ s.1 = 0)
  let e ← d.foldlM prodStep s.2
  .ok (if e.2 > 0 then 0 else e.1, e)

/-- `ProdNode`. -/
@[reducible] def prodNode (init : Rat) : NodeSem (Arr Rat) (List (Update Rat)) :=
  reduceNode (Rat × Int) (fun xs => init * xs.prod) (fun _ => True) (prodInit init) prodPropagate

/-! ### Sum -/

/-- The loop body, mathematical.cpp 1660-1666. -/
def sumStep (value : Rat) (u : Update Rat) : Res Rat :=
  match u.old, u.value with
  | none, some v => .ok (value + v)
  | some o, none => .ok (value - o)
  | some o, some v => .ok (value + (v - o))
  | none, none => .ub

/-- mathematical.cpp 1651-1670. -/
def sumPropagate (s : Rat × Unit) (_ : List Rat) (d : List (Update Rat)) : Res (Rat × Unit) := do
  let v ← d.foldlM sumStep s.1
  .ok (v, ())

/-- `SumNode`. -/
@[reducible] def sumNode (init : Rat) : NodeSem (Arr Rat) (List (Update Rat)) :=
  reduceNode Unit (fun xs => init + xs.sum) (fun _ => True) (plainInit (· + ·) (some init)) sumPropagate

end Verif
