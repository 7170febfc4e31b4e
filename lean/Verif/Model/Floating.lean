import Verif.Model.Nodes.Reduce
import Verif.Model.Nodes.Nary
import Verif.Model.Nodes.PartialReduce
import Verif.Model.Nodes.Quadratic

/-!
# Model of the symbols that accumulate, in the arithmetic of doubles

The other files of the model calculate exactly.  Here every arithmetic operation of the code is followed by a rounding `fl`, which
turns the exact result into the double that the machine returns; `fl` is a parameter.  Symbols that calculate their elements anew
from their operands' elements (`BinaryOpNode`, `UnaryOpNode`, `WhereNode`, ...) are modelled elsewhere with the operation as a
parameter; these here continue from numbers that they calculated earlier.  Infinities, NaN as a value, the sign of zero,
and the contraction of a product and a sum to one operation are not modelled.
-/

namespace Verif

/-- What `std::reduce` may return (called in mathematical.cpp 1693 and 1049): the numbers combined pairwise, in any order and with any
grouping. -/
inductive Combines (op : Rat → Rat → Rat) : List Rat → Rat → Prop
  | one (x : Rat) : Combines op [x] x
  | join {xs ys zs : List Rat} {a b : Rat} : (ys ++ zs).Perm xs → Combines op ys a → Combines op zs b → Combines op xs (op a b)

section

variable (fl : Rat → Rat)

/-- `a + b` -/
def flAdd (a b : Rat) : Rat := fl (a + b)
/-- `a - b` -/
def flSub (a b : Rat) : Rat := fl (a - b)
/-- `a * b` -/
def flMul (a b : Rat) : Rat := fl (a * b)
/-- `a / b` -/
def flDiv (a b : Rat) : Rat := fl (a / b)

/-! ## Sum -/

/-- The loop body, mathematical.cpp 1660-1666. -/
def flSumStep (value : Rat) (u : Update Rat) : Res Rat :=
  match u.old, u.value with
  | none, some v => .ok (flAdd fl value v)
  | some o, none => .ok (flSub fl value o)
  | some o, some v => .ok (flAdd fl value (flSub fl v o))
  | none, none => .ub

/-- mathematical.cpp 1651-1670. -/
def flSumPropagate (s : Rat × Unit) (_ : List Rat) (d : List (Update Rat)) : Res (Rat × Unit) := do
  let v ← d.foldlM (flSumStep fl) s.1
  .ok (v, ())

/-- `SumNode`; `red` is what `std::reduce` returns for the initial value and the elements. -/
@[reducible] def flSumNode (red : List Rat → Rat) (init : Rat) : NodeSem (Arr Rat) (List (Update Rat)) :=
  reduceNode Unit (fun xs => init + xs.sum) (fun _ => True) (fun xs => .ok (red (init :: xs), ())) (flSumPropagate fl)

/-! ## Product -/

/-- The loop of mathematical.cpp 1264-1270. -/
def flProdCount (s : Rat × Int) (x : Rat) : Rat × Int :=
  if x = 0 then (s.1, s.2 + 1) else (flMul fl s.1 x, s.2)

/-- mathematical.cpp 1249-1277. -/
def flProdInit (init : Rat) (xs : List Rat) : Res (Rat × (Rat × Int)) :=
  .ok (if (xs.foldl (flProdCount fl) (init, 0)).2 > 0 then 0 else (xs.foldl (flProdCount fl) (init, 0)).1,
    xs.foldl (flProdCount fl) (init, 0))

/-- The loop body, mathematical.cpp 1619-1644. -/
def flProdStep (s : Rat × Int) (u : Update Rat) : Res (Rat × Int) :=
  match u.old, u.value with
  | none, some v => if v = 0 then .ok (s.1, s.2 + 1) else .ok (flMul fl s.1 v, s.2)
  | some o, none => if o = 0 then .ok (s.1, s.2 - 1) else .ok (flDiv fl s.1 o, s.2)
  | some o, some v =>
    if o = 0 ∧ v = 0 then .ok s
    else if o = 0 then .ok (flMul fl s.1 v, s.2 - 1)
    else if v = 0 then .ok (flDiv fl s.1 o, s.2 + 1)
    else .ok (flMul fl s.1 (flDiv fl v o), s.2)
  | none, none => .ub

/-- mathematical.cpp 1608-1649. -/
def flProdPropagate (s : Rat × (Rat × Int)) (_ : List Rat) (d : List (Update Rat)) :
    Res (Rat × (Rat × Int)) := do
  guardUB (s.2.2 = 0 ∨ s.1 = 0)
  let e ← d.foldlM (flProdStep fl) s.2
  .ok (if e.2 > 0 then 0 else e.1, e)

/-- `ProdNode`. -/
@[reducible] def flProdNode (init : Rat) : NodeSem (Arr Rat) (List (Update Rat)) :=
  reduceNode (Rat × Int) (fun xs => init * xs.prod) (fun _ => True) (flProdInit fl init) (flProdPropagate fl)

/-! ## Partial sum -/

/-- `PartialReduceNode::reduce`, mathematical.cpp 997-1050. -/
def flPartialReduce (red : List Rat → Rat) (shape : List Int) (axis : Nat) (init : Rat) (x : Arr Rat) (index : Nat) : Res Rat := do
  let indices ← unravelIndex (shapeToStrides (shape.eraseIdx axis)) index
  let start ← ravelMultiIndex ((shapeToStrides shape).eraseIdx axis) indices
  let elems ← (List.range ((shape.getD axis 0).toNat)).mapM fun (j : Nat) =>
    x.read (start + (shapeToStrides shape).getD axis 0 / 8 * j).toNat
  .ok (red (init :: elems))

/-- `initialize_state`, mathematical.cpp 877-892. -/
def flPartialSumInit (red : List Rat → Rat) (shape : List Int) (axis : Nat) (init : Rat) (xs : List (Arr Rat)) : Res (List Rat) :=
  match xs with
  | [x] => (List.range (shape.eraseIdx axis).prod.toNat).mapM (flPartialReduce red shape axis init x)
  | _ => .ub

/-- The loop body of `propagate`, mathematical.cpp 988-991. -/
def flPartialSumStep (shape : List Int) (axis : Nat) (size : Nat) (s : ArrayState Rat) (u : Update Rat) :
    Res (ArrayState Rat) := do
  let index ← mapParentIndex shape axis size u.index
  match s.buffer[index.toNat]?, u.old, u.value with
  | some previous, some o, some v => s.write index.toNat (flAdd fl previous (flSub fl v o))
  | _, _, _ => .ub

/-- `propagate`, mathematical.cpp 980-995. -/
def flPartialSumPropagate (shape : List Int) (axis : Nat) (s : ArrayState Rat)
    (ins : List (Arr Rat × List (Update Rat))) : Res (ArrayState Rat) :=
  match ins with
  | [(x, d)] => d.foldlM (flPartialSumStep fl shape axis x.data.length) s
  | _ => .ub

/-- `PartialSumNode`. -/
@[reducible] def flPartialSumNode (red : List Rat → Rat) (shape : List Int) (axis : Nat) (init : Rat) :
    NodeSem (Arr Rat) (List (Update Rat)) :=
  arrayNode (shape.eraseIdx axis)
    (fun xs => partialSumValue shape axis init (xs.headD ⟨[], []⟩).data)
    (fun xs => ∃ x, xs = [x] ∧ x.shape = shape ∧ x.WF)
    (flPartialSumInit red shape axis init) (flPartialSumPropagate fl shape axis)

/-! ## Sums and products of several arrays -/

/-- `InverseOp<std::plus>`, mathematical.cpp 452-456. -/
def flPlusInv (x y : Rat) : Option Rat := some (flSub fl x y)
/-- `InverseOp<std::multiplies>`, mathematical.cpp 466-470; dividing by zero gives NaN or infinity. -/
def flTimesInv (x y : Rat) : Option Rat := if y = 0 then none else some (flDiv fl x y)

/-! ## Quadratic models -/

/-- `double_kahan`, include/dwave-optimization/utils.hpp 41-75. -/
structure Kahan where
  value : Rat
  compensator : Rat
  deriving DecidableEq

/-- utils.hpp 46-52. -/
def Kahan.add (k : Kahan) (other : Rat) : Kahan :=
  { value := flAdd fl k.value (flSub fl other k.compensator)
    compensator := flSub fl (flSub fl (flAdd fl k.value (flSub fl other k.compensator)) k.value) (flSub fl other k.compensator) }

end

/-- What is added up: `state[neighbors[j]] * biases[j]`, a product of doubles. -/
def flInteract (fl : Rat → Rat) (state : List Rat) (p : Nat × Rat) : Res Rat :=
  match state[p.1]? with
  | some x => .ok (flMul fl x p.2)
  | none => .ub

/-- `get_effective_linear_bias`, quadratic_model.cpp 224-235; `ext` rounds to `long double`. -/
def flEffective (fl ext : Rat → Rat) (q : QModel) (u : Nat) (state : List Rat) : Res Rat := do
  guardUB (state.length = q.n)
  match q.linear[u]?, q.adj[u]? with
  | some l, some N => do
    let terms ← (N.neighbors.zip N.biases).mapM (flInteract fl state)
    .ok (fl (terms.foldl (flAdd ext) l))
  | _, _ => .ub

/-- One turn of `compute_value`, quadratic_model.cpp 241-250; `value` and `bias` are `long double`s. -/
def flValueStep (fl ext : Rat → Rat) (q : QModel) (state : List Rat) (value : Rat) (i : Nat) : Res Rat :=
  match state[i]?, q.linear[i]?, q.square[i]?, q.adj[i]? with
  | some x, some l, some s, some N =>
    if x = 0 then .ok value
    else do
      let terms ← ((N.neighbors.zip N.biases).take N.smaller).mapM (flInteract fl state)
      .ok (flAdd ext value (flMul ext x (terms.foldl (flAdd ext) (flAdd fl l (flMul fl s x)))))
  | _, _, _, _ => .ub

/-- `compute_value`, quadratic_model.cpp 237-254. -/
def flComputeValue (fl ext : Rat → Rat) (q : QModel) (state : List Rat) : Res Rat := do
  guardUB (state.length = q.n)
  let value ← (List.range q.n).foldlM (flValueStep fl ext q state) 0
  .ok (fl value)

/-- `QuadraticModelNodeData`, quadratic_model.cpp 26-68. -/
structure FlQState where
  valueOld : Kahan
  value : Kahan
  previous : List Rat
  changes : List (Nat × Rat)
  deriving DecidableEq

namespace FlQState

/-- quadratic_model.cpp 35-45; only the values are compared (utils.hpp 62-64). -/
def diff (s : FlQState) : List (Update Rat) :=
  if s.valueOld.value ≠ s.value.value then [Update.change 0 s.valueOld.value s.value.value] else []

/-- quadratic_model.cpp 47-50. -/
def commit (s : FlQState) : FlQState := { s with valueOld := s.value, changes := [] }

/-- quadratic_model.cpp 51-57. -/
def revert (s : FlQState) : FlQState :=
  { s with value := s.valueOld, previous := s.changes.foldl QState.undo s.previous, changes := [] }

end FlQState

/-- The loop body of `propagate`, quadratic_model.cpp 317-331. -/
def flQuadraticStep (fl ext : Rat → Rat) (q : QModel) (current : List Rat) (s : FlQState) (u : Update Rat) : Res FlQState :=
  match current[u.index]?, s.previous[u.index]? with
  | some neo, some old =>
    if neo ≠ old then do
      let sq ← q.getQuadratic u.index u.index
      let lin ← flEffective fl ext q u.index s.previous
      .ok { s with
        changes := s.changes ++ [(u.index, old)]
        value := s.value.add fl (flMul fl (flSub fl neo old) (flAdd fl (flMul fl sq (flAdd fl neo old)) lin))
        previous := s.previous.set u.index neo }
    else .ok s
  | _, _ => .ub

/-- `QuadraticModelNode`, quadratic_model.cpp 265-355. -/
@[reducible] def flQuadraticNode (fl ext : Rat → Rat) (q : QModel) (f : List Rat → Rat) : NodeSem (Arr Rat) (List (Update Rat)) where
  σ := FlQState
  f := fun xs => ⟨[], [f (xs.headD ⟨[], []⟩).data]⟩
  ok := fun xs => ∃ x : Arr Rat, xs = [x] ∧ quadraticShape q x.shape = .ok [] ∧ x.WF
  init := fun xs =>
    match xs with
    | [x] => do
      let v ← flComputeValue fl ext q x.data
      .ok ⟨⟨v, 0⟩, ⟨v, 0⟩, x.data, []⟩
    | _ => .ub
  propagate := fun s ins =>
    match ins with
    | [(x, d)] => if d = [] then .ok s else d.foldlM (flQuadraticStep fl ext q x.data) s
    | _ => .ub
  commit := fun s => .ok s.commit
  revert := fun s => .ok s.revert
  view := fun s => ⟨[], [s.value.value]⟩
  diff := fun s => s.diff

end Verif
