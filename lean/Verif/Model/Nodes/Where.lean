import Verif.Model.NodeBase
import Verif.Spec.Values
import Mathlib.Data.List.Sort
import Mathlib.Data.List.Dedup
import Mathlib.Data.Rat.Defs
import Mathlib.Algebra.Order.Ring.Rat

/-!
# Model of `WhereNode` (/repo/dwave/optimization/src/nodes/flow.cpp)
-/

namespace Verif

/-- The constructor's checks, flow.cpp 27-43 and 108-129; `size() != 1` is `!sizeOne`. -/
def whereShape (c x y : List Int) : Res (List Int) := do
  guardThrow (x = y)
  if sizeOne c then .ok x
  else do
    guardThrow (c = x)
    guardThrow (dynamicShape c = false)
    .ok x

/-- One element: `(*cit) ? *xit : *yit`. -/
def wherePick (c x y : Arr Rat) (i : Nat) : Res Rat := do
  if (← c.read i) ≠ 0 then x.read i else y.read i

/-- `initialize_state`, flow.cpp 141-173. -/
def whereInit (cshape : List Int) (xs : List (Arr Rat)) : Res (List Rat) :=
  match xs with
  | [c, x, y] =>
    if sizeOne cshape then do
      if (← c.front) ≠ 0 then .ok x.data else .ok y.data
    else (List.range c.data.length).mapM (wherePick c x y)
  | _ => .ub

/-- The loop body of `_flipped`, flow.cpp 186-187. -/
def flippedStep (flip : Bool) (u : Update Rat) : Res Bool :=
  match u.old, u.value with
  | some o, some v => do
    guardUB (u.index = 0)
    if decide (o ≠ 0) ≠ decide (v ≠ 0) then .ok (!flip) else .ok flip
  | _, _ => .ub

/-- The loop body of `apply_diffs`, flow.cpp 88-106. -/
def whereStep (c x y : Arr Rat) (s : ArrayState Rat) (i : Nat) : Res (ArrayState Rat) := do
  let v ← wherePick c x y i
  s.set i v

/-- The indices of one operand's diff, with the assertion of flow.cpp 62-65 (68-71, 72-75). -/
def whereIndices (d : List (Update Rat)) : Res (List Nat) := do
  guardUB (∀ u ∈ d, u.isChange = true)
  .ok (d.map Update.index)

/-- `propagate`, flow.cpp 191-225, and `apply_diffs`, flow.cpp 53-105.  On a sorted list
`std::unique` keeps one of each. -/
def wherePropagate (cshape : List Int) (s : ArrayState Rat)
    (ins : List (Arr Rat × List (Update Rat))) : Res (ArrayState Rat) :=
  match ins with
  | [(c, dc), (x, dx), (y, dy)] =>
    if sizeOne cshape then do
      let flipped ← dc.foldlM flippedStep false
      let v ← c.front
      if flipped then
        if v ≠ 0 then .ok (s.assign x.data) else .ok (s.assign y.data)
      else
        if v ≠ 0 then s.update dx else s.update dy
    else do
      let ic ← whereIndices dc
      let ix ← whereIndices dx
      let iy ← whereIndices dy
      ((ic ++ ix ++ iy).insertionSort (· ≤ ·)).dedup.foldlM (whereStep c x y) s
  | _ => .ub

/-- `WhereNode` for a condition of shape `cshape` and arrays of shape `shape`. -/
@[reducible] def whereNode (cshape shape : List Int) : NodeSem (Arr Rat) (List (Update Rat)) :=
  arrayNode shape (whereValue cshape)
    (fun xs => xs.map Arr.shape = [cshape, shape, shape] ∧ ∀ x ∈ xs, x.WF)
    (whereInit cshape) (wherePropagate cshape)

end Verif
