import Verif.Model.ArrayState
import Verif.Spec.Arr

/-!
# Array symbols that keep their values in an `ArrayNodeStateData`

Many nodes of /repo/dwave/optimization/src/nodes share this pattern: `buff`, `diff`, `commit` and
`revert` are those of their `ArrayNodeStateData`, e.g. mathematical.cpp 56-69, 1722-1735, 1895-1898.
-/

namespace Verif

variable {α : Type} [DecidableEq α] [Inhabited α]

/-- A node with static output shape `shape` whose state is an `ArrayNodeStateData`.  `init` gives the
vector passed to its constructor and `propagate` works on the state. -/
@[reducible] def arrayNode (shape : List Int) (f : List (Arr α) → List α) (ok : List (Arr α) → Prop)
    (init : List (Arr α) → Res (List α))
    (propagate : ArrayState α → List (Arr α × List (Update α)) → Res (ArrayState α)) :
    NodeSem (Arr α) (List (Update α)) where
  σ := ArrayState α
  f := fun xs => ⟨shape, f xs⟩
  ok := ok
  init := fun xs => do
    let values ← init xs
    .ok (ArrayState.mk' values)
  propagate := propagate
  commit := fun s => .ok s.commit
  revert := fun s => .ok s.revert
  view := fun s => ⟨shape, s.buffer⟩
  diff := fun s => s.updates

end Verif

namespace Verif

namespace Arr

variable {α : Type}

/-- `Array::shape(state)`: the static shape, with the first dimension of a dynamic array filled in,
e.g. `ArrayNode`s that are dynamic return `{size / (product of the rest), rest}`. -/
def shapeNow (a : Arr α) : List Int :=
  if a.dynamic then (a.data.length : Int) / rowSize a.shape :: a.shape.drop 1 else a.shape

end Arr

namespace ArrayState

variable {α : Type}

/-- An overwrite that is recorded even if the value stays the same:
`old = values[index]; values[index] = v; changes.emplace_back(index, old, values[index])`,
e.g. mathematical.cpp 298-300. -/
def write (s : ArrayState α) (i : Nat) (v : α) : Res (ArrayState α) :=
  match s.buffer[i]? with
  | none => .ub
  | some old => .ok { s with
      buffer := s.buffer.set i v
      updates := s.updates ++ [Update.change i old v] }

end ArrayState

/-- Read an element of an operand; outside it is undefined. -/
def Arr.read {α : Type} (a : Arr α) (i : Nat) : Res α :=
  match a.data[i]? with
  | some v => .ok v
  | none => .ub

/-- Read the first element of an operand's view. -/
def Arr.front {α : Type} (a : Arr α) : Res α := a.read 0

/-- The `value` of an update used as a number. -/
def Update.newValue {α : Type} (u : Update α) : Res α :=
  match u.value with
  | some v => .ok v
  | none => .ub

/-- `if (!update.removed()) update.value = func(update.value); return update;`, e.g.
mathematical.cpp 325-329. -/
def Update.mapValue {α : Type} (func : α → α) (u : Update α) : Update α :=
  { u with value := u.value.map func }

end Verif
