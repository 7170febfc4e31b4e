import Verif.Spec.Diff
import Verif.Spec.History
import Verif.Spec.Res

/-!
# Model of `ArrayNodeStateData` and `ScalarNodeStateData`
(/repo/dwave/optimization/src/nodes/_state.hpp)

Elements are an arbitrary type `α`; `default : α` stands for whatever is in a cell that was
value-initialised by `vector::resize` or overwritten with the "nothing" NaN.
-/

namespace Verif

/-- `ArrayNodeStateData` members (_state.hpp 184-190). -/
structure ArrayState (α : Type _) where
  buffer : List α
  updates : List (Update α)
  prevSize : Nat
  deriving DecidableEq, Repr

/-- `std::vector::resize(n)`: truncates, or appends value-initialised elements. -/
def resizeVec {α : Type _} [Inhabited α] (l : List α) (n : Nat) : List α :=
  l.take n ++ List.replicate (n - l.length) default

namespace ArrayState

variable {α : Type _}

/-- Constructor, _state.hpp 34-35. -/
def mk' (values : List α) : ArrayState α := ⟨values, [], values.length⟩

section
variable [DecidableEq α]

/-- First loop of `assign`, _state.hpp 46-53: updates for differing overlapping cells, starting
at `index`. -/
def assignOverlap : Nat → List α → List α → List (Update α)
  | i, b :: bs, v :: vs =>
    if b = v then assignOverlap (i + 1) bs vs
    else Update.change i b v :: assignOverlap (i + 1) bs vs
  | _, _, _ => []

/-- Second loop of `assign`, _state.hpp 57-59: removals of the excess cells `bs` (which start at
position `i`), walking backwards. -/
def removals : Nat → List α → List (Update α)
  | _, [] => []
  | i, b :: bs => removals (i + 1) bs ++ [Update.removal i b]

/-- Third loop of `assign`, _state.hpp 67-71: placements of the excess values, the first of them
at position `i`. -/
def placements : Nat → List α → List (Update α)
  | _, [] => []
  | i, v :: vs => Update.placement i v :: placements (i + 1) vs

/-- `assign`, _state.hpp 39-75. -/
def assign (s : ArrayState α) (values : List α) : ArrayState α :=
  let overlap := min s.buffer.length values.length
  { s with
    buffer := values.take overlap ++ values.drop overlap
    updates := s.updates ++ assignOverlap 0 s.buffer values
      ++ removals overlap (s.buffer.drop overlap)
      ++ placements overlap (values.drop overlap) }

/-- `commit`, _state.hpp 80-83. -/
def commit (s : ArrayState α) : ArrayState α := ⟨s.buffer, [], s.buffer.length⟩

/-- `emplace_back`, _state.hpp 93-97. -/
def emplaceBack (s : ArrayState α) (v : α) : ArrayState α :=
  { s with
    updates := s.updates ++ [Update.placement s.buffer.length v]
    buffer := s.buffer ++ [v] }

/-- `exchange`, _state.hpp 101-113. -/
def exchange (s : ArrayState α) (i j : Nat) : Res (ArrayState α) :=
  match s.buffer[i]?, s.buffer[j]? with
  | some a, some b =>
    if i = j then .ok s
    else if a = b then .ok s
    else
      -- after the swap buffer[i] = b and buffer[j] = a
      .ok { s with
        buffer := (s.buffer.set i b).set j a
        updates := s.updates ++ [Update.change i a b] ++ [Update.change j b a] }
  | _, _ => .ub

/-- `get`, _state.hpp 116-119. -/
def get (s : ArrayState α) (i : Nat) : Res α :=
  match s.buffer[i]? with
  | some a => .ok a
  | none => .ub

/-- `pop_back`, _state.hpp 123-128. -/
def popBack (s : ArrayState α) : Res (ArrayState α) :=
  match s.buffer.getLast? with
  | none => .ub
  | some v =>
    .ok { s with
      updates := s.updates ++ [Update.removal (s.buffer.length - 1) v]
      buffer := s.buffer.dropLast }

/-- One iteration of the loop of `revert`, _state.hpp 134-138. -/
def revertStep [Inhabited α] (size : Nat) (b : List α) (u : Update α) : List α :=
  if size ≤ u.index then b else b.set u.index (u.old.getD default)

/-- `revert`, _state.hpp 130-140. -/
def revert [Inhabited α] (s : ArrayState α) : ArrayState α :=
  let b := resizeVec s.buffer s.prevSize
  { s with
    buffer := s.updates.reverse.foldl (revertStep b.length) b
    updates := [] }

/-- `set`, _state.hpp 143-153. -/
def set (s : ArrayState α) (i : Nat) (v : α) : Res (ArrayState α) :=
  match s.buffer[i]? with
  | none => .ub
  | some old =>
    if old = v then .ok s
    else .ok { s with
      buffer := s.buffer.set i v
      updates := s.updates ++ [Update.change i old v] }

/-- `size_diff`, _state.hpp 155-157. -/
def sizeDiff (s : ArrayState α) : Int := (s.buffer.length : Int) - s.prevSize

/-- One iteration of `update`, _state.hpp 163-178.  The `old` of the incoming update is ignored. -/
def update1 (s : ArrayState α) (u : Update α) : Res (ArrayState α) :=
  match u.value with
  | none =>
    match s.buffer[u.index]? with
    | none => .ub
    | some cur =>
      if u.index + 1 = s.buffer.length then
        .ok { s with
          updates := s.updates ++ [Update.removal u.index cur]
          buffer := s.buffer.dropLast }
      else .ub
  | some v =>
    if u.placed then
      if u.index = s.buffer.length then
        .ok { s with
          updates := s.updates ++ [Update.placement u.index v]
          buffer := s.buffer ++ [v] }
      else .ub
    else
      match s.buffer[u.index]? with
      | none => .ub
      | some cur =>
        .ok { s with
          updates := s.updates ++ [Update.change u.index cur v]
          buffer := s.buffer.set u.index v }

/-- `update`, _state.hpp 162-181. -/
def update (s : ArrayState α) (us : List (Update α)) : Res (ArrayState α) :=
  us.foldlM update1 s

end

/-- Dispatch of an operation. -/
def run1 [DecidableEq α] [Inhabited α] (s : ArrayState α) : ArrayOp α → Res (ArrayState α)
  | .assign vs => .ok (s.assign vs)
  | .emplaceBack v => .ok (s.emplaceBack v)
  | .exchange i j => s.exchange i j
  | .popBack => s.popBack
  | .set i v => s.set i v
  | .update us => s.update us
  | .commit => .ok s.commit
  | .revert => .ok s.revert

/-- A history of operations. -/
def run [DecidableEq α] [Inhabited α] (s : ArrayState α) (ops : List (ArrayOp α)) :
    Res (ArrayState α) := ops.foldlM run1 s

end ArrayState

/-- `ScalarNodeStateData` (_state.hpp 193-206): one update at index 0 which always holds the
committed value in `old` and the current one in `value`. -/
structure ScalarState (α : Type _) where
  old : α
  value : α
  deriving DecidableEq, Repr

namespace ScalarState
variable {α : Type _}
/-- _state.hpp 195. -/
def mk' (v : α) : ScalarState α := ⟨v, v⟩
/-- _state.hpp 198. -/
def commit (s : ScalarState α) : ScalarState α := { s with old := s.value }
/-- _state.hpp 199-201: a span of length `old != value`. -/
def diff [DecidableEq α] (s : ScalarState α) : List (Update α) :=
  if s.old = s.value then [] else [Update.change 0 s.old s.value]
/-- _state.hpp 202. -/
def revert (s : ScalarState α) : ScalarState α := { s with value := s.old }
/-- _state.hpp 203. -/
def set (s : ScalarState α) (v : α) : ScalarState α := { s with value := v }
/-- The array seen by successors (one element), _state.hpp 197. -/
def view (s : ScalarState α) : List α := [s.value]
end ScalarState

end Verif
