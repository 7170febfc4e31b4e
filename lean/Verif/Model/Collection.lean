import Verif.Spec.Res
import Verif.Spec.Collection

/-!
# Model of `CollectionStateData` and `CollectionNode`, `ListNode`, `SetNode`
(/repo/dwave/optimization/src/nodes/collections.cpp 22-223, 748-794 and
include/dwave-optimization/nodes/collections.hpp 29-105, 289-319)
-/

namespace Verif

/-- `CollectionStateData` members, collections.cpp 117-121. -/
structure CollState (α : Type _) where
  elements : List α
  previous : List (Update α)
  allUpdates : List (Update α)
  size : Nat
  previousSize : Nat
  deriving DecidableEq, Repr

namespace CollState

variable {α : Type _}

/-- Constructor from elements and size, collections.cpp 35-36, 121. -/
def mk' (elements : List α) (size : Nat) : CollState α := ⟨elements, [], [], size, size⟩

/-- `commit`, collections.cpp 38-42. -/
def commit (s : CollState α) : CollState α :=
  { s with previous := [], allUpdates := [], previousSize := s.size }

/-- `exchange`, collections.cpp 44-62.  After the swap `elements[i] = b`, `elements[j] = a`. -/
def exchange (s : CollState α) (i j : Nat) : Res (CollState α) :=
  match s.elements[i]?, s.elements[j]? with
  | some a, some b =>
    .ok { s with
      elements := (s.elements.set i b).set j a
      allUpdates := s.allUpdates ++ [Update.change i a b] ++ [Update.change j b a]
      previous :=
        if i < s.size ∧ j < s.size then
          s.previous ++ [Update.change i a b] ++ [Update.change j b a]
        else if j < s.size then s.previous ++ [Update.change j b a]
        else if i < s.size then s.previous ++ [Update.change i a b]
        else s.previous }
  | _, _ => .ub

/-- Body of the loops of `rotate`, collections.cpp 73-75 and 80-82: the pair is the state and the
local variable `prev`. -/
def rotateStep (p : CollState α × α) (i : Nat) : Res (CollState α × α) :=
  match p.1.elements[i]? with
  | none => .ub
  | some e =>
    .ok ({ p.1 with
      elements := p.1.elements.set i p.2
      allUpdates := p.1.allUpdates ++ [Update.change i e p.2]
      previous := p.1.previous ++ [Update.change i e p.2] }, e)

/-- `rotate`, collections.cpp 64-85. -/
def rotate (s : CollState α) (dest src : Nat) : Res (CollState α) :=
  if src < s.size ∧ dest < s.size then
    match s.elements[src]? with
    | none => .ub
    | some prev =>
      if dest < src then do
        let p ← (List.range' dest (src - dest + 1)).foldlM rotateStep (s, prev)
        pure p.1
      else if src < dest then do
        let p ← (List.range' src (dest - src + 1)).reverse.foldlM rotateStep (s, prev)
        pure p.1
      else .ok s
  else .ub

/-- `grow`, collections.cpp 87-91. -/
def grow (s : CollState α) : Res (CollState α) :=
  match s.elements[s.size]? with
  | none => .ub
  | some e =>
    .ok { s with previous := s.previous ++ [Update.placement s.size e], size := s.size + 1 }

/-- `revert`, collections.cpp 93-105. -/
def revert (s : CollState α) [Inhabited α] : CollState α :=
  { s with
    elements := s.allUpdates.reverse.foldl (fun l u => l.set u.index (u.old.getD default)) s.elements
    previous := []
    allUpdates := []
    size := s.previousSize }

/-- `shrink`, collections.cpp 107-111. -/
def shrink (s : CollState α) : Res (CollState α) :=
  if s.size = 0 then .ub
  else
    match s.elements[s.size - 1]? with
    | none => .ub
    | some e =>
      .ok { s with
        size := s.size - 1
        previous := s.previous ++ [Update.removal (s.size - 1) e] }

end CollState

/-- `CollectionNode` members, collections.hpp 100-104. -/
structure CollNode where
  maxValue : Nat
  minSize : Nat
  maxSize : Nat
  deriving DecidableEq, Repr

namespace CollNode

/-- `CollectionNode` constructor, collections.hpp 83-97 (negative arguments are rejected there and
are not representable afterwards). -/
def make (maxValue minSize maxSize : Int) : Res CollNode := do
  guardThrow (¬ (minSize < 0 ∨ maxSize < 0))
  guardThrow (¬ minSize > maxSize)
  guardThrow (¬ maxSize > maxValue)
  pure ⟨maxValue.toNat, minSize.toNat, maxSize.toNat⟩

/-- `dynamic()`: the shape is `DYNAMIC_SIZE` unless both sizes are equal, collections.hpp 84. -/
def dynamic (c : CollNode) : Bool := c.minSize ≠ c.maxSize

variable {α : Type _}

/-- Node-level moves, collections.cpp 124, 135-149, 187, 199-203. -/
def run1 [Inhabited α] (c : CollNode) (s : CollState α) : CollOp → Res (CollState α)
  | .exchange i j => if i = j then .ok s else s.exchange i j
  | .rotate dest src => if src = dest then .ok s else s.rotate dest src
  | .grow => do
    guardUB (c.dynamic = true)
    guardUB (s.size < c.maxSize)
    s.grow
  | .shrink => do
    guardUB (c.dynamic = true)
    guardUB (c.minSize < s.size)
    s.shrink
  | .commit => .ok s.commit
  | .revert => .ok s.revert

/-- A history of moves, commits and reverts. -/
def run [Inhabited α] (c : CollNode) (s : CollState α) (ops : List CollOp) : Res (CollState α) :=
  ops.foldlM c.run1 s

/-- The integers `0, ..., n-1` as stored in the array of doubles. -/
def ints (n : Nat) : List Rat := (List.range n).map (fun i : Nat => (i : Rat))

/-- `CollectionNode::initialize_state(State&, vector<double>)`, collections.cpp 151-185.  (The cast
`ssize_t(val)` of a huge double, which is undefined, is not modelled.) -/
def initExplicit (c : CollNode) (contents : List Rat) : Res (CollState Rat) := do
  guardThrow (¬ contents.length < c.minSize)
  guardThrow (¬ c.maxSize < contents.length)
  guardThrow (∀ v ∈ contents, v.den = 1)
  guardThrow (∀ v ∈ contents, ¬ v < 0)
  guardThrow (∀ v ∈ contents, ¬ v ≥ (c.maxValue : Rat))
  guardThrow contents.Nodup
  let all := contents ++ (ints c.maxValue).filter (fun i => i ∉ contents)
  pure (CollState.mk' all contents.length)

/-- `ListNode::initialize_state(State&)`, collections.cpp 756-763 with the constructor 23-30. -/
def initList (c : CollNode) : CollState Rat := CollState.mk' (ints c.maxSize) c.maxSize

/-- `SetNode::initialize_state(State&)`, collections.cpp 786-794. -/
def initSet (c : CollNode) : CollState Rat := CollState.mk' (ints c.maxValue) c.minSize

end CollNode

end Verif
