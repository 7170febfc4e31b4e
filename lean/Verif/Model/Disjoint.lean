import Verif.Spec.Disjoint
import Verif.Model.ArrayState

/-!
# Model of `DisjointBitSetsNodeData` and `DisjointListStateData`
(/repo/dwave/optimization/src/nodes/collections.cpp 225-370 and 372-735)
-/

namespace Verif

/-! ## Disjoint bit sets -/

/-- `DisjointBitSetsNodeData` members, collections.cpp 311-314.  `data` is the flat vector. -/
structure BitSetsState where
  primary : Nat
  num : Nat
  data : List Rat
  diffs : List (List (Update Rat))
  deriving DecidableEq, Repr

namespace BitSetsState

/-- Default constructor, collections.cpp 226-235. -/
def mkDefault (P N : Nat) : Res BitSetsState :=
  let data : List Rat := List.replicate (P * N) 0
  -- `data[i] = 1` for i < P: out of range if there is no set (excluded by the node's constructor)
  if P ≤ data.length then
    .ok ⟨P, N, List.replicate P 1 ++ data.drop P, List.replicate N []⟩
  else .ub

/-- Constructor from contents, collections.cpp 237-267: copies the rows one after another and
counts the ones. -/
def mkExplicit (P N : Nat) (contents : List (List Rat)) : Res BitSetsState := do
  guardThrow (contents.length = N)
  guardThrow (∀ c ∈ contents, c.length = P)
  guardThrow (∀ c ∈ contents, ∀ v ∈ c, v = 0 ∨ v = 1)
  guardThrow (contents.flatten.count 1 = P)
  pure ⟨P, N, contents.flatten, List.replicate N []⟩

/-- `swap_between_sets`, collections.cpp 269-278. -/
def swapBetween (s : BitSetsState) (f t e : Nat) : Res BitSetsState :=
  match s.data[f * s.primary + e]?, s.data[t * s.primary + e]? with
  | some el0, some el1 =>
    if el0 ≠ el1 then
      match s.diffs[f]? with
      | none => .ub
      | some df =>
        let diffs := s.diffs.set f (df ++ [Update.change e el0 el1])
        match diffs[t]? with
        | none => .ub
        | some dt =>
          .ok { s with
            diffs := diffs.set t (dt ++ [Update.change e el1 el0])
            data := (s.data.set (f * s.primary + e) el1).set (t * s.primary + e) el0 }
    else .ok s
  | _, _ => .ub

/-- The loop of `get_containing_set_index`, collections.cpp 282-284, from set number `k` with
`fuel` sets to go; running out is `unreachable()`. -/
def containing (s : BitSetsState) (e : Nat) : Nat → Nat → Res Nat
  | _, 0 => .ub
  | k, fuel + 1 =>
    match s.data[k * s.primary + e]? with
    | none => .ub
    | some v => if v ≠ 0 then .ok k else containing s e (k + 1) fuel

/-- `get_containing_set_index`, collections.cpp 280-288. -/
def getContaining (s : BitSetsState) (e : Nat) : Res Nat := do
  guardUB (e < s.primary)
  s.containing e 0 s.num

/-- `commit`, collections.cpp 290-294. -/
def commit (s : BitSetsState) : BitSetsState := { s with diffs := s.diffs.map (fun _ => []) }

/-- Inner loop of `revert`, collections.cpp 302-304, for set number `k`. -/
def revertSet (P : Nat) (data : List Rat) (k : Nat) (diff : List (Update Rat)) : List Rat :=
  diff.reverse.foldl (fun d u => d.set (k * P + u.index) (u.old.getD 0)) data

/-- `revert`, collections.cpp 300-307. -/
def revert (s : BitSetsState) : BitSetsState :=
  { s with
    data := s.diffs.zipIdx.foldl (fun d p => revertSet s.primary d p.2 p.1) s.data
    diffs := s.diffs.map (fun _ => []) }

/-- The array of a `DisjointBitSetNode`: `primary` cells from `get_data(k)`, collections.cpp 309,
360-364. -/
def view (s : BitSetsState) (k : Nat) : List Rat := (s.data.drop (k * s.primary)).take s.primary

/-- Dispatch of moves, collections.cpp 335-354. -/
def run1 (s : BitSetsState) : BitSetsOp → Res BitSetsState
  | .swap f t e => s.swapBetween f t e
  | .commit => .ok s.commit
  | .revert => .ok s.revert

def run (s : BitSetsState) (ops : List BitSetsOp) : Res BitSetsState := ops.foldlM run1 s

end BitSetsState

/-! ## Disjoint lists

The parallel vectors `lists`, `all_list_updates`, `previous_list_sizes` (collections.cpp 577-580)
are one list of records; these have the same fields as `ArrayState`. -/

namespace Lists

variable {α : Type _} [DecidableEq α]

/-- Access list number `k` and replace it. -/
def modify (s : List (ArrayState α)) (k : Nat)
    (f : ArrayState α → Res (ArrayState α)) : Res (List (ArrayState α)) :=
  match s[k]? with
  | none => .ub
  | some x => do
    let y ← f x
    pure (s.set k y)

/-- Body of the loops of `rotate_in_list`, collections.cpp 455-456, 461-462. -/
def rotateStep (p : ArrayState α × α) (i : Nat) : Res (ArrayState α × α) :=
  match p.1.buffer[i]? with
  | none => .ub
  | some e =>
    .ok ({ p.1 with
      buffer := p.1.buffer.set i p.2
      updates := p.1.updates ++ [Update.change i e p.2] }, e)

/-- `rotate_in_list`, collections.cpp 445-465, on the list concerned. -/
def rotate (s : ArrayState α) (dest src : Nat) : Res (ArrayState α) :=
  if dest < s.buffer.length then
    match s.buffer[src]? with
    | none => .ub
    | some prev =>
      if dest < src then do
        let p ← (List.range' dest (src - dest + 1)).foldlM rotateStep (s, prev)
        pure p.1
      else if src < dest then do
        let p ← (List.range' src (dest - src + 1)).reverse.foldlM rotateStep (s, prev)
        pure p.1
      else .ok s
  else .ub

/-- `swap_in_list`, collections.cpp 508-518, on the list concerned. -/
def swap (s : ArrayState α) (i j : Nat) : Res (ArrayState α) :=
  match s.buffer[i]?, s.buffer[j]? with
  | some a, some b =>
    .ok { s with
      buffer := (s.buffer.set i b).set j a
      updates := s.updates ++ [Update.change i a b] ++ [Update.change j b a] }
  | _, _ => .ub

/-- Body of the first loop of `pop_to_list`, collections.cpp 534-535. -/
def popStep (s : ArrayState α) (i : Nat) : Res (ArrayState α) :=
  match s.buffer[i]?, s.buffer[i + 1]? with
  | some a, some b =>
    .ok { s with
      buffer := s.buffer.set i b
      updates := s.updates ++ [Update.change i a b] }
  | _, _ => .ub

/-- First half of `pop_to_list`, collections.cpp 532-540. -/
def popFrom (s : ArrayState α) (i : Nat) : Res (ArrayState α) := do
  let last := s.buffer.length - 1
  let s ← (List.range' i (last - i)).foldlM popStep s
  match s.buffer[last]? with
  | none => .ub
  | some v =>
    .ok { s with
      updates := s.updates ++ [Update.removal last v]
      buffer := s.buffer.dropLast }

/-- Body of the second loop of `pop_to_list`, collections.cpp 544-545. -/
def insertStep (p : ArrayState α × α) (i : Nat) : Res (ArrayState α × α) :=
  match p.1.buffer[i]? with
  | none => .ub
  | some e =>
    .ok ({ p.1 with
      updates := p.1.updates ++ [Update.change i e p.2]
      buffer := p.1.buffer.set i p.2 }, e)

/-- Second half of `pop_to_list`, collections.cpp 543-549. -/
def insertTo (s : ArrayState α) (j : Nat) (value : α) : Res (ArrayState α) := do
  let p ← (List.range' j (s.buffer.length - j)).foldlM insertStep (s, value)
  pure { p.1 with
    updates := p.1.updates ++ [Update.placement p.1.buffer.length p.2]
    buffer := p.1.buffer ++ [p.2] }

/-- `pop_to_list`, collections.cpp 520-550.  `from_list` and `to_list` may be the same object. -/
def popToList (s : List (ArrayState α)) (f i t j : Nat) : Res (List (ArrayState α)) :=
  match s[f]?, s[t]? with
  | some l, some m =>
    match l.buffer[i]? with
    | none => .ub
    | some value =>
      if j ≤ m.buffer.length then do
        let s ← modify s f (fun l => popFrom l i)
        modify s t (fun m => insertTo m j value)
      else .ub
  | _, _ => .ub

/-- `commit`, collections.cpp 435-443, per list. -/
def commit1 (s : ArrayState α) : ArrayState α :=
  if s.updates.length > 0 then { s with prevSize := s.buffer.length, updates := [] } else s

/-- Body of the inner loop of `revert`, collections.cpp 559-565: erase, insert or overwrite. -/
def undo [Inhabited α] (l : List α) (u : Update α) : List α :=
  if u.placed then l.eraseIdx u.index
  else if u.removed then l.insertIdx u.index (u.old.getD default)
  else l.set u.index (u.old.getD default)

/-- `revert`, collections.cpp 555-568, per list.  `previous_list_sizes` is left as it is. -/
def revert1 [Inhabited α] (s : ArrayState α) : ArrayState α :=
  { s with buffer := s.updates.reverse.foldl undo s.buffer, updates := [] }

/-- Dispatch of the node's methods, collections.cpp 606-663. -/
def run1 [Inhabited α] (s : List (ArrayState α)) : ListsOp α → Res (List (ArrayState α))
  | .rotate k d e => if e = d then (match s[k]? with | none => .ub | some _ => .ok s)
      else modify s k (fun l => rotate l d e)
  | .swap k i j => if i = j then (match s[k]? with | none => .ub | some _ => .ok s)
      else modify s k (fun l => swap l i j)
  | .pop f i t j => popToList s f i t j
  | .setState k vs => modify s k (fun l => .ok (l.assign vs))   -- same code as _state.hpp 39-75
  | .commit => .ok (s.map commit1)
  | .revert => .ok (s.map revert1)

def run [Inhabited α] (s : List (ArrayState α)) (ops : List (ListsOp α)) :
    Res (List (ArrayState α)) := ops.foldlM run1 s

/-- Default constructor, collections.cpp 373-392: everything in the first list. -/
def mkDefault (P N : Nat) : Res (List (ArrayState Rat)) :=
  match N with
  | 0 => .ub   -- `previous_list_sizes[0]`; excluded by the node's constructor
  | n + 1 =>
    .ok (ArrayState.mk' ((List.range P).map (fun i : Nat => (i : Rat))) ::
      List.replicate n (ArrayState.mk' []))

/-- Constructor from contents, collections.cpp 394-433.  (The cast of a huge or negative double to
`size_t` before the check, which is undefined, is not modelled.) -/
def mkExplicit (P N : Nat) (lists : List (List Rat)) : Res (List (ArrayState Rat)) := do
  guardThrow (lists.length = N)
  guardThrow (∀ v ∈ lists.flatten, ¬ v < 0 ∧ v.den = 1)
  guardThrow (∀ v ∈ lists.flatten, ¬ v ≥ (P : Rat))
  guardThrow lists.flatten.Nodup
  guardThrow (lists.flatten.length = P)
  pure (lists.map ArrayState.mk')

end Lists

end Verif
