import Verif.Spec.Diff

/-!
# Specification: disjoint bit sets and disjoint lists
-/

namespace Verif

/-! ## Disjoint bit sets

A partition of `0, ..., P-1` into numbered sets is given by telling for each element the number of
its set. -/

/-- The bit vector of set number `k` for the assignment `w` (element -> number of its set). -/
def bitsOf (w : List Nat) (k : Nat) : List Rat := w.map (fun s => if s = k then 1 else 0)

inductive BitSetsOp where
  /-- Exchange the bits of `element` between two sets. -/
  | swap (fromSet toSet element : Nat)
  | commit
  | revert
  deriving DecidableEq, Repr

/-- Effect on (committed assignment, current assignment) of `N` sets: the element changes sides if
it is in one of the two sets, otherwise nothing happens. -/
def BitSetsOp.effect (N : Nat) : List Nat × List Nat → BitSetsOp → Option (List Nat × List Nat)
  | (com, cur), .swap f t e =>
    if f < N ∧ t < N then
      match cur[e]? with
      | some s => some (com, cur.set e (if s = f then t else if s = t then f else s))
      | none => none
    else none
  | (_, cur), .commit => some (cur, cur)
  | (com, _), .revert => some (com, com)

/-- `contents` (one 0/1 vector per set) is a partition of `0, ..., P-1`. -/
def IsBitPartition (P : Nat) (contents : List (List Rat)) : Prop :=
  (∀ c ∈ contents, c.length = P ∧ ∀ v ∈ c, v = 0 ∨ v = 1) ∧
  ∀ e < P, ∃ k < contents.length, ∀ j < contents.length,
    (contents[j]? >>= fun c => c[e]?) = some (if j = k then 1 else 0)

/-! ## Disjoint lists -/

inductive ListsOp (α : Type _) where
  | rotate (list dest src : Nat)
  | swap (list i j : Nat)
  /-- Take element number `i` out of list `fromList` and insert it at position `j` of `toList`. -/
  | pop (fromList i toList j : Nat)
  | setState (list : Nat) (values : List α)
  | commit
  | revert

/-- Effect on the current lists; `none` when not allowed. -/
def ListsOp.effect1 {α : Type _} (cur : List (List α)) : ListsOp α → Option (List (List α))
  | .rotate k d e => do
    let l ← cur[k]?
    if e = d then some cur
    else if d < l.length then do
      let a ← l[e]?
      some (cur.set k ((l.eraseIdx e).insertIdx d a))
    else none
  | .swap k i j => do
    let l ← cur[k]?
    if i = j then some cur
    else do
      let a ← l[i]?
      let b ← l[j]?
      some (cur.set k ((l.set i b).set j a))
  | .pop f i t j => do
    let l ← cur[f]?
    let m ← cur[t]?
    let a ← l[i]?
    if j ≤ m.length then do
      let cur' := cur.set f (l.eraseIdx i)
      let m' ← cur'[t]?
      some (cur'.set t (m'.insertIdx (min j m'.length) a))
    else none
  | .setState k vs => do
    let _ ← cur[k]?
    some (cur.set k vs)
  | .commit => some cur
  | .revert => some cur

/-- Effect on (committed lists, current lists). -/
def ListsOp.effect {α : Type _} :
    List (List α) × List (List α) → ListsOp α → Option (List (List α) × List (List α))
  | (_, cur), .commit => some (cur, cur)
  | (com, _), .revert => some (com, com)
  | (com, cur), op => (op.effect1 cur).map (fun c => (com, c))

end Verif
