import Mathlib.Data.Finset.Sort
import Mathlib.Data.Rat.Floor
import Verif.Model.Catalog

/-!
# Specification: setting and reading states

A table of the decisions' values: one row for every state of the model.  `set_state` writes an entry, `state` reads what follows from
a row.
-/

namespace Verif

/-- What a user can pass to `set_state`. -/
inductive PyValue where
  /-- a NumPy array, a number, or nested lists of equal lengths -/
  | array (a : Arr Rat)
  /-- a list of lists -/
  | rows (l : List (List Rat))
  /-- a Python set -/
  | set (s : Finset Rat)

namespace PyValue

/-- As one array, which Python sets and lists of different lengths are not. -/
def asArray : PyValue → Option (Arr Rat)
  | array a => some a
  | rows [] => some ⟨[0], []⟩
  | rows (r :: rs) => if ∀ q ∈ rs, q.length = r.length then some ⟨[rs.length + 1, r.length], (r :: rs).flatten⟩ else none
  | set _ => none

/-- As a list of lists. -/
def asRows : PyValue → Option (List (List Rat))
  | array a =>
    match a.shape with
    | [n, m] => some ((List.range n.toNat).map fun i => (a.data.drop (i * m.toNat)).take m.toNat)
    | 0 :: _ => some []
    | _ => none
  | rows l => some l
  | set _ => none

/-- As a list of numbers; the elements of a set in increasing order. -/
def asList : PyValue → Option (List Rat)
  | set s => some (s.sort (· ≤ ·))
  | x => x.asArray.bind fun a => if a.shape.length = 1 then some a.data else none

/-- Arrays have as many elements as their shape says. -/
def WF : PyValue → Prop
  | array a => a.WF
  | _ => True

end PyValue

/-- Rounding toward zero, as NumPy converts to integers. -/
def roundToZero (x : Rat) : Rat := if 0 ≤ x then ⌊x⌋ else ⌈x⌉

/-- The value of a decision that is meant by a given one, if there is one.  Numbers are rounded toward zero; arrays of numbers may
have any shape, their elements count in order.  In disjoint sets, all that is not zero counts as one. -/
def Kind.meant (k : Kind) (x : PyValue) : Option Val :=
  match k with
  | .integer shape _ _ | .binaryVar shape => x.asArray.map fun a => [⟨shape, a.data.map roundToZero⟩]
  | .collection n lo hi => x.asList.map fun l => [⟨collShape (Kind.collNode n lo hi), l.map roundToZero⟩]
  | .disjointBitSets P _ =>
    (x.asArray.bind fun a => if a.shape.length = 2 then (PyValue.array a).asRows else none).map fun l =>
      l.map fun r => ⟨[(P.toNat : Int)], r.map fun v => if v = 0 then 0 else 1⟩
  | .disjointLists _ _ => x.asRows.map fun l => l.map fun r => ⟨[-1], r.map roundToZero⟩
  | _ => none

/-- What a user does with states. -/
inductive PyStateOp where
  /-- `model.states.resize(n)` -/
  | resize (n : Int)
  /-- `d.set_state(i, x)` -/
  | setState (d : Nat) (i : Int) (x : PyValue)
  /-- `v.reset_state(i)` -/
  | resetState (v : Nat) (i : Int)
  /-- `v.state(i)` -/
  | state (v : Nat) (i : Int)
  /-- `model.states.initialize()` -/
  | fill
  /-- `model.unlock()`, `model.lock()` -/
  | relock

/-- What the user sees: nothing, an array, or an exception. -/
inductive Outcome where
  | done
  | shown (a : Arr Rat)
  | raised
  deriving DecidableEq

end Verif
