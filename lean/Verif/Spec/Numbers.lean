import Verif.Spec.Diff

/-!
# Specification: integer and binary symbols
-/

namespace Verif

/-- A value an integer symbol with bounds `lo`, `hi` may hold. -/
def InBounds (lo hi : Int) (v : Rat) : Prop := ∃ k : Int, v = (k : Rat) ∧ lo ≤ k ∧ k ≤ hi

inductive NumOp where
  | exchange (i j : Nat)
  /-- set a cell of an integer symbol; rejected (nothing changes) if outside the bounds -/
  | setValue (i : Nat) (v : Int)
  | commit
  | revert
  deriving DecidableEq, Repr

def NumOp.effect (lo hi : Int) : List Rat × List Rat → NumOp → Option (List Rat × List Rat)
  | (com, cur), .exchange i j =>
    match cur[i]?, cur[j]? with
    | some a, some b => some (com, (cur.set i b).set j a)
    | _, _ => none
  | (com, cur), .setValue i v =>
    if v < lo ∨ hi < v then some (com, cur)
    else if i < cur.length then some (com, cur.set i v)
    else none
  | (_, cur), .commit => some (cur, cur)
  | (com, _), .revert => some (com, com)

/-- Extra operations of a binary symbol. -/
inductive BinOp where
  | num (op : NumOp)
  | flip (i : Nat)
  | setOne (i : Nat)
  | unset (i : Nat)
  deriving DecidableEq, Repr

def BinOp.effect : List Rat × List Rat → BinOp → Option (List Rat × List Rat)
  | p, .num op => op.effect 0 1 p
  | (com, cur), .flip i => do
    let a ← cur[i]?
    some (com, cur.set i (1 - a))
  | (com, cur), .setOne i => if i < cur.length then some (com, cur.set i 1) else none
  | (com, cur), .unset i => if i < cur.length then some (com, cur.set i 0) else none

end Verif
