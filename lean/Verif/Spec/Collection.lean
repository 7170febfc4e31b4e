import Verif.Spec.Diff

/-!
# Specification: list and set decision symbols

A collection is a list of elements of which the first `size` are visible.
-/

namespace Verif

/-- Contents of a collection: all elements and the number of visible ones. -/
structure CollContents (α : Type _) where
  elements : List α
  size : Nat
  deriving DecidableEq, Repr

/-- What a user (and successor symbols) see. -/
def CollContents.visible {α : Type _} (c : CollContents α) : List α := c.elements.take c.size

inductive CollOp where
  | exchange (i j : Nat)
  | rotate (dest src : Nat)
  | grow
  | shrink
  | commit
  | revert
  deriving DecidableEq, Repr

/-- Effect of a move on (committed contents, current contents) of a collection whose visible size
has to stay within `[minSize, maxSize]`; `none` when the move is not allowed.
`rotate` takes the element at `src` out and reinserts it at `dest`. -/
def CollOp.effect {α : Type _} (minSize maxSize : Nat) :
    CollContents α × CollContents α → CollOp → Option (CollContents α × CollContents α)
  | (com, cur), .exchange i j =>
    if i = j then some (com, cur)
    else match cur.elements[i]?, cur.elements[j]? with
      | some a, some b => some (com, { cur with elements := (cur.elements.set i b).set j a })
      | _, _ => none
  | (com, cur), .rotate dest src =>
    if src = dest then some (com, cur)
    else if src < cur.size ∧ dest < cur.size then
      match cur.elements[src]? with
      | some a => some (com, { cur with elements := (cur.elements.eraseIdx src).insertIdx dest a })
      | none => none
    else none
  | (com, cur), .grow =>
    if minSize ≠ maxSize ∧ cur.size < maxSize ∧ cur.size < cur.elements.length then
      some (com, { cur with size := cur.size + 1 }) else none
  | (com, cur), .shrink =>
    if minSize ≠ maxSize ∧ minSize < cur.size then
      some (com, { cur with size := cur.size - 1 }) else none
  | (_, cur), .commit => some (cur, cur)
  | (com, _), .revert => some (com, com)

end Verif
