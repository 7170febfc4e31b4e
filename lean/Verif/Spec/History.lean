import Verif.Spec.Diff

/-!
# Specification: histories of an array with commit and revert

What a user sees of an array under change: a committed list and a current list.  Mutations act on
the current list, `commit` makes the current list the committed one, `revert` goes back.
-/

namespace Verif

/-- Carry out an update without looking at its `old` value. -/
def Update.force {α : Type _} (l : List α) (u : Update α) : Option (List α) :=
  match u.old, u.value with
  | none, some v => if u.index = l.length then some (l ++ [v]) else none
  | _, none => if u.index + 1 = l.length then some l.dropLast else none
  | some _, some v => if u.index < l.length then some (l.set u.index v) else none

/-- The mutating operations of an array state. -/
inductive ArrayOp (α : Type _) where
  | assign (values : List α)
  | emplaceBack (v : α)
  | exchange (i j : Nat)
  | popBack
  | set (i : Nat) (v : α)
  | update (us : List (Update α))
  | commit
  | revert

/-- Effect of an operation on (committed list, current list); `none` when it is not allowed. -/
def ArrayOp.effect {α : Type _} : List α × List α → ArrayOp α → Option (List α × List α)
  | (com, _), .assign vs => some (com, vs)
  | (com, cur), .emplaceBack v => some (com, cur ++ [v])
  | (com, cur), .exchange i j =>
    match cur[i]?, cur[j]? with
    | some a, some b => some (com, (cur.set i b).set j a)
    | _, _ => none
  | (com, cur), .popBack => if cur.isEmpty then none else some (com, cur.dropLast)
  | (com, cur), .set i v => if i < cur.length then some (com, cur.set i v) else none
  | (com, cur), .update us => (us.foldlM Update.force cur).map (fun l => (com, l))
  | (_, cur), .commit => some (cur, cur)
  | (com, _), .revert => some (com, com)

end Verif
