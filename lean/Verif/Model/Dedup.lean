import Verif.Spec.Diff
import Verif.Spec.Res

/-!
# Model of `deduplicate_diff` (/repo/dwave/optimization/src/utils.cpp 23-78)

The in-place compaction of the vector is modelled by the list `kept` of the entries
`diff[0 .. new_index]`; entries are always read at a position after the last one written, so the
unread part of the vector is the original one.  `new_index = -1` is `kept = []`, and reading
`diff[new_index]` then is undefined behaviour.
-/

namespace Verif

variable {α : Type _}

/-- Insertion into a sorted list, before equal elements (helper for `stableSort`). -/
def insertByIndex (u : Update α) : List (Update α) → List (Update α)
  | [] => [u]
  | v :: vs => if u.index ≤ v.index then u :: v :: vs else v :: insertByIndex u vs

/-- `std::stable_sort` with `Update::operator<` (utils.cpp 26, array.hpp 195-197): compares by
index only.  The stable sort of a list is unique, the algorithm is irrelevant. -/
def stableSort (us : List (Update α)) : List (Update α) := us.foldr insertByIndex []

/-- utils.cpp 66-68: the check after the loop. -/
def dedupFinish (kept : List (Update α)) : Res (List (Update α)) :=
  match kept.getLast? with
  | none => .ub
  | some c => .ok (if c.null then kept.dropLast else kept)

/-- The loop, utils.cpp 47-64. -/
def dedupLoop [DecidableEq α] (kept : List (Update α)) : List (Update α) → Res (List (Update α))
  | [] => dedupFinish kept
  | d :: ds =>
    match kept.getLast? with
    | none => .ub
    | some c =>
      if d.index = c.index then dedupLoop (kept.dropLast ++ [{ c with value := d.value }]) ds
      else if c.null then dedupFinish kept.dropLast
      else if d.identity then dedupLoop kept ds
      else dedupLoop (kept ++ [d]) ds

/-- `deduplicate_diff`, utils.cpp 23-78. -/
def deduplicateDiff [DecidableEq α] (diff : List (Update α)) : Res (List (Update α)) :=
  if diff.isEmpty then .ok diff
  else
    -- utils.cpp 30-44: skip to the first update which is not a no-op
    match (stableSort diff).dropWhile Update.identity with
    | [] => .ok []
    | d :: ds => dedupLoop [d] ds

end Verif
