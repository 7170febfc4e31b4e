import Mathlib.Data.Int.Notation

/-!
# Moving an iterator
-/

namespace Verif

/-- The moves a user of an iterator has: `++it`, `--it`, `it += n` (`n` may be negative). -/
inductive IterMove where
  | incr
  | decr
  | advance (n : Int)

/-- By how many elements a move is meant to displace the iterator. -/
def IterMove.delta : IterMove → Int
  | incr => 1
  | decr => -1
  | advance n => n

/-- Total displacement of a sequence of moves. -/
def totalDelta : List IterMove → Int
  | [] => 0
  | m :: ms => m.delta + totalDelta ms

end Verif
