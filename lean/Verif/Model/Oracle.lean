import Verif.Spec.Oracle
import Verif.Spec.Res

/-!
# The symbols for tests
(/repo/dwave/optimization/src/nodes/testing.cpp)

`ArrayValidationNode` watches an array and asserts that it says what it does; an assertion that fails is `ub`.  (In builds with `NDEBUG`
it asserts nothing.)  `DynamicArrayTestingNode` is a decision that grows and shrinks.  Elements are rational numbers, or NaN (`none`)
where a NaN of an update can get into the data of the watching symbol.
-/

namespace Verif

/-- `ArrayValidationNodeData`, testing.cpp 24-31. -/
structure Oracle where
  old : List (Option Rat)
  cur : List (Option Rat)
  deriving DecidableEq

/-- A product computed with `int`, testing.cpp 69-71: `std::reduce(..., 1, ...)` has the type of `1`.  The numbers are reduced modulo 2³²,
which makes the order of the products irrelevant. -/
def productInt (l : List Int) : Int := l.foldl (fun a n => Int.bmod (a * n) (2 ^ 32)) 1

namespace Oracle

/-- `a == b` of numbers that may be NaN. -/
def same (a b : Option Rat) : Bool := a.isSome && decide (a = b)

/-- `std::ranges::equal`. -/
def equal : List (Option Rat) → List (Option Rat) → Bool
  | [], [] => true
  | a :: as, b :: bs => same a b && equal as bs
  | _, _ => false

/-- `check_shape`, testing.cpp 33-44; the axes from 1 on are compared. -/
def checkShape (shape static : List Int) (expected : Nat) : Prop :=
  static.length = shape.length ∧ static.tail = shape.tail ∧ shape.prod = expected

instance (shape static : List Int) (expected : Nat) : Decidable (checkShape shape static expected) := by unfold checkShape; infer_instance

/-- The checks of the elements, testing.cpp 74-78, 180-184. -/
def checkRange (d : Declaration) (o : Observation) : Prop :=
  o.size ≠ 0 → (∀ x ∈ o.view, d.lo ≤ x) ∧ (∀ x ∈ o.view, x ≤ d.hi) ∧ (d.integral = false ∨ ∀ x ∈ o.view, x.den = 1)

instance (d : Declaration) (o : Observation) : Decidable (checkRange d o) := by unfold checkRange; infer_instance

/-- `initialize_state`, testing.cpp 62-79. -/
def start (d : Declaration) (o : Observation) : Res Oracle := do
  guardUB (o.diff.length = 0)
  guardUB (o.sizeDiff = 0)
  guardUB ((o.view.length : Int) = o.size)
  guardUB (o.size = productInt o.shape)
  guardUB (checkRange d o)
  .ok ⟨o.view.map some, o.view.map some⟩

/-- One turn of the loop of `propagate`, testing.cpp 90-133: the data and whether something was incorrect. -/
def apply (s : List (Option Rat) × Bool) (u : Update Rat) : List (Option Rat) × Bool :=
  if u.placed then
    if u.index ≠ s.1.length then (s.1, true) else (s.1 ++ [u.value], s.2)
  else if u.removed then
    if (u.index : Int) ≠ (s.1.length : Int) - 1 then (s.1, true)
    else (s.1.dropLast, s.2 || !same u.old (s.1.getD u.index none))
  else
    if s.1.length ≤ u.index then (s.1, true)
    else (s.1.set u.index u.value, s.2 || !same u.old (s.1.getD u.index none))

/-- `propagate`, testing.cpp 81-186. -/
def propagate (d : Declaration) (s : Oracle) (o : Observation) : Res Oracle := do
  guardUB ((o.diff.foldl apply (s.cur, false)).2 = false ∧ equal (o.diff.foldl apply (s.cur, false)).1 (o.view.map some) = true)
  guardUB ((o.view.length : Int) - s.old.length = o.sizeDiff)
  guardUB (o.size = o.view.length)
  guardUB (checkShape o.shape d.shape (o.diff.foldl apply (s.cur, false)).1.length)
  guardUB (checkRange d o)
  .ok { s with cur := o.view.map some }

/-- `commit`, testing.cpp 52-60. -/
def commit (d : Declaration) (s : Oracle) (o : Observation) : Res Oracle := do
  guardUB (o.diff.length = 0)
  guardUB (o.sizeDiff = 0)
  guardUB (o.size = s.cur.length)
  guardUB (equal (o.view.map some) s.cur = true)
  guardUB (checkShape o.shape d.shape s.cur.length)
  .ok { s with old := s.cur }

/-- `revert`, testing.cpp 188-196. -/
def revert (d : Declaration) (s : Oracle) (o : Observation) : Res Oracle := do
  guardUB (o.diff.length = 0)
  guardUB (o.sizeDiff = 0)
  guardUB (o.size = s.old.length)
  guardUB (equal (o.view.map some) s.old = true)
  guardUB (checkShape o.shape d.shape s.old.length)
  .ok { s with cur := s.old }

/-- One event. -/
def step (d : Declaration) (s : Oracle) : WatchEvent → Res Oracle
  | .propagated o => s.propagate d o
  | .committed o => s.commit d o
  | .reverted o => s.revert d o

/-- The whole life of a state. -/
def watch (d : Declaration) (o : Observation) (es : List WatchEvent) : Res Oracle := do
  let s ← start d o
  es.foldlM (step d) s

end Oracle

/-- `DynamicArrayTestingNodeData`, testing.cpp 198-259. -/
structure Pile where
  old : List Rat
  cur : List Rat
  diff : List (Update Rat)
  curShape : List Int
  oldShape : List Int
  deriving DecidableEq

namespace Pile

/-- `strides()[0] / itemsize()`: the number of elements of a row. -/
def rowSize (shape : List Int) : Int := shape.tail.prod

/-- The constructor, testing.cpp 269-285. -/
def accepts (shape : List Int) : Res Unit := guardThrow (shape ≠ [] ∧ shape.headD 0 = -1)

/-- `initialize_state`, testing.cpp 294-306.  A remainder of a division by zero is undefined. -/
def start (shape : List Int) (values : List Rat) : Res Pile := do
  guardUB (rowSize shape ≠ 0)
  guardUB ((values.length : Int) % rowSize shape = 0)
  guardUB (shape ≠ [])
  .ok ⟨values, values, [], ((values.length : Int) / rowSize shape) :: shape.tail, ((values.length : Int) / rowSize shape) :: shape.tail⟩

/-- Element by element, testing.cpp 223-230. -/
def place (s : Pile) (v : Rat) : Pile := { s with diff := s.diff ++ [Update.placement s.cur.length v], cur := s.cur ++ [v] }

/-- Add to the first dimension. -/
def lengthen (s : Pile) (n : Int) : Pile := { s with curShape := s.curShape.modifyHead (· + n) }

/-- `grow`, testing.cpp 349-357. -/
def grow (shape : List Int) (s : Pile) (values : List Rat) : Res Pile := do
  guardUB (1 ≤ shape.length)
  guardUB (rowSize shape ≠ 0)
  guardUB ((values.length : Int) % rowSize shape = 0)
  .ok ((values.foldl place s).lengthen ((values.length : Int) / rowSize shape))

/-- `set`, testing.cpp 240-244. -/
def set (s : Pile) (i : Int) (v : Rat) : Res Pile := do
  guardUB (0 ≤ i ∧ i < s.cur.length)
  .ok { s with diff := s.diff ++ [Update.change i.toNat (s.cur.getD i.toNat 0) v], cur := s.cur.set i.toNat v }

/-- Remove the last element, testing.cpp 250-251. -/
def pop (s : Pile) : Pile :=
  { s with diff := s.diff ++ [Update.removal (s.cur.length - 1) (s.cur.getLastD 0)], cur := s.cur.dropLast }

/-- `shrink`, testing.cpp 246-254, 402-405. -/
def shrink (shape : List Int) (s : Pile) : Res Pile := do
  guardUB (rowSize shape ≤ s.cur.length)
  .ok ((pop^[(rowSize shape).toNat] s).lengthen (-1))

/-- `commit`, testing.cpp 216-220. -/
def commit (s : Pile) : Pile := { s with diff := [], old := s.cur, oldShape := s.curShape }

/-- `revert`, testing.cpp 234-238. -/
def revert (s : Pile) : Pile := { s with diff := [], cur := s.old, curShape := s.oldShape }

/-- What the random number generator gives for one `random_move`: the kind of move, the elements of a new row, the index and the value
of a change. -/
structure Draw where
  kind : Nat
  row : List Rat
  index : Nat
  value : Rat

/-- `random_move`, testing.cpp 359-387. -/
def randomMove (shape : List Int) (s : Pile) (r : Draw) : Res Pile :=
  if r.kind = 0 then s.grow shape r.row
  else if r.kind = 1 ∧ 0 < s.cur.length then s.shrink shape
  else if 0 < s.cur.length then s.set r.index r.value
  else .ok s

/-- What the symbol shows: `buff`, `size`, `shape`, `size_diff`, `diff`, testing.cpp 308-328. -/
def show_ (s : Pile) : Observation := ⟨s.cur, s.curShape, s.cur.length, (s.cur.length : Int) - s.old.length, s.diff⟩

end Pile

end Verif
