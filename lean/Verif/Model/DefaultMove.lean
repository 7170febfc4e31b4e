import Verif.Model.Catalog

/-!
# Models of the decisions' `default_move`
(/repo/dwave/optimization/src/nodes/collections.cpp 343-348, 665-698, 748-784, numbers.cpp 141-145, 170-173)

The random generator is a stream of outcomes.  A distribution over the integers `a .. b` turns the next raw number
`r` into `a + r % (b - a + 1)`, so that all its values occur.  A default move is the list of moves that it makes in
the present state.
-/

namespace Verif

/-- The outcomes of a random generator.  `real k` is the outcome of a `uniform_real_distribution(0.0, 1.0)`; rounding
up to 1 is allowed for. -/
structure Rng where
  int : Nat → Nat
  real : Nat → Rat
  nonneg : ∀ k, 0 ≤ real k
  le_one : ∀ k, real k ≤ 1

/-- `uniform_int_distribution<std::size_t>(0, n - 1)`; for `n = 0` the bound is `2 ^ 64 - 1`. -/
def pick (n r : Nat) : Nat := if n = 0 then r % 2 ^ 64 else r % n

/-- `IntegerNode::default_move`, numbers.cpp 141-145.  The bounds are `double`s; converting a negative one to
`std::size_t` is undefined. -/
def NumNode.defaultMove (c : NumNode) (s : ArrayState Rat) (r : Rng) : Res (List Move) := do
  guardUB (0 ≤ c.lo)
  .ok [.setValue (pick s.buffer.length (r.int 0)) (c.lo + (r.int 1 : Int) % (c.hi - c.lo + 1))]

/-- `BinaryNode::default_move`, numbers.cpp 170-173. -/
def NumNode.defaultFlip (s : ArrayState Rat) (r : Rng) : Res (List Move) :=
  .ok [.flip (pick s.buffer.length (r.int 0))]

/-- `ListNode::default_move`, collections.cpp 748-754. -/
def CollNode.defaultList (s : CollState Rat) (r : Rng) : Res (List Move) :=
  .ok [.exchange (pick s.size (r.int 0)) (pick s.size (r.int 1))]

/-- `SetNode::default_move`, collections.cpp 765-784 (sizes are assumed to fit into an `int`). -/
def CollNode.defaultSet (c : CollNode) (s : CollState Rat) (r : Rng) : Res (List Move) :=
  if s.size < c.maxSize ∧ r.int 0 % 2 = 1 then
    .ok [.exchange s.size (s.size + r.int 1 % (c.maxSize - s.size)), .grow]
  else if c.minSize < s.size then .ok [.shrink]
  else .ok []

/-- `DisjointBitSetsNode::default_move`, collections.cpp 343-348. -/
def BitSetsState.defaultMove (s : BitSetsState) (r : Rng) : Res (List Move) :=
  .ok [.swapBetween (pick s.num (r.int 0)) (pick s.num (r.int 1)) (pick s.primary (r.int 2))]

/-- The loop of `DisjointListsNode::default_move` that chooses a list, collections.cpp 674-683: (number of the next
list, `num_items`, `list_i`, number of random outcomes used). -/
def Lists.choose (r : Rng) : List (ArrayState Rat) → Nat → Nat → Nat → Nat → Nat
  | [], _, _, chosen, _ => chosen
  | l :: ls, k, items, chosen, used =>
    if l.buffer.length > 0 then
      if r.real used ≤ (l.buffer.length : Rat) / ((items + l.buffer.length : Nat) : Rat) then
        choose r ls (k + 1) (items + l.buffer.length) k (used + 1)
      else choose r ls (k + 1) (items + l.buffer.length) chosen (used + 1)
    else choose r ls (k + 1) items chosen used

/-- `DisjointListsNode::default_move`, collections.cpp 665-698. -/
def Lists.defaultMove (s : List (ArrayState Rat)) (r : Rng) : Res (List Move) :=
  match s[Lists.choose r s 0 0 0 0]?, s[pick s.length (r.int 0)]? with
  | some li, some lj =>
    if Lists.choose r s 0 0 0 0 ≠ pick s.length (r.int 0) then
      .ok [.popTo (Lists.choose r s 0 0 0 0) (pick li.buffer.length (r.int 1)) (pick s.length (r.int 0))
        (r.int 2 % (lj.buffer.length + 1))]
    else
      .ok [.swapIn (Lists.choose r s 0 0 0 0) (pick li.buffer.length (r.int 1)) (pick li.buffer.length (r.int 2))]
  | _, _ => .ub

/-- What a solver does to a decision. -/
inductive SolverOp where
  | random (r : Rng)
  | commit
  | revert

/-- A history of default moves, commits and reverts of one symbol. -/
def solve {N : NodeSem Val Dif} (step : N.σ → Move → Res N.σ) (plan : N.σ → Rng → Res (List Move)) :
    N.σ → List SolverOp → Res N.σ
  | s, [] => .ok s
  | s, .random r :: ops => do
    let ms ← plan s r
    let s ← ms.foldlM step s
    solve step plan s ops
  | s, .commit :: ops => do
    let s ← N.commit s
    solve step plan s ops
  | s, .revert :: ops => do
    let s ← N.revert s
    solve step plan s ops

end Verif
