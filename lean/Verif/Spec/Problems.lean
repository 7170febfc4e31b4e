import Verif.Spec.Generated

/-!
# The problems the generators are for

What their documentation says the models are models of.  A problem is given by its solutions, how a solution is shown by the
decisions of the model, what it costs (all are minimised), and which solutions are feasible.
-/

namespace Verif

/-- Row `i`, column `j` of a matrix with `n` columns. -/
def Arr.entry (a : Arr Rat) (n i j : Nat) : Rat := a.data.getD (i * n + j) 0

/-- Element `i`. -/
def Arr.elem (a : Arr Rat) (i : Nat) : Rat := a.data.getD i 0

/-- A matrix with `m` rows and `n` columns. -/
def Arr.IsMatrix (a : Arr Rat) (m n : Nat) : Prop := a.shape = [(m : Int), (n : Int)] ∧ a.data.length = m * n

/-- A vector of length `n`. -/
def Arr.IsVector (a : Arr Rat) (n : Nat) : Prop := a.shape = [(n : Int)] ∧ a.data.length = n

/-- Numbers as a symbol with `n` elements shows them. -/
def shownList (shape : List Int) (l : List Nat) : Val := [⟨shape, l.map fun k : Nat => (k : Rat)⟩]

/-- The traveling salesperson problem with distances `D` between `n` cities: a solution is an order of the cities, its cost the
length of the round trip. -/
def tspProblem (n : Nat) (D : Arr Rat) : Problem (List Nat) where
  valid := fun tour => tour.Perm (List.range n)
  values := fun tour _ => shownList [(n : Int)] tour
  cost := fun tour => ((List.range n).map fun i => D.entry n (tour.getD i 0) (tour.getD ((i + 1) % n) 0)).sum
  feasible := fun _ => True

/-- The knapsack problem: choose among `n` items, each at most once, such that their weight is at most the capacity; as many values
as possible. -/
def knapsackProblem (n : Nat) (values weights : Arr Rat) (capacity : Rat) : Problem (List Nat) where
  valid := fun items => items.Nodup ∧ ∀ i ∈ items, i < n
  values := fun items _ => shownList [-1] items
  cost := fun items => - (items.map values.elem).sum
  feasible := fun items => (items.map weights.elem).sum ≤ capacity

/-- The quadratic assignment problem: `at_ i` is the location of facility `i`; the cost is the sum over all pairs of facilities of
their flow times the distance between their locations. -/
def qapProblem (n : Nat) (distances flows : Arr Rat) : Problem (List Nat) where
  valid := fun at_ => at_.Perm (List.range n)
  values := fun at_ _ => shownList [(n : Int)] at_
  cost := fun at_ => ((List.range n).map fun i =>
    ((List.range n).map fun j => flows.entry n i j * distances.entry n (at_.getD i 0) (at_.getD j 0)).sum).sum
  feasible := fun _ => True

/-- Job-shop scheduling: job `j` needs machine `m` for the time `times[j, m]`, and goes through the machines in the order
`order j`.  A solution gives the start times (row `j`, column `m`), each at most `upper`. -/
structure JobShop where
  jobs : Nat
  machines : Nat
  times : Nat → Nat → Rat
  order : Nat → Nat → Nat
  upper : Int

namespace JobShop

def start (p : JobShop) (l : List Int) (j m : Nat) : Rat := (l.getD (j * p.machines + m) 0 : Int)

/-- When job `j` is finished on machine `m`. -/
def finish (p : JobShop) (l : List Int) (j m : Nat) : Rat := p.start l j m + p.times j m

/-- The job does not enter its next machine before it has left the machine before. -/
def InOrder (p : JobShop) (l : List Int) (j : Nat) : Prop :=
  ∀ k, k + 1 < p.machines → p.finish l j (p.order j k) ≤ p.start l j (p.order j (k + 1))

/-- Two jobs are not on the same machine at the same time. -/
def Apart (p : JobShop) (l : List Int) (i j : Nat) : Prop :=
  ∀ m < p.machines, p.finish l i m ≤ p.start l j m ∨ p.finish l j m ≤ p.start l i m

/-- The cost is the time at which everything is finished. -/
def problem (p : JobShop) : Problem (List Int) where
  valid := fun l => l.length = p.jobs * p.machines ∧ ∀ k ∈ l, 0 ≤ k ∧ k ≤ p.upper
  values := fun l _ => [⟨[(p.jobs : Int), (p.machines : Int)], l.map fun k : Int => (k : Rat)⟩]
  cost := fun l => ((List.range p.jobs).flatMap fun j => (List.range p.machines).map fun m => p.finish l j m).foldr max 0
  feasible := fun l => (∀ j < p.jobs, p.InOrder l j) ∧ ∀ i < p.jobs, ∀ j < p.jobs, i ≠ j → p.Apart l i j

end JobShop

/-- The instance with the given times, the machines in the order in which they are used (row by row), and the given bound on the start
times (the sum of all times if there is none). -/
def jobShopOf (J m : Nat) (T : Arr Rat) (ks : List Nat) (upper : Option Int) : JobShop where
  jobs := J
  machines := m
  times := T.entry m
  order := fun j k => ks.getD (j * m + k) 0
  upper := upper.getD ⌊T.data.sum⌋

end Verif
