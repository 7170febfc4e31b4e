import Verif.Spec.ProblemsDisjoint

/-!
# Vehicle routing problems
-/

namespace Verif

/-- Vehicle routing: customers `0`, `1`, ..., one depot, vehicles that all can carry the same. -/
structure Routing where
  customers : Nat
  vehicles : Nat
  /-- From one customer to another. -/
  dist : Nat → Nat → Rat
  /-- From the depot to a customer. -/
  out : Nat → Rat
  /-- From a customer to the depot. -/
  back : Nat → Rat
  demand : Nat → Rat
  capacity : Rat

namespace Routing

/-- The length of the way from a customer through all the others to the depot. -/
def wayHome (p : Routing) : Nat → List Nat → Rat
  | a, [] => p.back a
  | a, b :: l => p.dist a b + p.wayHome b l

/-- The length of a route; a vehicle without customers stays at the depot. -/
def length (p : Routing) : List Nat → Rat
  | [] => 0
  | a :: l => p.out a + p.wayHome a l

/-- Every customer is on one route; no route has more demand than a vehicle can carry; the routes are short. -/
def problem (p : Routing) : Problem (List (List Nat)) where
  valid := fun routes => routes.length = p.vehicles ∧ routes.flatten.Perm (List.range p.customers)
  values := fun routes _ => routes.map fun l => ⟨[-1], l.map fun k : Nat => (k : Rat)⟩
  cost := fun routes => (routes.map p.length).sum
  feasible := fun routes => ∀ r ∈ routes, (r.map p.demand).sum ≤ p.capacity

end Routing

/-- The problem for distances between `n + 1` places, of which the first is the depot, with the demands at these places. -/
def routingOf (n vehicles : Nat) (distances demand : Arr Rat) (capacity : Rat) : Routing where
  customers := n
  vehicles := vehicles
  dist := fun i j => distances.entry (n + 1) (i + 1) (j + 1)
  out := fun j => distances.entry (n + 1) 0 (j + 1)
  back := fun i => distances.entry (n + 1) (i + 1) 0
  demand := fun i => demand.elem (i + 1)
  capacity := capacity

/-- The problem for customers in the plane: `x i`, `y i` is where customer `i` is, `x0`, `y0` where the depot is, and distances are
`root` of the sum of the squares of the differences. -/
def planeRouting (root : Rat → Rat) (n vehicles : Nat) (x y demand : Nat → Rat) (x0 y0 capacity : Rat) : Routing where
  customers := n
  vehicles := vehicles
  dist := fun i j => root ((x i - x j) ^ 2 + (y i - y j) ^ 2)
  out := fun i => root ((x i - x0) ^ 2 + (y i - y0) ^ 2)
  back := fun i => root ((x i - x0) ^ 2 + (y i - y0) ^ 2)
  demand := demand
  capacity := capacity

end Verif
