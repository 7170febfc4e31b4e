import Verif.Spec.ProblemsRouting

/-!
# Vehicle routing problems with time windows
-/

namespace Verif

/-- Vehicle routing where distances are times, serving a customer takes time and must fall in the customer's time window, and
vehicles, which leave the depot at time zero or later, must be back when it closes. -/
structure TimedRouting extends Routing where
  opens : Nat → Rat
  closes : Nat → Rat
  service : Nat → Rat
  depotCloses : Rat

namespace TimedRouting

/-- A vehicle that reaches the customer `a` at the time `now` can serve this customer and then all the others, each within the time window,
and be back in time: `t` is when the service begins. -/
def InTime (p : TimedRouting) : Rat → Nat → List Nat → Prop
  | now, a, [] => ∃ t, now ≤ t ∧ p.opens a ≤ t ∧ t + p.service a ≤ p.closes a ∧ t + p.service a + p.back a ≤ p.depotCloses
  | now, a, b :: l => ∃ t, now ≤ t ∧ p.opens a ≤ t ∧ t + p.service a ≤ p.closes a ∧ p.InTime (t + p.service a + p.dist a b) b l

/-- A vehicle can serve the customers of a route in time. -/
def Punctual (p : TimedRouting) : List Nat → Prop
  | [] => True
  | a :: l => p.InTime (p.out a) a l

/-- Every customer is on one route; no route has more demand than a vehicle can carry; every vehicle can be in time; the routes are
short. -/
def problem (p : TimedRouting) : Problem (List (List Nat)) :=
  { p.toRouting.problem with
    feasible := fun routes => ∀ r ∈ routes, (r.map p.demand).sum ≤ p.capacity ∧ p.Punctual r }

/-- The same with at most `most` customers on a route. -/
def atMost (p : TimedRouting) (most : Nat) : Problem (List (List Nat)) :=
  { p.problem with feasible := fun routes => p.problem.feasible routes ∧ ∀ r ∈ routes, r.length ≤ most }

/-- When a vehicle that reaches the customer `a` at the time `now` leaves the last customer, at the earliest. -/
def departure (p : TimedRouting) : Rat → Nat → List Nat → Rat
  | now, a, [] => max now (p.opens a) + p.service a
  | now, a, b :: l => p.departure (max now (p.opens a) + p.service a + p.dist a b) b l

/-- When a vehicle leaves the last customer of a route, at the earliest. -/
def lastDeparture (p : TimedRouting) : List Nat → Rat
  | [] => 0
  | a :: l => p.departure (p.out a) a l

/-- What the generated model encodes in general: all distances between customers taken in the other direction for the lengths of the
routes, at most `most` customers on a route, and on a route with fewer the last customer left at the time `1000000` at the latest. -/
def limited (p : TimedRouting) (most : Nat) : Problem (List (List Nat)) :=
  { p.problem with
    cost := fun routes => (routes.map ({ p.toRouting with dist := fun i j => p.dist j i } : Routing).length).sum
    feasible := fun routes => ∀ r ∈ routes, (r.map p.demand).sum ≤ p.capacity ∧ p.Punctual r ∧ r.length ≤ most ∧
      (r.length < most → p.lastDeparture r ≤ 1000000) }

end TimedRouting

/-- The problem for the times between `n + 1` places, of which the first is the depot, with the demands, time windows and service times
at these places. -/
def timedRoutingOf (n vehicles : Nat) (capacity : Rat) (distances demand opens closes service : Arr Rat) : TimedRouting :=
  { routingOf n vehicles distances demand capacity with
    opens := fun i => opens.elem (i + 1)
    closes := fun i => closes.elem (i + 1)
    service := fun i => service.elem (i + 1)
    depotCloses := closes.elem 0 }

end Verif
