import Verif.Model.GeneratorsDisjoint

/-!
# Generators of vehicle routing models

`capacitated_vehicle_routing`, `dwave/optimization/generators.py`; see `Verif.Model.Generators` for what is simplified.
-/

namespace Verif

namespace Generators

/-- The arguments of the part of `capacitated_vehicle_routing` that makes the model: distances between customers, from the depot, to
the depot, and the demands. -/
structure RoutingData where
  dist : Arr Rat
  out : Arr Rat
  back : Arr Rat
  demand : Arr Rat

/-- `vector[1:]`, for vectors. -/
def dropFirst (a : Arr Rat) : Arr Rat := ⟨[a.shape.headD 0 - 1], a.data.drop 1⟩

/-- `distances_array[1:, 1:]`, `distances_array[0][1:]`, `distances_array[1:, 0]` and `demand[1:]`, generators.py 315-318, for a matrix
with `n + 1` rows and columns. -/
def splitDistances (n : Nat) (D demand : Arr Rat) : RoutingData where
  dist := ⟨[(n : Int), (n : Int)], (List.range n).flatMap fun i => (List.range n).map fun j => D.data.getD ((i + 1) * (n + 1) + (j + 1)) 0⟩
  out := ⟨[(n : Int)], (List.range n).map fun j => D.data.getD (j + 1) 0⟩
  back := ⟨[(n : Int)], (List.range n).map fun i => D.data.getD ((i + 1) * (n + 1)) 0⟩
  demand := dropFirst demand

/-- The distances between locations, generators.py 357-365, with `root` for `np.sqrt`. -/
def planeDistances (root : Rat → Rat) (xs ys : List Rat) (x0 y0 : Rat) (demand : Arr Rat) : RoutingData where
  dist := ⟨[(xs.length : Int), (xs.length : Int)], (List.range xs.length).flatMap fun i => (List.range xs.length).map fun j =>
    root (((xs.getD i 0 - x0) - (xs.getD j 0 - x0)) ^ 2 + ((ys.getD i 0 - y0) - (ys.getD j 0 - y0)) ^ 2)⟩
  out := ⟨[(xs.length : Int)], (List.range xs.length).map fun i => root ((xs.getD i 0 - x0) ^ 2 + (ys.getD i 0 - y0) ^ 2)⟩
  back := ⟨[(xs.length : Int)], (List.range xs.length).map fun i => root ((xs.getD i 0 - x0) ^ 2 + (ys.getD i 0 - y0) ^ 2)⟩
  demand := demand

/-- The form with distances, generators.py 298-318. -/
def routingDistances (demand distances : Arr Rat) (depot : Option (Rat × Rat)) : Res RoutingData := do
  guardThrow (depot.isNone = true)
  let D ← require 2 false true true distances
  guardThrow (¬ D.shape.headD 0 < 2)
  guardThrow (D.shape.headD 0 = demand.shape.headD 0)
  guardThrow (demand.data.headD 0 = 0)
  .ok (splitDistances (D.shape.headD 0 - 1).toNat D demand)

/-- The form with locations, generators.py 321-365.  A missing array of locations becomes an array with one NaN and always ends in an
exception (lines 324, 333 or 357), and so does a number in place of an array (line 401, indexing a scalar). -/
def routingLocations (root : Rat → Rat) (demand : Arr Rat) (locX locY : Option (Arr Rat)) (depot : Option (Rat × Rat)) :
    Res RoutingData :=
  match locX, locY with
  | some x, some y => do
    guardThrow (x.shape.length = 1)
    guardThrow (y.shape.length = 1)
    guardThrow (x.shape = y.shape ∧ y.shape = demand.shape)
    guardThrow (¬ x.shape.headD 0 < 1)
    if demand.data.headD 0 = 0 then do
      guardThrow (¬ x.shape.headD 0 < 2)
      guardThrow (depot.isNone = true)
      .ok (planeDistances root (x.data.drop 1) (y.data.drop 1) (x.data.headD 0) (y.data.headD 0) (dropFirst demand))
    else
      match depot with
      | none => .throw
      | some p => .ok (planeDistances root x.data y.data p.1 p.2 demand)
  | _, _ => .throw

/-- Which form, generators.py 296, 320. -/
def routingData (root : Rat → Rat) (demand : Arr Rat) (distances locX locY : Option (Arr Rat)) (depot : Option (Rat × Rat)) :
    Res RoutingData :=
  match distances with
  | some D => routingDistances demand D depot
  | none => routingLocations root demand locX locY depot

/-- The symbols for one route, generators.py 401-405: what to add to the objective, and a constraint. -/
def route (dist out back demand capacity : Nat) (p : Generated × List Nat) (r : Nat) : Res (Generated × List Nat) := do
  let (s, first) ← p.1.rows.add (.basic [.slice none (some 1) none]) [r]
  let (s, start) ← s.add (.advanced [true]) [out, first]
  let (s, start) ← s.add (.kind (.reduce .sum 0)) [start]
  let (s, last) ← s.add (.basic [.slice (some (-1)) none none]) [r]
  let (s, end_) ← s.add (.advanced [true]) [back, last]
  let (s, end_) ← s.add (.kind (.reduce .sum 0)) [end_]
  let (s, source) ← s.add (.basic [.slice none (some (-1)) none]) [r]
  let (s, target) ← s.add (.basic [.slice (some 1) none none]) [r]
  let (s, legs) ← s.add (.advanced [true, true]) [dist, source, target]
  let (s, legs) ← s.add (.kind (.reduce .sum 0)) [legs]
  let (s, load) ← s.add (.advanced [true]) [demand, r]
  let (s, load) ← s.add (.kind (.reduce .sum 0)) [load]
  let (s, fits) ← s.add (.kind (.binary .lessEqual)) [load, capacity]
  let M ← Generated.addConstraint { p.1 with rows := s } fits
  .ok (M, p.2 ++ [start, end_, legs])

/-- The part that makes the model, generators.py 367-410. -/
def routing (data : RoutingData) (vehicles : Int) (capacity : Rat) : Res Generated := do
  guardThrow (¬ ∃ x ∈ data.demand.data, x = 0)
  let (s, dist) ← Script.add [] (.kind (.constant data.dist)) []
  let (s, out) ← s.add (.kind (.constant data.out)) []
  let (s, back) ← s.add (.kind (.constant data.back)) []
  let (s, demand) ← s.add (.kind (.constant data.demand)) []
  let (s, cap) ← s.add (.kind (.constant (scalar capacity))) []
  let (s, main) ← s.add (.kind (.disjointLists (data.demand.shape.headD 0) vehicles)) []
  let (s, routes) ← outputs s main vehicles.toNat
  let (M, costs) ← routes.foldlM (route dist out back demand cap) (⟨s, none, []⟩, [])
  let (s, total) ← M.rows.add (.kind (.nary .add)) costs
  Generated.minimize { M with rows := s } total

/-- `capacitated_vehicle_routing`, generators.py 215-410, with `root` for `np.sqrt`. -/
def vehicleRouting (root : Rat → Rat) (demand : Arr Rat) (vehicles : Int) (capacity : Rat) (distances locX locY : Option (Arr Rat))
    (depot : Option (Rat × Rat)) : Res Generated := do
  guardThrow (¬ vehicles < 1)
  guardThrow (¬ capacity ≤ 0)
  guardThrow (¬ (distances.isSome = true ∧ (locX.isSome = true ∨ locY.isSome = true)))
  let demand ← require 1 false true false demand
  guardThrow (¬ demand.data.sum > vehicles * capacity)
  let data ← routingData root demand distances locX locY depot
  routing data vehicles capacity

end Generators
end Verif
