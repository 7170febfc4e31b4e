import Verif.Model.Script
import Mathlib.Data.List.Sort

/-!
# The generators of models

`dwave/optimization/generators.py`.  Each generator first checks its arguments and then makes symbols, an objective and
constraints; the calls are those of the Python code in the order in which Python makes them.  `lock()` at the end is part of
`Generated.ops`.  Arguments that NumPy cannot turn into an array of numbers, infinities and NaN are not represented.
-/

namespace Verif

namespace Generators

/-- `_require`, generators.py 40-88, without the conversions by NumPy: the number of dimensions (more are an error, missing ones are
put in front), then `positive`, `nonnegative` and `square`. -/
def require (ndim : Nat) (positive nonnegative square : Bool) (a : Arr Rat) : Res (Arr Rat) := do
  guardThrow (a.shape.length ≤ ndim)
  guardThrow (positive = true → ∀ x ∈ a.data, ¬ x ≤ 0)
  guardThrow (nonnegative = true → ∀ x ∈ a.data, ¬ x < 0)
  guardThrow (square = true → (List.replicate (ndim - a.shape.length) 1 ++ a.shape).dedup.length ≤ 1)
  .ok ⟨List.replicate (ndim - a.shape.length) 1 ++ a.shape, a.data⟩

/-- A number as a symbol. -/
def scalar (x : Rat) : Arr Rat := ⟨[], [x]⟩

/-- `traveling_salesperson`, generators.py 1012-1105. -/
def travelingSalesperson (distances : Arr Rat) : Res Generated := do
  let D ← require 2 false true true distances
  let n := D.shape.headD 0
  let (s, cities) ← Script.add [] (.kind (.collection n n n)) []
  let (s, dist) ← s.add (.kind (.constant D)) []
  let (s, source) ← s.add (.basic [.slice none (some (-1)) none]) [cities]
  let (s, target) ← s.add (.basic [.slice (some 1) none none]) [cities]
  let (s, itinerary) ← s.add (.advanced [true, true]) [dist, source, target]
  let (s, last) ← s.add (.basic [.at (-1)]) [cities]
  let (s, first) ← s.add (.basic [.at 0]) [cities]
  let (s, back) ← s.add (.advanced [true, true]) [dist, last, first]
  let (s, length) ← s.add (.kind (.reduce .sum 0)) [itinerary]
  let (s, return_) ← s.add (.kind (.reduce .sum 0)) [back]
  let (s, travel) ← s.add (.kind (.binary .add)) [length, return_]
  Generated.minimize ⟨s, none, []⟩ travel

/-- `knapsack`, generators.py 887-951. -/
def knapsack (values weights : Arr Rat) (capacity : Rat) : Res Generated := do
  let W ← require 1 false true false weights
  let V ← require 1 false true false values
  guardThrow (W.shape = V.shape)
  guardThrow (¬ capacity ≤ 0)
  let n := W.shape.headD 0
  let (s, w) ← Script.add [] (.kind (.constant W)) []
  let (s, v) ← s.add (.kind (.constant ⟨V.shape, V.data.map (- ·)⟩)) []
  let (s, c) ← s.add (.kind (.constant (scalar capacity))) []
  let (s, items) ← s.add (.kind (.collection n 0 n)) []
  let (s, taken) ← s.add (.advanced [true]) [w, items]
  let (s, total) ← s.add (.kind (.reduce .sum 0)) [taken]
  let (s, fits) ← s.add (.kind (.binary .lessEqual)) [total, c]
  let M ← Generated.addConstraint ⟨s, none, []⟩ fits
  let (s, worth) ← s.add (.advanced [true]) [v, items]
  let (s, sum) ← s.add (.kind (.reduce .sum 0)) [worth]
  Generated.minimize { M with rows := s } sum

/-- `itertools.combinations(range(n), 2)`. -/
def pairs (n : Nat) : List (Nat × Nat) :=
  (List.range n).flatMap fun i => ((List.range n).filter fun j => i < j).map fun j => (i, j)

/-- The body of the loop over the jobs, generators.py 857-861.  `end_times[j, machines[j, :-1]]` first makes the index, then
`end_times[j, :]`, then indexes that (`_model.pyx` 1168-1177). -/
def jobConstraint (machines starts ends : Nat) (M : Generated) (j : Nat) : Res Generated := do
  let (s, before) ← M.rows.add (.basic [.at j, .slice none (some (-1)) none]) [machines]
  let (s, endsRow) ← s.add (.basic [.at j, .slice none none none]) [ends]
  let (s, e) ← s.add (.advanced [true]) [endsRow, before]
  let (s, after) ← s.add (.basic [.at j, .slice (some 1) none none]) [machines]
  let (s, startsRow) ← s.add (.basic [.at j, .slice none none none]) [starts]
  let (s, f) ← s.add (.advanced [true]) [startsRow, after]
  let (s, le) ← s.add (.kind (.binary .lessEqual)) [e, f]
  let (s, c) ← s.add (.kind (.reduce .all 1)) [le]
  Generated.addConstraint { M with rows := s } c

/-- Machines counted from one are counted from zero instead, generators.py 810-820. -/
def fromZero (machines : Arr Rat) : Arr Rat :=
  if ∀ x ∈ machines.data, x ≠ 0 then ⟨machines.shape, machines.data.map (· - 1)⟩ else machines

/-- `job_shop_scheduling`, generators.py 753-884, for arguments that are whole numbers (NumPy converts others with `dtype=int`).  The
first dimension is the number of jobs. -/
def jobShop (times machines : Arr Rat) (upper : Option Int) : Res Generated := do
  let T ← require 2 false true false times
  let K ← require 2 false true false machines
  guardThrow (T.shape = K.shape)
  guardThrow (T.shape.prod ≠ 0)
  let jobs := (T.shape.getD 0 0).toNat
  let num := (T.shape.getD 1 0).toNat
  let K := fromZero K
  guardThrow (∀ j ∈ List.range jobs,
    ((K.data.drop (j * num)).take num).insertionSort (· ≤ ·) = (List.range num).map fun k : Nat => (k : Rat))
  guardThrow (∀ u ∈ upper, ¬ u < 1)
  let ub := upper.getD ⌊T.data.sum⌋
  let (s, t) ← Script.add [] (.kind (.constant T)) []
  let (s, m) ← s.add (.kind (.constant K)) []
  let (s, starts) ← s.add (.kind (.integer T.shape (some 0) (some ub))) []
  let (s, ends) ← s.add (.kind (.binary .add)) [starts, t]
  let (s, last) ← s.add (.kind (.fold .max none)) [ends]
  let M ← Generated.minimize ⟨s, none, []⟩ last
  let M ← (List.range jobs).foldlM (jobConstraint m starts ends) M
  let (s, u) ← M.rows.add (.kind (.constant ⟨[((pairs jobs).length : Int)], (pairs jobs).map fun p => (p.1 : Rat)⟩)) []
  let (s, v) ← s.add (.kind (.constant ⟨[((pairs jobs).length : Int)], (pairs jobs).map fun p => (p.2 : Rat)⟩)) []
  let (s, endU) ← s.add (.advanced [true, false]) [ends, u]
  let (s, startV) ← s.add (.advanced [true, false]) [starts, v]
  let (s, first) ← s.add (.kind (.binary .lessEqual)) [endU, startV]
  let (s, endV) ← s.add (.advanced [true, false]) [ends, v]
  let (s, startU) ← s.add (.advanced [true, false]) [starts, u]
  let (s, second) ← s.add (.kind (.binary .lessEqual)) [endV, startU]
  let (s, either) ← s.add (.kind (.binary .or)) [first, second]
  let (s, c) ← s.add (.kind (.reduce .all 1)) [either]
  Generated.addConstraint { M with rows := s } c

/-- `quadratic_assignment`, generators.py 954-1009: `DISTANCE_MATRIX[x, :][:, x]` makes an advanced-indexing symbol, and then a
permutation instead of the second indexing (symbols.pyx 462-486). -/
def quadraticAssignment (distances flows : Arr Rat) : Res Generated := do
  let D ← require 2 false true true distances
  let F ← require 2 false true true flows
  guardThrow (D.shape = F.shape)
  let n := D.shape.headD 0
  let (s, x) ← Script.add [] (.kind (.collection n n n)) []
  let (s, d) ← s.add (.kind (.constant D)) []
  let (s, f) ← s.add (.kind (.constant F)) []
  let (s, _) ← s.add (.advanced [true, false]) [d, x]
  let (s, p) ← s.add .permutation [d, x]
  let (s, prod) ← s.add (.kind (.binary .multiply)) [f, p]
  let (s, total) ← s.add (.kind (.reduce .sum 0)) [prod]
  Generated.minimize ⟨s, none, []⟩ total

end Generators
end Verif
