import Verif.Model.GeneratorsRouting

/-!
# Generators of vehicle routing models with time windows

`capacitated_vehicle_routing_with_time_windows`, `dwave/optimization/generators.py`; see `Verif.Model.Generators` for what is simplified.
-/

namespace Verif

namespace Generators

/-- The arrays of constants, generators.py 517-557. -/
structure WindowsData where
  cust : Arr Rat
  out : Arr Rat
  back : Arr Rat
  opens : Arr Rat
  closes : Arr Rat
  service : Arr Rat
  demand : Arr Rat
  depotCloses : Rat

/-- `a = np.zeros(n + 1); a[:n] = values`, and then `a[-1] = last`. -/
def extend (n : Nat) (f : Nat → Rat) (last : Rat) : Arr Rat := ⟨[(n : Int) + 1], (List.range n).map f ++ [last]⟩

/-- The arrays for `n` customers, generators.py 517-557. -/
def windowsData (n : Nat) (D demand opens closes service : Arr Rat) : WindowsData where
  cust := ⟨[(n : Int) + 1, (n : Int) + 1], (List.range (n + 1)).flatMap fun i => (List.range (n + 1)).map fun j =>
    if i < n ∧ j < n then D.data.getD ((i + 1) * (n + 1) + (j + 1)) 0 else 0⟩
  out := extend n (fun j => D.data.getD (j + 1) 0) 0
  back := extend n (fun i => D.data.getD ((i + 1) * (n + 1)) 0) 0
  opens := extend n (fun i => opens.data.getD (i + 1) 0) 0
  closes := extend n (fun i => closes.data.getD (i + 1) 0) 1000000
  service := extend n (fun i => service.data.getD (i + 1) 0) 0
  demand := dropFirst demand
  depotCloses := closes.data.headD 0

/-- The constants that the loop over the vehicles uses. -/
structure WindowsSymbols where
  cust : Nat
  out : Nat
  back : Nat
  opens : Nat
  closes : Nat
  service : Nat
  one : Nat
  helper : Nat

/-- A symbol for each of `xs`, one after the other. -/
def each {α β : Type} (f : α → Script → Res (Script × β)) (xs : List α) (s : Script) : Res (Script × List β) :=
  xs.foldlM (fun p x => do
    let (s, y) ← f x p.1
    .ok (s, p.2 ++ [y])) (s, [])

/-- `for c in constraints: model.add_constraint(c)`. -/
def addConstraints (M : Generated) (cs : List Nat) : Res Generated := cs.foldlM Generated.addConstraint M

/-- `demand[route].sum() <= capacity`, generators.py 565-567. -/
def load (demand capacity route : Nat) (s : Script) : Res (Script × Nat) := do
  let (s, x) ← s.add (.advanced [true]) [demand, route]
  let (s, x) ← s.add (.kind (.reduce .sum 0)) [x]
  s.add (.kind (.binary .lessEqual)) [x, capacity]

/-- `size >= range_helper[k] + one`, generators.py 607; symbols have no `>=`, so Python asks for `range_helper[k] + one <= size`. -/
def reaches (c : WindowsSymbols) (size k : Nat) (s : Script) : Res (Script × Nat) := do
  let (s, x) ← s.add (.basic [.at k]) [c.helper]
  let (s, x) ← s.add (.kind (.binary .add)) [x, c.one]
  s.add (.kind (.binary .lessEqual)) [x, size]

/-- `where(condition, route[a:b].sum(), range_helper[-1])`, generators.py 612, 618, 621, 631. -/
def stop (c : WindowsSymbols) (route condition : Nat) (a b : Option Int) (s : Script) : Res (Script × Nat) := do
  let (s, x) ← s.add (.basic [.slice a b none]) [route]
  let (s, x) ← s.add (.kind (.reduce .sum 0)) [x]
  let (s, y) ← s.add (.basic [.at (-1)]) [c.helper]
  s.add (.kind .where_) [condition, x, y]

/-- When service begins, and the customer; generators.py 609-624.  `left` is the last element of `this_t_leaving`, which is empty
exactly if `k` is zero. -/
def serve (c : WindowsSymbols) (route condition k : Nat) (left : Option Nat) (s : Script) : Res (Script × Nat × Nat) :=
  match left with
  | none => do
    let (s, here) ← stop c route condition none (some 1) s
    let (s, x) ← s.add (.advanced [true]) [c.out, here]
    let (s, y) ← s.add (.advanced [true]) [c.opens, here]
    let (s, t) ← s.add (.kind (.binary .maximum)) [x, y]
    .ok (s, t, here)
  | some t => do
    let (s, before) ← stop c route condition (some (k - 1)) (some k) s
    let (s, here) ← stop c route condition (some k) (some (k + 1)) s
    let (s, x) ← s.add (.advanced [true, true]) [c.cust, before, here]
    let (s, x) ← s.add (.kind (.binary .add)) [t, x]
    let (s, y) ← s.add (.advanced [true]) [c.opens, here]
    let (s, t) ← s.add (.kind (.binary .maximum)) [x, y]
    .ok (s, t, here)

/-- The symbols for one place of a route, generators.py 603-628: the time when the vehicle leaves, and whether that is in time. -/
def place (c : WindowsSymbols) (route size : Nat) (p : Script × Option Nat × List Nat) (k : Nat) : Res (Script × Option Nat × List Nat) := do
  let (s, condition) ← reaches c size k p.1
  let (s, t, here) ← serve c route condition k p.2.1 s
  let (s, x) ← s.add (.advanced [true]) [c.service, here]
  let (s, leaving) ← s.add (.kind (.binary .add)) [t, x]
  let (s, x) ← s.add (.advanced [true]) [c.closes, here]
  let (s, ok) ← s.add (.kind (.binary .lessEqual)) [leaving, x]
  .ok (s, some leaving, p.2.2 ++ [ok])

/-- `this_t_leaving[-1] + t_to_depo[last_cust_idx]`, generators.py 633; without places there is no last element. -/
def homecoming (c : WindowsSymbols) (left : Option Nat) (last : Nat) (s : Script) : Res (Script × Nat) :=
  match left with
  | none => .throw
  | some t => do
    let (s, x) ← s.add (.advanced [true]) [c.back, last]
    s.add (.kind (.binary .add)) [t, x]

/-- The symbols for one vehicle with `most` places, generators.py 598-639: the constraints, and the time when it is back. -/
def timed (c : WindowsSymbols) (most : Nat) (p : Generated × List Nat) (r : Nat × Nat) : Res (Generated × List Nat) := do
  let (s, left, windows) ← (List.range most).foldlM (place c r.1 r.2) (p.1.rows, none, [])
  let (s, condition) ← s.add (.kind (.binary .lessEqual)) [c.one, r.2]
  let (s, last) ← stop c r.1 condition (some (-1)) none s
  let (s, home) ← homecoming c left last s
  let M ← addConstraints { p.1 with rows := s } windows
  .ok (M, p.2 ++ [home])

/-- What a route adds to the objective, generators.py 649-652. -/
def travel (c : WindowsSymbols) (p : Script × List Nat) (r : Nat) : Res (Script × List Nat) := do
  let (s, x) ← p.1.add (.basic [.slice none (some 1) none]) [r]
  let (s, x) ← s.add (.advanced [true]) [c.out, x]
  let (s, start) ← s.add (.kind (.reduce .sum 0)) [x]
  let (s, x) ← s.add (.basic [.slice (some (-1)) none none]) [r]
  let (s, x) ← s.add (.advanced [true]) [c.back, x]
  let (s, end_) ← s.add (.kind (.reduce .sum 0)) [x]
  let (s, x) ← s.add (.basic [.slice (some 1) none none]) [r]
  let (s, y) ← s.add (.basic [.slice none (some (-1)) none]) [r]
  let (s, x) ← s.add (.advanced [true, true]) [c.cust, x, y]
  let (s, legs) ← s.add (.kind (.reduce .sum 0)) [x]
  .ok (s, p.2 ++ [start, end_, legs])

/-- `t_to_depo`, generators.py 528-532: the same symbol as `t_from_depo`, the last one made, if the arrays are equal. -/
def backSymbol (data : WindowsData) (s : Script) (out : Nat) : Res (Script × Nat) :=
  if data.out.data = data.back.data then .ok (s, out) else s.add (.kind (.constant data.back)) []

/-- The constants, generators.py 528-557: those for the loop (but `range_helper`), the demands, the capacity and the closing time of the
depot. -/
def windowsConstants (data : WindowsData) (capacity : Rat) : Res (Script × WindowsSymbols × Nat × Nat × Nat) := do
  let (s, out) ← Script.add [] (.kind (.constant data.out)) []
  let (s, back) ← backSymbol data s out
  let (s, cust) ← s.add (.kind (.constant data.cust)) []
  let (s, opens) ← s.add (.kind (.constant data.opens)) []
  let (s, closes) ← s.add (.kind (.constant data.closes)) []
  let (s, service) ← s.add (.kind (.constant data.service)) []
  let (s, demand) ← s.add (.kind (.constant data.demand)) []
  let (s, capacity) ← s.add (.kind (.constant (scalar capacity))) []
  let (s, depot) ← s.add (.kind (.constant (scalar data.depotCloses))) []
  let (s, one) ← s.add (.kind (.constant (scalar 1))) []
  .ok (s, ⟨cust, out, back, opens, closes, service, one, 0⟩, demand, capacity, depot)

/-- The constraints, generators.py 564-643. -/
def windowsConstraints (c : WindowsSymbols) (n v demand capacity depot : Nat) (routes : List Nat) (s : Script) :
    Res (Generated × WindowsSymbols) := do
  let (s, loads) ← each (load demand capacity) routes s
  let M ← addConstraints ⟨s, none, []⟩ loads
  let (s, helper) ← M.rows.add (.kind (.constant ⟨[(n : Int) + 1], (List.range (n + 1)).map fun k : Nat => (k : Rat)⟩)) []
  let (s, sizes) ← each (fun r s => s.add (.kind .size) [r]) routes s
  let (s, most) ← s.add (.kind (.constant (scalar (3 * (n / v) : Nat)))) []
  let (s, short) ← each (fun z s => s.add (.kind (.binary .lessEqual)) [z, most]) sizes s
  let M ← addConstraints { M with rows := s } short
  let (M, homes) ← (routes.zip sizes).foldlM (timed { c with helper := helper } (3 * (n / v))) (M, [])
  let (s, home) ← each (fun t s => s.add (.kind (.binary .lessEqual)) [t, depot]) homes M.rows
  let M ← addConstraints { M with rows := s } home
  .ok (M, { c with helper := helper })

/-- The part that makes the model, generators.py 513-655, for `n` customers and `v` vehicles. -/
def windows (data : WindowsData) (n v : Nat) (capacity : Rat) : Res Generated := do
  let (s, c, demand, capacity, depot) ← windowsConstants data capacity
  let (s, main) ← s.add (.kind (.disjointLists n v)) []
  let (s, routes) ← outputs s main v
  let (M, c) ← windowsConstraints c n v demand capacity depot routes s
  let (s, costs) ← routes.foldlM (travel c) (M.rows, [])
  let (s, total) ← s.add (.kind (.nary .add)) costs
  Generated.minimize { M with rows := s } total

/-- `capacitated_vehicle_routing_with_time_windows`, generators.py 413-655. -/
def timeWindows (demand : Arr Rat) (vehicles : Int) (capacity : Rat) (distances opens closes service : Arr Rat) : Res Generated := do
  guardThrow (¬ vehicles < 1)
  guardThrow (¬ capacity ≤ 0)
  let demand ← require 1 false true false demand
  guardThrow (¬ demand.data.sum > vehicles * capacity)
  let D ← require 2 false true true distances
  let opens ← require 1 false true false opens
  let closes ← require 1 false true false closes
  let service ← require 1 false true false service
  guardThrow (¬ D.shape.headD 0 < 2)
  guardThrow (D.shape.headD 0 = demand.shape.headD 0)
  guardThrow (D.shape.headD 0 = opens.shape.headD 0)
  guardThrow (D.shape.headD 0 = closes.shape.headD 0)
  guardThrow (D.shape.headD 0 = service.shape.headD 0)
  guardThrow (demand.data.headD 0 = 0)
  guardThrow (¬ ∃ x ∈ demand.data.drop 1, x = 0)
  windows (windowsData (D.shape.headD 0 - 1).toNat D demand opens closes service) (D.shape.headD 0 - 1).toNat vehicles.toNat capacity

end Generators
end Verif
