import Verif.Lemmas.WindowFails
import Verif.Props.GeneratorsRouting

set_option linter.unusedSectionVars false
set_option linter.unusedSimpArgs false
set_option linter.unusedVariables false

/-! Property C57: the generated models of vehicle routing with time windows. -/

namespace Verif

open Script Graph

/-- Arguments as the documentation asks for: times between a depot and at least one customer, demands of the customers (and none at the
depot) that all vehicles together can carry, opening, closing and service times. -/
structure TimedArgs (n v : Nat) (c : Rat) (demands dist opening closing serving : Arr Rat) : Prop where
  distances : dist.IsMatrix (n + 1) (n + 1)
  distances_nonneg : ∀ x ∈ dist.data, 0 ≤ x
  demand : demands.IsVector (n + 1)
  depot : demands.elem 0 = 0
  demand_pos : ∀ i < n, 0 < demands.elem (i + 1)
  total : demands.data.sum ≤ v * c
  opens : opening.IsVector (n + 1)
  opens_nonneg : ∀ x ∈ opening.data, 0 ≤ x
  closes : closing.IsVector (n + 1)
  closes_nonneg : ∀ x ∈ closing.data, 0 ≤ x
  service : serving.IsVector (n + 1)
  service_nonneg : ∀ x ∈ serving.data, 0 ≤ x
  customers : 0 < n
  size : (n : Int) + 1 < ssMax
  vehicles : 0 < v
  capacity : 0 < c

section helpers

variable {n vehicles : Nat} {capacity : Rat} {demand distances opens closes service : Arr Rat}

theorem extend_vector (f : Nat → Rat) (x : Rat) : (Generators.extend n f x).IsVector (n + 1) := by
  refine ⟨?_, ?_⟩ <;> simp [Generators.extend]

theorem extend_lt (f : Nat → Rat) (x : Rat) {i : Nat} (h : i < n) : (Generators.extend n f x).data.getD i 0 = f i := by
  show ((List.range n).map f ++ [x]).getD i 0 = _
  rw [List.getD_eq_getElem?_getD, List.getElem?_append_left (by simpa using h), ← List.getD_eq_getElem?_getD]
  exact getD_row f h

theorem extend_last (f : Nat → Rat) (x : Rat) : (Generators.extend n f x).data.getD n 0 = x := by
  show ((List.range n).map f ++ [x]).getD n 0 = _
  rw [List.getD_eq_getElem?_getD, List.getElem?_append_right (by simp)]
  simp

theorem windowsData_shaped (hw : demand.IsVector (n + 1)) : (Generators.windowsData n distances demand opens closes service).Shaped n where
  cust := ⟨by simp [Generators.windowsData], length_table _ _ _⟩
  out := extend_vector _ _
  back := extend_vector _ _
  opens := extend_vector _ _
  closes := extend_vector _ _
  service := extend_vector _ _
  demand := dropFirst_vector hw

theorem windowsData_agrees : (timedRoutingOf n vehicles capacity distances demand opens closes service).Agrees
    (Generators.windowsData n distances demand opens closes service).tables where
  dist := fun i (hi : i < n) j (hj : j < n) => (getD_table _ _ _ (show i < n + 1 by omega) (show j < n + 1 by omega)).trans (if_pos ⟨hi, hj⟩)
  out := fun i hi => (extend_lt _ _ hi).trans (by
    show _ = distances.data.getD (0 * (n + 1) + (i + 1)) 0
    rw [Nat.zero_mul, Nat.zero_add])
  back := fun i hi => extend_lt _ _ hi
  opens := fun i hi => extend_lt _ _ hi
  closes := fun i hi => extend_lt _ _ hi
  service := fun i hi => extend_lt _ _ hi
  distEnd := (getD_table _ _ _ (Nat.lt_succ_self n) (Nat.lt_succ_self n)).trans (if_neg (by omega))
  outEnd := extend_last _ _
  backEnd := extend_last _ _
  opensEnd := extend_last _ _
  closesEnd := extend_last _ _
  serviceEnd := extend_last _ _

theorem timeWindows_eq (h : TimedArgs n vehicles capacity demand distances opens closes service) :
    Generators.timeWindows demand vehicles capacity distances opens closes service =
      Generators.windows (Generators.windowsData n distances demand opens closes service) n vehicles capacity := by
  have hw := h.demand
  have h1 := h.vehicles
  have h2 := h.customers
  unfold Generators.timeWindows
  rw [guardThrow_true (by omega), Res.ok_bind, guardThrow_true (not_le.2 h.capacity), Res.ok_bind,
    require_ok (by rw [hw.1]; rfl) (by simp) (fun _ => elem_nonneg hw h.depot h.demand_pos) (by simp), Res.ok_bind,
    guardThrow_true (by exact_mod_cast not_lt.2 h.total), Res.ok_bind,
    require_ok (by rw [h.distances.1]; rfl) (by simp) (fun _ => h.distances_nonneg) (by rw [h.distances.1]; simp), Res.ok_bind,
    require_ok (by rw [h.opens.1]; rfl) (by simp) (fun _ => h.opens_nonneg) (by simp), Res.ok_bind,
    require_ok (by rw [h.closes.1]; rfl) (by simp) (fun _ => h.closes_nonneg) (by simp), Res.ok_bind,
    require_ok (by rw [h.service.1]; rfl) (by simp) (fun _ => h.service_nonneg) (by simp), Res.ok_bind,
    h.distances.1, hw.1, h.opens.1, h.closes.1, h.service.1, guardThrow_true (by simp; omega), Res.ok_bind,
    guardThrow_true (by simp), Res.ok_bind, Res.ok_bind, Res.ok_bind, Res.ok_bind, guardThrow_true ((headD_eq_elem _).trans h.depot), Res.ok_bind,
    guardThrow_true (by
      rintro ⟨x, hx, e⟩
      exact elem_drop_pos hw h.demand_pos x hx e), Res.ok_bind]
  simp

theorem vector_nonneg {a : Arr Rat} {k : Nat} (h : a.IsVector k) (h0 : ∀ x ∈ a.data, 0 ≤ x) {i : Nat} (hi : i < k) : 0 ≤ a.elem i := by
  rw [Arr.elem, getD_of_lt (by rw [h.2]; exact hi)]
  exact h0 _ (List.getElem_mem _)

/-- Problems with the same solutions, costs and feasible solutions are the same. -/
theorem Generated.Tracks.of_eq {α : Type} {M : Generated} {m : PyModel} {p q : Problem α} (h : M.Tracks p m) (hv : ∀ a, p.valid a ↔ q.valid a)
    (hval : p.values = q.values) (he : ∀ a, p.valid a → p.cost a = q.cost a ∧ (p.feasible a ↔ q.feasible a)) : M.Tracks q m := by
  have hr : ∀ {vals : Nat → Val} {a : α}, p.Represents m.g vals a → q.Represents m.g vals a := by
    intro vals a r
    obtain ⟨b, e, hb⟩ := r.feasible
    exact ⟨(hv a).1 r.valid, by rw [← hval]; exact r.decisions, by rw [← (he a r.valid).1]; exact r.energy, b, e, hb.trans (he a r.valid).2⟩
  refine ⟨⟨h.built, h.locked, fun a ha => ?_, fun A hA => ?_⟩, fun A st hA hs ps hps r hh => ?_⟩
  · obtain ⟨h1, st, h2, h3⟩ := h.sets a ((hv a).2 ha)
    rw [← hval]
    exact ⟨h1, st, h2, hr h3⟩
  · obtain ⟨st, a, h1, h2⟩ := h.states A hA
    exact ⟨st, a, h1, hr h2⟩
  · obtain ⟨⟨a, h1⟩, h2⟩ := h.history A st hA hs ps hps r hh
    refine ⟨⟨a, hr h1⟩, fun q hq moved hm => ?_⟩
    obtain ⟨seen, r', k1, ⟨a', k2⟩, k3⟩ := h2 q hq moved hm
    exact ⟨seen, r', k1, ⟨a', hr k2⟩, k3⟩

theorem length_flip {p : Routing} (hs : ∀ i < p.customers, ∀ j < p.customers, p.dist i j = p.dist j i) : ∀ {r : List Nat}, (∀ i ∈ r, i < p.customers) →
    ({ p with dist := fun i j => p.dist j i } : Routing).length r = p.length r
  | [], _ => rfl
  | a :: l, h => by
    have : ∀ (l : List Nat) (a : Nat), (∀ i ∈ a :: l, i < p.customers) →
        ({ p with dist := fun i j => p.dist j i } : Routing).wayHome a l = p.wayHome a l := by
      intro l
      induction l with
      | nil => intro a _; rfl
      | cons b l ih =>
        intro a h
        show p.dist b a + _ = p.dist a b + _
        rw [hs a (h a (by simp)) b (h b (by simp)), ih b fun i hi => h i (by simp at hi ⊢; tauto)]
    show p.out a + _ = p.out a + _
    rw [this l a h]

theorem lastDeparture_le {p : TimedRouting} (hb : ∀ i < p.customers, 0 ≤ p.back i) (hd : 0 ≤ p.depotCloses) {r : List Nat} (hl : ∀ i ∈ r, i < p.customers)
    (h : p.Punctual r) : p.lastDeparture r ≤ p.depotCloses := by
  cases r with
  | nil => exact hd
  | cons a l =>
    have := ((p.inTime_iff l _ a).1 h).2
    have h0 := hb _ (getD_lt hl (k := l.length) (by simp))
    show p.departure (p.out a) a l ≤ _
    linarith

end helpers

section

variable {n vehicles : Nat} {capacity : Rat} {demand distances opens closes service : Arr Rat}

/-- C57, what holds in general: if `3 * (n / vehicles)` is at least one and at most the number of places, the generated model can be built and
locked, its states are exactly the ways to divide the customers into an ordered route for each vehicle, and it is feasible exactly if no route
has more demand than a vehicle can carry, every vehicle can be in time, no route has more than `3 * (n / vehicles)` customers, and on a route with
fewer the last customer can be left by the time `1000000`.  The objective is the length of all routes where between customers the way back counts.
This stays so after every history of proposals.  Missing for C57: other numbers of vehicles, and the problem itself; see the `_fails`. -/
theorem C57_limited_partial (h : TimedArgs n vehicles capacity demand distances opens closes service) (hm0 : 0 < 3 * (n / vehicles))
    (hm : 3 * (n / vehicles) ≤ n + 1) :
    ∃ M m, Generators.timeWindows demand vehicles capacity distances opens closes service = .ok M ∧
      M.Tracks ((timedRoutingOf n vehicles capacity distances demand opens closes service).limited (3 * (n / vehicles))) m := by
  obtain ⟨M, e, hp⟩ := windows_proves (full := True) (p := timedRoutingOf n vehicles capacity distances demand opens closes service)
    (windowsData_shaped h.demand) windowsData_agrees (fun i _ => getD_drop_one _ _) (headD_eq_elem _)
    (fun i (hi : i < n) => vector_nonneg h.opens h.opens_nonneg (by omega)) (fun i (hi : i < n) => vector_nonneg h.service h.service_nonneg (by omega))
    (vector_nonneg h.closes h.closes_nonneg (by omega)) h.customers h.vehicles h.size hm0 hm
  obtain ⟨m, hm⟩ := hp.tracks
  exact ⟨M, m, (timeWindows_eq h).trans e, hm⟩

/-- C57 with a limit for the number of customers: if moreover every way between customers takes as long as the way back, and the depot closes at the
time `1000000` at the latest, then the model encodes the problem with at most `3 * (n / vehicles)` customers on a route.  Missing for C57:
see the `_fails`. -/
theorem C57_stops_partial (h : TimedArgs n vehicles capacity demand distances opens closes service) (hm0 : 0 < 3 * (n / vehicles))
    (hm : 3 * (n / vehicles) ≤ n + 1)
    (hsym : ∀ i < n, ∀ j < n, distances.entry (n + 1) (i + 1) (j + 1) = distances.entry (n + 1) (j + 1) (i + 1))
    (hlate : closes.elem 0 ≤ 1000000) :
    ∃ M m, Generators.timeWindows demand vehicles capacity distances opens closes service = .ok M ∧
      M.Tracks ((timedRoutingOf n vehicles capacity distances demand opens closes service).atMost (3 * (n / vehicles))) m := by
  obtain ⟨M, m, e, ht⟩ := C57_limited_partial h hm0 hm
  refine ⟨M, m, e, ht.of_eq (fun _ => Iff.rfl) rfl fun routes hr => ?_⟩
  have hlt : ∀ r ∈ routes, ∀ i ∈ r, i < n := fun r h => (part_lt hr.2 h).1
  refine ⟨?_, ?_⟩
  · show (routes.map _).sum = (routes.map _).sum
    refine congrArg List.sum (List.map_congr_left fun r h => ?_)
    exact length_flip (p := routingOf n vehicles distances demand capacity) hsym (hlt r h)
  · have hback : ∀ i < n, 0 ≤ (timedRoutingOf n vehicles capacity distances demand opens closes service).back i := by
      intro i hi
      show 0 ≤ distances.data.getD ((i + 1) * (n + 1) + 0) 0
      rw [getD_of_lt (by rw [h.distances.2]; nlinarith)]
      exact h.distances_nonneg _ (List.getElem_mem _)
    constructor
    · exact fun k => ⟨fun r hr' => ⟨(k r hr').1, (k r hr').2.1⟩, fun r hr' => (k r hr').2.2.1⟩
    · exact fun k r hr' => ⟨(k.1 r hr').1, (k.1 r hr').2, k.2 r hr', fun _ => le_trans
        (lastDeparture_le hback (vector_nonneg h.closes h.closes_nonneg (by omega)) (hlt r hr') (k.1 r hr').2) hlate⟩

/-- C57, for problems where the limit is no limit, as `n ≤ 3 * (n / vehicles)`: the model encodes the problem.  Missing for C57: see the `_fails`. -/
theorem C57_partial (h : TimedArgs n vehicles capacity demand distances opens closes service) (hm0 : n ≤ 3 * (n / vehicles))
    (hm : 3 * (n / vehicles) ≤ n + 1)
    (hsym : ∀ i < n, ∀ j < n, distances.entry (n + 1) (i + 1) (j + 1) = distances.entry (n + 1) (j + 1) (i + 1))
    (hlate : closes.elem 0 ≤ 1000000) :
    ∃ M m, Generators.timeWindows demand vehicles capacity distances opens closes service = .ok M ∧
      M.Tracks (timedRoutingOf n vehicles capacity distances demand opens closes service).problem m := by
  have := h.customers
  obtain ⟨M, m, e, ht⟩ := C57_stops_partial h (by omega) hm hsym hlate
  refine ⟨M, m, e, ht.of_eq (fun _ => Iff.rfl) rfl fun routes hr => ⟨rfl, fun k => k.1, fun k => ⟨k, fun r h => ?_⟩⟩⟩
  exact le_trans (part_lt hr.2 h).2 hm0

/-- C57 fails for few vehicles: if `3 * (n / vehicles)` is greater than the number of places, an exception is thrown. -/
theorem C57_few_vehicles_fails (h : TimedArgs n vehicles capacity demand distances opens closes service) (hm : n + 1 < 3 * (n / vehicles)) :
    Generators.timeWindows demand vehicles capacity distances opens closes service = .throw :=
  (timeWindows_eq h).trans (windows_throw (windowsData_shaped h.demand) _ h.customers h.vehicles h.size (.inr hm))

/-- C57 fails for one vehicle, always. -/
theorem C57_one_vehicle_fails (h : TimedArgs n 1 capacity demand distances opens closes service) :
    Generators.timeWindows demand 1 capacity distances opens closes service = .throw :=
  C57_few_vehicles_fails h (by have := h.customers; rw [Nat.div_one]; omega)

/-- C57 fails for more vehicles than customers, always. -/
theorem C57_many_vehicles_fails (h : TimedArgs n vehicles capacity demand distances opens closes service) (hv : n < vehicles) :
    Generators.timeWindows demand vehicles capacity distances opens closes service = .throw :=
  (timeWindows_eq h).trans (windows_throw (windowsData_shaped h.demand) _ h.customers h.vehicles h.size (.inl (by rw [Nat.div_eq_of_lt hv])))

end

instance (p : TimedRouting) (now : Rat) (a : Nat) (l : List Nat) : Decidable (p.InTime now a l) := decidable_of_iff _ (p.inTime_iff l now a).symm

instance (p : TimedRouting) : ∀ r : List Nat, Decidable (p.Punctual r)
  | [] => .isTrue trivial
  | a :: l => inferInstanceAs (Decidable (p.InTime (p.out a) a l))

/-- Problem instances with arguments that can be checked. -/
structure TimedInstance where
  customers : Nat
  vehicles : Nat
  capacity : Rat
  demand : List Rat
  distances : List Rat
  opens : List Rat
  closes : List Rat
  service : List Rat

namespace TimedInstance

def vector (i : TimedInstance) (l : List Rat) : Arr Rat := ⟨[((i.customers + 1 : Nat) : Int)], l⟩
def matrix (i : TimedInstance) : Arr Rat := ⟨[((i.customers + 1 : Nat) : Int), ((i.customers + 1 : Nat) : Int)], i.distances⟩

def routing (i : TimedInstance) : TimedRouting :=
  timedRoutingOf i.customers i.vehicles i.capacity i.matrix (i.vector i.demand) (i.vector i.opens) (i.vector i.closes) (i.vector i.service)

def model (i : TimedInstance) : Res Generated :=
  Generators.timeWindows (i.vector i.demand) i.vehicles i.capacity i.matrix (i.vector i.opens) (i.vector i.closes) (i.vector i.service)

def Args (i : TimedInstance) : Prop :=
  TimedArgs i.customers i.vehicles i.capacity (i.vector i.demand) i.matrix (i.vector i.opens) (i.vector i.closes) (i.vector i.service)

end TimedInstance

/-- Three customers; customer 1 can be served late only. -/
def threeCustomers : TimedInstance :=
  ⟨3, 3, 4, [0, 2, 1, 5/2], [0, 1, 5, 2,  2, 0, 7/2, 4,  9, 7/2, 0, 3,  1, 4, 3, 0], [0, 0, 10, 0], [40, 9, 20, 8], [0, 1, 1, 2]⟩

theorem threeCustomers_args : threeCustomers.Args :=
  ⟨⟨rfl, rfl⟩, by decide +kernel, ⟨rfl, rfl⟩, by decide +kernel, by decide +kernel, by decide +kernel, ⟨rfl, rfl⟩, by decide +kernel, ⟨rfl, rfl⟩,
    by decide +kernel, ⟨rfl, rfl⟩, by decide +kernel, by decide, by decide, by decide, by decide +kernel⟩

example : ∃ M m, threeCustomers.model = .ok M ∧ M.Tracks threeCustomers.routing.problem m :=
  C57_partial threeCustomers_args (by decide) (by decide) (by decide +kernel) (by decide +kernel)

-- from the depot to customer 0, then 1 (waiting until 10) and back: in time; first 1 and then 0: not
example : threeCustomers.routing.problem.feasible [[0, 1], [2], []] := by
  show ∀ r ∈ _, _ ∧ _
  decide +kernel
example : ¬ threeCustomers.routing.problem.feasible [[1, 0], [2], []] := by
  show ¬ ∀ r ∈ _, _ ∧ _
  decide +kernel
example : threeCustomers.routing.lastDeparture [0, 1] = 11 := by decide +kernel
example : threeCustomers.routing.problem.cost [[0, 1], [2], []] = (1 + 7/2 + 9) + (2 + 1) := by decide +kernel

-- four customers and two vehicles: `3 * (4 / 2)` is more than the five places
def fourCustomers (vehicles : Nat) (capacity : Rat) : TimedInstance :=
  ⟨4, vehicles, capacity, [0, 1, 1, 1, 1], List.replicate 25 1, [0, 0, 0, 0, 0], [9, 9, 9, 9, 9], [0, 0, 0, 0, 0]⟩

example : (fourCustomers 2 2).model = .throw :=
  C57_few_vehicles_fails (n := 4) (vehicles := 2)
    ⟨⟨rfl, rfl⟩, by decide +kernel, ⟨rfl, rfl⟩, by decide +kernel, by decide +kernel, by decide +kernel, ⟨rfl, rfl⟩, by decide +kernel, ⟨rfl, rfl⟩,
    by decide +kernel, ⟨rfl, rfl⟩, by decide +kernel, by decide, by decide, by decide, by decide +kernel⟩ (by decide)

example : (fourCustomers 1 4).model = .throw :=
  C57_one_vehicle_fails (n := 4)
    ⟨⟨rfl, rfl⟩, by decide +kernel, ⟨rfl, rfl⟩, by decide +kernel, by decide +kernel, by decide +kernel, ⟨rfl, rfl⟩, by decide +kernel, ⟨rfl, rfl⟩,
    by decide +kernel, ⟨rfl, rfl⟩, by decide +kernel, by decide, by decide, by decide, by decide +kernel⟩

example : (fourCustomers 5 1).model = .throw :=
  C57_many_vehicles_fails (n := 4) (vehicles := 5)
    ⟨⟨rfl, rfl⟩, by decide +kernel, ⟨rfl, rfl⟩, by decide +kernel, by decide +kernel, by decide +kernel, ⟨rfl, rfl⟩, by decide +kernel, ⟨rfl, rfl⟩,
    by decide +kernel, ⟨rfl, rfl⟩, by decide +kernel, by decide, by decide, by decide, by decide +kernel⟩ (by decide)

-- with as many vehicles as customers, routes have at most three
example : ∃ M m, (fourCustomers 4 1).model = .ok M ∧ M.Tracks ((fourCustomers 4 1).routing.atMost 3) m :=
  C57_stops_partial (n := 4) (vehicles := 4)
    ⟨⟨rfl, rfl⟩, by decide +kernel, ⟨rfl, rfl⟩, by decide +kernel, by decide +kernel, by decide +kernel, ⟨rfl, rfl⟩, by decide +kernel, ⟨rfl, rfl⟩,
    by decide +kernel, ⟨rfl, rfl⟩, by decide +kernel, by decide, by decide, by decide, by decide +kernel⟩ (by decide) (by decide) (by decide +kernel)
    (by decide +kernel)

/-- A town where it takes one from customer 0 to customer 1 and five back. -/
def oneWay : TimedInstance := ⟨2, 2, 2, [0, 1, 1], [0, 1, 1,  1, 0, 1,  1, 5, 0], [0, 0, 0], [100, 100, 100], [0, 0, 0]⟩

theorem oneWay_args : oneWay.Args :=
  ⟨⟨rfl, rfl⟩, by decide +kernel, ⟨rfl, rfl⟩, by decide +kernel, by decide +kernel, by decide +kernel, ⟨rfl, rfl⟩, by decide +kernel, ⟨rfl, rfl⟩,
    by decide +kernel, ⟨rfl, rfl⟩, by decide +kernel, by decide, by decide, by decide, by decide +kernel⟩

/-- C57 fails if the way back takes another time than the way there: the objective is not the length of the routes. -/
theorem C57_oneway_fails : ∃ M, oneWay.model = .ok M ∧ ∀ m, ¬ M.Encodes oneWay.routing.problem m := by
  obtain ⟨M, m, e, ht⟩ := C57_limited_partial oneWay_args (by decide) (by decide)
  refine ⟨M, e, fun m' h => ?_⟩
  have hm := h.built.symm.trans ht.built
  cases hm
  have := (ht.toEncodes.agree h (a := [[0, 1], []]) ⟨rfl, by decide⟩ ⟨rfl, by decide⟩ rfl).1
  revert this
  decide +kernel

/-- No state of the model is feasible. -/
def Generated.NoFeasible (M : Generated) (m : PyModel) : Prop :=
  PyModel.new.run M.ops = .ok m ∧ ∀ A st, M.rows.Accepts m.g A → M.rows.Starts m.g A st → m.g.feasible (M.rows.shown st) = .ok false

theorem Generated.Encodes.noFeasible {α : Type} {M : Generated} {p : Problem α} {m : PyModel} (h : M.Encodes p m) (hp : ∀ a, p.valid a → ¬ p.feasible a) :
    M.NoFeasible m := by
  refine ⟨h.built, fun A st hA hs => ?_⟩
  obtain ⟨st', a, hs', hr⟩ := h.states A hA
  obtain ⟨b, e, hb⟩ := (h.represents hs' hs hr).feasible
  rw [e]
  cases b
  · rfl
  · exact absurd (hb.1 rfl) (hp a hr.valid)

/-- Four customers in a row behind each other. -/
def behind : TimedInstance := ⟨4, 4, 4, [0, 1, 1, 1, 1], [0, 1, 9, 9, 9,  1, 0, 1, 2, 3,  9, 1, 0, 1, 2,  9, 2, 1, 0, 1,  9, 3, 2, 1, 0], [0, 0, 0, 0, 0],
  [100, 8, 8, 8, 8], [0, 0, 0, 0, 0]⟩

theorem behind_args : behind.Args :=
  ⟨⟨rfl, rfl⟩, by decide +kernel, ⟨rfl, rfl⟩, by decide +kernel, by decide +kernel, by decide +kernel, ⟨rfl, rfl⟩, by decide +kernel, ⟨rfl, rfl⟩,
    by decide +kernel, ⟨rfl, rfl⟩, by decide +kernel, by decide, by decide, by decide, by decide +kernel⟩

theorem inTime_now {p : TimedRouting} {now : Rat} {a : Nat} {l : List Nat} (h : p.InTime now a l) (hs : 0 ≤ p.service a) : now ≤ p.closes a := by
  cases l <;> (obtain ⟨t, h1, h2, h3, _⟩ := h; linarith)

theorem flatten_le {routes : List (List Nat)} (h : ∀ r ∈ routes, r.length ≤ 3 * r.count 0) : routes.flatten.length ≤ 3 * routes.flatten.count 0 := by
  induction routes with
  | nil => simp
  | cons r l ih =>
    have h1 := h r (by simp)
    have h2 := ih fun r hr => h r (by simp [hr])
    simp only [List.flatten_cons, List.length_append, List.count_append]
    omega

/-- C57 fails for problems that need routes of more than `3 * (n / vehicles)` customers: the problem has a solution, here one vehicle visiting all, the
model has none. -/
theorem C57_stops_fails : (∃ a, behind.routing.problem.valid a ∧ behind.routing.problem.feasible a) ∧ ∃ M m, behind.model = .ok M ∧ M.NoFeasible m := by
  refine ⟨⟨[[0, 1, 2, 3], [], [], []], ⟨rfl, by decide⟩, ?_⟩, ?_⟩
  · show ∀ r ∈ _, _ ∧ _
    decide +kernel
  obtain ⟨M, m, e, ht⟩ := C57_limited_partial behind_args (by decide) (by decide)
  refine ⟨M, m, e, ht.toEncodes.noFeasible fun routes hv hf => ?_⟩
  have hlt : ∀ r ∈ routes, ∀ i ∈ r, i < 4 := fun r h => (part_lt hv.2 h).1
  have key := flatten_le (routes := routes) fun r hr => by
    obtain ⟨_, h2, h3, _⟩ := hf r hr
    rcases r with _ | ⟨a, l⟩
    · simp
    have h4 := hlt _ hr a (by simp)
    have : a = 0 := by
      have hs : ∀ a < 4, 0 ≤ behind.routing.service a := by decide +kernel
      have h5 := inTime_now h2 (hs a h4)
      have : ∀ a < 4, behind.routing.out a ≤ behind.routing.closes a → a = 0 := by decide +kernel
      exact this a h4 h5
    subst this
    rw [List.count_cons_self]
    have : (0 :: l).length ≤ 3 := h3
    omega
  rw [hv.2.length_eq, hv.2.count_eq] at key
  revert key
  decide

/-- Two customers whose time windows begin at `2000000`. -/
def late : TimedInstance := ⟨2, 2, 2, [0, 1, 1], List.replicate 9 1, [0, 2000000, 2000000], [4000000, 3000000, 3000000], [0, 0, 0]⟩

theorem late_args : late.Args :=
  ⟨⟨rfl, rfl⟩, by decide +kernel, ⟨rfl, rfl⟩, by decide +kernel, by decide +kernel, by decide +kernel, ⟨rfl, rfl⟩, by decide +kernel, ⟨rfl, rfl⟩,
    by decide +kernel, ⟨rfl, rfl⟩, by decide +kernel, by decide, by decide, by decide, by decide +kernel⟩

theorem opens_le_departure {p : TimedRouting} {c : Rat} (ho : ∀ i < p.customers, c ≤ p.opens i) (hs : ∀ i < p.customers, 0 ≤ p.service i) :
    ∀ (l : List Nat) (now : Rat) (a : Nat), (∀ i ∈ a :: l, i < p.customers) → c ≤ p.departure now a l
  | [], now, a, h => by
    have h1 := ho a (h a (by simp))
    have h2 := hs a (h a (by simp))
    have h3 := le_max_right now (p.opens a)
    show c ≤ max now (p.opens a) + p.service a
    linarith
  | b :: l, now, a, h => opens_le_departure ho hs l _ b fun i hi => h i (by simp at hi ⊢; tauto)

/-- C57 fails for time windows after the time `1000000`: the problem has a solution, the model has none. -/
theorem C57_late_fails : (∃ a, late.routing.problem.valid a ∧ late.routing.problem.feasible a) ∧ ∃ M m, late.model = .ok M ∧ M.NoFeasible m := by
  refine ⟨⟨[[0], [1]], ⟨rfl, by decide⟩, ?_⟩, ?_⟩
  · show ∀ r ∈ _, _ ∧ _
    decide +kernel
  obtain ⟨M, m, e, ht⟩ := C57_limited_partial late_args (by decide) (by decide)
  refine ⟨M, m, e, ht.toEncodes.noFeasible fun routes hv hf => ?_⟩
  have h0 : 0 ∈ routes.flatten := hv.2.mem_iff.2 (by decide)
  obtain ⟨r, hr, h0⟩ := List.mem_flatten.1 h0
  obtain ⟨_, _, _, h4⟩ := hf r hr
  have hl : r.length ≤ 2 := (part_lt hv.2 hr).2
  have h4 := h4 (lt_of_le_of_lt hl (by decide))
  rcases r with _ | ⟨a, l⟩
  · simp at h0
  have := opens_le_departure (p := late.routing) (c := 2000000) (by decide +kernel) (by decide +kernel) l (late.routing.out a) a (part_lt hv.2 hr).1
  have h4 : late.routing.departure (late.routing.out a) a l ≤ 1000000 := h4
  linarith

/-- C57: a number of vehicles or a capacity that is not positive, more demand than all vehicles can carry, a negative demand, time between places, opening,
closing or service time, a demand at the depot, and a customer without demand are rejected. -/
theorem C57_rejects {demand distances opens closes service : Arr Rat} {vehicles : Int} {capacity : Rat}
    (h : vehicles < 1 ∨ capacity ≤ 0 ∨ vehicles * capacity < demand.data.sum ∨
      (∃ a ∈ [demand, distances, opens, closes, service], ∃ x ∈ a.data, x < 0) ∨ demand.elem 0 ≠ 0 ∨ ∃ x ∈ demand.data.drop 1, x = 0) :
    Generators.timeWindows demand vehicles capacity distances opens closes service = .throw := by
  unfold Generators.timeWindows
  refine guard_throw fun h1 => guard_throw fun h2 => ?_
  rcases require_cases 1 false true false demand with e | ⟨_, _, h3, _, e⟩
  · rw [e]; rfl
  rw [e, Res.ok_bind]
  refine guard_throw fun h4 => ?_
  rcases require_cases 2 false true true distances with e | ⟨_, _, h5, _, e⟩
  · rw [e]; rfl
  rw [e, Res.ok_bind]
  rcases require_cases 1 false true false opens with e | ⟨_, _, h6, _, e⟩
  · rw [e]; rfl
  rw [e, Res.ok_bind]
  rcases require_cases 1 false true false closes with e | ⟨_, _, h7, _, e⟩
  · rw [e]; rfl
  rw [e, Res.ok_bind]
  rcases require_cases 1 false true false service with e | ⟨_, _, h8, _, e⟩
  · rw [e]; rfl
  rw [e, Res.ok_bind]
  refine guard_throw fun _ => guard_throw fun _ => guard_throw fun _ => guard_throw fun _ => guard_throw fun _ => guard_throw fun h9 =>
    guard_throw fun h10 => ?_
  exfalso
  rcases h with h | h | h | ⟨a, ha, x, hx, h⟩ | h | h
  · exact h1 h
  · exact h2 h
  · exact h4 h
  · simp only [List.mem_cons, List.not_mem_nil, or_false] at ha
    rcases ha with rfl | rfl | rfl | rfl | rfl
    · exact absurd (h3 rfl x hx) (not_le.2 h)
    · exact absurd (h5 rfl x hx) (not_le.2 h)
    · exact absurd (h6 rfl x hx) (not_le.2 h)
    · exact absurd (h7 rfl x hx) (not_le.2 h)
    · exact absurd (h8 rfl x hx) (not_le.2 h)
  · exact h ((headD_eq_elem demand).symm.trans h9)
  · exact h10 h

-- a negative service time
example : Generators.timeWindows ⟨[3], [0, 1, 1]⟩ 2 1 ⟨[3, 3], List.replicate 9 1⟩ ⟨[3], [0, 0, 0]⟩ ⟨[3], [9, 9, 9]⟩ ⟨[3], [0, -1, 0]⟩ = .throw :=
  C57_rejects (.inr (.inr (.inr (.inl ⟨⟨[3], [0, -1, 0]⟩, by simp, -1, by simp, by norm_num⟩))))

/-- C57: with a vector of demands, matrices of times that are not square or have fewer than two places, and other numbers of demands, opening, closing
or service times than places are rejected. -/
theorem C57_shape_rejects {demand distances opens closes service : Arr Rat} {vehicles : Int} {capacity : Rat} {m n : Int}
    (hD : distances.shape = [m, n])
    (hv : ∀ a ∈ [demand, opens, closes, service], a.shape.length = 1)
    (h : m ≠ n ∨ m < 2 ∨ ∃ a ∈ [demand, opens, closes, service], a.shape ≠ [m]) :
    Generators.timeWindows demand vehicles capacity distances opens closes service = .throw := by
  have one : ∀ a ∈ [demand, opens, closes, service], m = a.shape.headD 0 → a.shape = [m] := by
    intro a ha he
    have := hv a ha
    match hd : a.shape, this with
    | [d], _ =>
      rw [hd] at he
      simp at he
      rw [he]
  have l1 := hv demand (by simp)
  have l2 := hv opens (by simp)
  have l3 := hv closes (by simp)
  have l4 := hv service (by simp)
  unfold Generators.timeWindows
  refine guard_throw fun h1 => guard_throw fun h2 => ?_
  rcases require_cases 1 false true false demand with e | ⟨_, _, _, _, e⟩
  · rw [e]; rfl
  rw [e, Res.ok_bind]
  refine guard_throw fun h4 => ?_
  rcases require_cases 2 false true true distances with e | ⟨_, _, _, k, e⟩
  · rw [e]; rfl
  rw [e, Res.ok_bind]
  rcases require_cases 1 false true false opens with e | ⟨_, _, _, _, e⟩
  · rw [e]; rfl
  rw [e, Res.ok_bind]
  rcases require_cases 1 false true false closes with e | ⟨_, _, _, _, e⟩
  · rw [e]; rfl
  rw [e, Res.ok_bind]
  rcases require_cases 1 false true false service with e | ⟨_, _, _, _, e⟩
  · rw [e]; rfl
  rw [e, Res.ok_bind]
  simp only [hD, l1, l2, l3, l4, Nat.sub_self, List.replicate_zero, List.nil_append, List.length_cons, List.length_nil, List.headD_cons] at k ⊢
  refine guard_throw fun g1 => guard_throw fun g2 => guard_throw fun g3 => guard_throw fun g4 => guard_throw fun g5 => ?_
  exfalso
  rcases h with h | h | ⟨a, ha, h⟩
  · simp [h] at k
  · exact g1 h
  · refine h (one a ha ?_)
    simp only [List.mem_cons, List.not_mem_nil, or_false] at ha
    rcases ha with rfl | rfl | rfl | rfl <;> assumption

-- two opening times for three places
example : Generators.timeWindows ⟨[3], [0, 1, 1]⟩ 2 1 ⟨[3, 3], List.replicate 9 1⟩ ⟨[2], [0, 0]⟩ ⟨[3], [9, 9, 9]⟩ ⟨[3], [0, 0, 0]⟩ = .throw :=
  C57_shape_rejects (m := 3) (n := 3) rfl (by decide) (.inr (.inr ⟨⟨[2], [0, 0]⟩, by simp, by decide⟩))

end Verif
