import Verif.Lemmas.GenerateRouting
import Verif.Props.Archive

set_option linter.unusedSectionVars false
set_option linter.unusedSimpArgs false
set_option linter.unusedVariables false

/-! Property C54: the generated vehicle routing models are models of vehicle routing. -/

namespace Verif

open Script Graph

theorem elem_drop_pos {n : Nat} {demand : Arr Rat} (hw : demand.IsVector (n + 1)) (hpos : ∀ i < n, 0 < demand.elem (i + 1)) :
    ∀ x ∈ demand.data.drop 1, x ≠ 0 := by
  intro x hx
  obtain ⟨i, hi, rfl⟩ := List.getElem_of_mem hx
  have hi' : i < n := by simpa [hw.2] using hi
  have := hpos i hi'
  rw [Arr.elem, getD_of_lt (by rw [hw.2]; omega)] at this
  rw [List.getElem_drop]
  simp only [Nat.add_comm 1 i]
  exact ne_of_gt this

theorem elem_nonneg {n : Nat} {demand : Arr Rat} (hw : demand.IsVector (n + 1)) (h0 : demand.elem 0 = 0)
    (hpos : ∀ i < n, 0 < demand.elem (i + 1)) : ∀ x ∈ demand.data, 0 ≤ x := by
  intro x hx
  obtain ⟨i, hi, rfl⟩ := List.getElem_of_mem hx
  have hi' : i < n + 1 := by simpa [hw.2] using hi
  rcases i with _ | i
  · rw [Arr.elem, getD_of_lt (by rw [hw.2]; omega)] at h0
    exact h0.ge
  · have := hpos i (by omega)
    rw [Arr.elem, getD_of_lt (by rw [hw.2]; omega)] at this
    exact this.le

theorem headD_eq_elem (a : Arr Rat) : a.data.headD 0 = a.elem 0 := by
  unfold Arr.elem
  cases a.data <;> simp

theorem vehicleRouting_eq {root : Rat → Rat} {demand : Arr Rat} {vehicles : Nat} {capacity : Rat} {distances locX locY : Option (Arr Rat)}
    {depot : Option (Rat × Rat)} {data : Generators.RoutingData} (hv : 0 < vehicles) (hc : 0 < capacity)
    (hform : ¬ (distances.isSome = true ∧ (locX.isSome = true ∨ locY.isSome = true))) (hw : demand.shape.length = 1)
    (hw0 : ∀ x ∈ demand.data, 0 ≤ x) (hsum : demand.data.sum ≤ vehicles * capacity)
    (hdata : Generators.routingData root demand distances locX locY depot = .ok data) :
    Generators.vehicleRouting root demand vehicles capacity distances locX locY depot = Generators.routing data vehicles capacity := by
  unfold Generators.vehicleRouting
  rw [guardThrow_true (by omega), Res.ok_bind, guardThrow_true (not_le.2 hc), Res.ok_bind, guardThrow_true hform, Res.ok_bind,
    require_ok hw (by simp) (fun _ => hw0) (by simp), Res.ok_bind, guardThrow_true (by exact_mod_cast not_lt.2 hsum), Res.ok_bind]
  rw [hdata, Res.ok_bind]

/-- C54: for every matrix of nonnegative distances between a depot and at least one customer, positive demands of the customers (and
none at the depot) that all vehicles together can carry, the generated model can be built and locked, its states are exactly the ways to
divide the customers into an ordered route for each vehicle, its objective is the length of all routes, each from the depot and back, and it is
feasible exactly if no route has more demand than a vehicle can carry; this stays so after every history of proposals. -/
theorem C54_distances {root : Rat → Rat} {n vehicles : Nat} {demand distances : Arr Rat} {capacity : Rat}
    (hD : distances.IsMatrix (n + 1) (n + 1)) (hD0 : ∀ x ∈ distances.data, 0 ≤ x) (hw : demand.IsVector (n + 1))
    (hdepot : demand.elem 0 = 0) (hpos : ∀ i < n, 0 < demand.elem (i + 1)) (hsum : demand.data.sum ≤ vehicles * capacity)
    (hn : 0 < n) (hbig : (n : Int) ≤ ssMax) (hv : 0 < vehicles) (hc : 0 < capacity) :
    ∃ M m, Generators.vehicleRouting root demand vehicles capacity (some distances) none none none = .ok M ∧
      M.Tracks (routingOf n vehicles distances demand capacity).problem m := by
  obtain ⟨M, e, h⟩ := routing_proves (full := True) (agrees_distances (v := vehicles) (distances := distances) (c := capacity) hw)
    (elem_drop_pos hw hpos) hn hv hbig
  obtain ⟨m, hm⟩ := h.tracks
  refine ⟨M, m, ?_, hm⟩
  rw [vehicleRouting_eq (data := Generators.splitDistances n distances demand) hv hc (by simp) (by rw [hw.1]; rfl)
    (elem_nonneg hw hdepot hpos) hsum ?_]
  · exact e
  show Generators.routingDistances demand distances none = _
  unfold Generators.routingDistances
  rw [guardThrow_true (by rfl), Res.ok_bind, require_ok (by rw [hD.1]; rfl) (by simp) (fun _ => hD0) (by rw [hD.1]; simp), Res.ok_bind,
    hD.1, hw.1, guardThrow_true (by simp; omega), Res.ok_bind, guardThrow_true (by simp), Res.ok_bind,
    guardThrow_true ((headD_eq_elem _).trans hdepot), Res.ok_bind]
  simp

/-- C54, the same for locations in the plane, of which the first is the depot: here distances are `root` of the sum of the squares of
the differences of the coordinates, whatever function `root` is (in the code the square root of NumPy). -/
theorem C54_locations {root : Rat → Rat} {n vehicles : Nat} {demand locX locY : Arr Rat} {capacity : Rat}
    (hx : locX.IsVector (n + 1)) (hy : locY.IsVector (n + 1)) (hw : demand.IsVector (n + 1))
    (hdepot : demand.elem 0 = 0) (hpos : ∀ i < n, 0 < demand.elem (i + 1)) (hsum : demand.data.sum ≤ vehicles * capacity)
    (hn : 0 < n) (hbig : (n : Int) ≤ ssMax) (hv : 0 < vehicles) (hc : 0 < capacity) :
    ∃ M m, Generators.vehicleRouting root demand vehicles capacity none (some locX) (some locY) none = .ok M ∧
      M.Tracks (planeRouting root n vehicles (fun i => locX.elem (i + 1)) (fun i => locY.elem (i + 1)) (fun i => demand.elem (i + 1))
        (locX.elem 0) (locY.elem 0) capacity).problem m := by
  obtain ⟨M, e, h⟩ := routing_proves (full := True) (agrees_plane (root := root) (n := n) (v := vehicles) (xs := locX.data.drop 1)
    (ys := locY.data.drop 1) (x0 := locX.elem 0) (y0 := locY.elem 0) (c := capacity) (by rw [List.length_drop, hx.2]; rfl)
    (dropFirst_vector hw)) (elem_drop_pos hw hpos) hn hv hbig
  obtain ⟨m, hm⟩ := h.tracks
  refine ⟨M, m, ?_, ?_⟩
  · rw [vehicleRouting_eq (data := Generators.planeDistances root (locX.data.drop 1) (locY.data.drop 1) (locX.elem 0) (locY.elem 0)
      (Generators.dropFirst demand)) hv hc (by simp) (by rw [hw.1]; rfl) (elem_nonneg hw hdepot hpos) hsum ?_]
    · exact e
    show Generators.routingLocations root demand (some locX) (some locY) none = _
    simp only [Generators.routingLocations]
    rw [hx.1, hy.1, hw.1, guardThrow_true (by simp), Res.ok_bind, Res.ok_bind, guardThrow_true (by simp), Res.ok_bind,
      guardThrow_true (by simp), Res.ok_bind, if_pos ((headD_eq_elem _).trans hdepot), guardThrow_true (by simp; omega), Res.ok_bind,
      guardThrow_true (by rfl), Res.ok_bind, headD_eq_elem, headD_eq_elem]
  · convert hm using 2
    simp only [planeRouting, getD_drop_one]
    congr 1
    funext i
    exact (getD_drop_one _ _).symm

/-- C54, the same for customers in the plane and a depot given apart. -/
theorem C54_depot {root : Rat → Rat} {n vehicles : Nat} {demand locX locY : Arr Rat} {x0 y0 capacity : Rat}
    (hx : locX.IsVector n) (hy : locY.IsVector n) (hw : demand.IsVector n)
    (hpos : ∀ x ∈ demand.data, 0 < x) (hsum : demand.data.sum ≤ vehicles * capacity)
    (hn : 0 < n) (hbig : (n : Int) ≤ ssMax) (hv : 0 < vehicles) (hc : 0 < capacity) :
    ∃ M m, Generators.vehicleRouting root demand vehicles capacity none (some locX) (some locY) (some (x0, y0)) = .ok M ∧
      M.Tracks (planeRouting root n vehicles locX.elem locY.elem demand.elem x0 y0 capacity).problem m := by
  obtain ⟨M, e, h⟩ := routing_proves (full := True) (agrees_plane (root := root) (n := n) (v := vehicles) (xs := locX.data)
    (ys := locY.data) (x0 := x0) (y0 := y0) (c := capacity) hx.2 hw) (fun x h => ne_of_gt (hpos x h)) hn hv hbig
  obtain ⟨m, hm⟩ := h.tracks
  refine ⟨M, m, ?_, hm⟩
  rw [vehicleRouting_eq (data := Generators.planeDistances root locX.data locY.data x0 y0 demand) hv hc (by simp)
    (by rw [hw.1]; rfl) (fun x h => (hpos x h).le) hsum ?_]
  · exact e
  show Generators.routingLocations root demand (some locX) (some locY) (some (x0, y0)) = _
  have hne : demand.data.headD 0 ≠ 0 := by
    rw [headD_eq_elem, Arr.elem, getD_of_lt (by rw [hw.2]; exact hn)]
    exact ne_of_gt (hpos _ (List.getElem_mem _))
  simp only [Generators.routingLocations]
  rw [hx.1, hy.1, hw.1, guardThrow_true (by simp), Res.ok_bind, Res.ok_bind, guardThrow_true (by simp), Res.ok_bind,
    guardThrow_true (by simp; omega), Res.ok_bind, if_neg hne]

/-- A depot and three customers. -/
def fourPlaces : Arr Rat := ⟨[4, 4], [0, 1, 5, 2,  2, 0, 7/2, 4,  9, 1, 0, 3,  1, 1, 6, 0]⟩
def fourDemands : Arr Rat := ⟨[4], [0, 2, 1, 5/2]⟩

example : ∃ M m, Generators.vehicleRouting id fourDemands 2 4 (some fourPlaces) none none none = .ok M ∧
    M.Tracks (routingOf 3 2 fourPlaces fourDemands 4).problem m :=
  C54_distances (n := 3) (vehicles := 2) ⟨rfl, rfl⟩ (by decide +kernel) ⟨rfl, rfl⟩ (by decide +kernel) (by decide +kernel)
    (by decide +kernel) (by decide) (by decide) (by decide) (by decide +kernel)

-- one vehicle visits customers 2 and 0, the other customer 1
example : (routingOf 3 2 fourPlaces fourDemands 4).problem.values [[2, 0], [1]] 5 = [⟨[-1], [2, 0]⟩, ⟨[-1], [1]⟩] := by decide +kernel
example : (routingOf 3 2 fourPlaces fourDemands 4).problem.cost [[2, 0], [1]] = (2 + 1 + 2) + (5 + 9) := by decide +kernel
example : ¬ (routingOf 3 2 fourPlaces fourDemands 4).problem.feasible [[2, 0], [1]] := by
  intro h
  exact absurd (h [2, 0] (by simp)) (by decide +kernel)
example : (routingOf 3 2 fourPlaces fourDemands 4).problem.feasible [[0, 1], [2]] := by
  show ∀ r ∈ _, _
  decide +kernel
example : (routingOf 3 2 fourPlaces fourDemands 4).problem.cost [[], [2, 0, 1]] = 2 + 1 + 7/2 + 9 := by decide +kernel

example : ∃ M m, Generators.vehicleRouting id fourDemands 2 4 none (some ⟨[4], [1, 2, 3, 4]⟩) (some ⟨[4], [0, 2, 0, 5]⟩) none = .ok M ∧
    M.Tracks (planeRouting id 3 2 (fun i => (⟨[4], [1, 2, 3, 4]⟩ : Arr Rat).elem (i + 1)) (fun i => (⟨[4], [0, 2, 0, 5]⟩ : Arr Rat).elem (i + 1))
      (fun i => fourDemands.elem (i + 1)) 1 0 4).problem m :=
  C54_locations (n := 3) (vehicles := 2) ⟨rfl, rfl⟩ ⟨rfl, rfl⟩ ⟨rfl, rfl⟩ (by decide +kernel) (by decide +kernel)
    (by decide +kernel) (by decide) (by decide) (by decide) (by decide +kernel)

example : ∃ M m, Generators.vehicleRouting id ⟨[2], [1, 2]⟩ 1 4 none (some ⟨[2], [1, 2]⟩) (some ⟨[2], [0, 2]⟩) (some (3, 3)) = .ok M ∧
    M.Tracks (planeRouting id 2 1 (⟨[2], [1, 2]⟩ : Arr Rat).elem (⟨[2], [0, 2]⟩ : Arr Rat).elem (⟨[2], [1, 2]⟩ : Arr Rat).elem 3 3 4).problem m :=
  C54_depot (n := 2) (vehicles := 1) ⟨rfl, rfl⟩ ⟨rfl, rfl⟩ ⟨rfl, rfl⟩ (by decide +kernel)
    (by decide +kernel) (by decide) (by decide) (by decide) (by decide +kernel)

theorem guard_throw {α : Type} {p : Prop} [Decidable p] {f : Unit → Res α} (h : p → f () = .throw) : (guardThrow p >>= f) = .throw := by
  rcases guardThrow_cases p with ⟨hp, e⟩ | ⟨_, e⟩
  · rw [e, Res.ok_bind, h hp]
  · rw [e]; rfl

theorem routing_zero {data : Generators.RoutingData} {vehicles : Int} {capacity : Rat} (h : ∃ x ∈ data.demand.data, x = 0) :
    Generators.routing data vehicles capacity = .throw := by
  unfold Generators.routing
  exact guard_throw fun h' => absurd h h'

theorem routingData_facts {root : Rat → Rat} {demand : Arr Rat} {distances locX locY : Option (Arr Rat)} {depot : Option (Rat × Rat)} :
    Generators.routingData root demand distances locX locY depot = .throw ∨
    ∃ data, Generators.routingData root demand distances locX locY depot = .ok data ∧
      (∀ x ∈ demand.data.drop 1, x ∈ data.demand.data) ∧ ¬ (distances ≠ none ∧ depot ≠ none) := by
  rcases distances with _ | distances
  · show Generators.routingLocations root demand locX locY depot = _ ∨ ∃ data, Generators.routingLocations root demand locX locY depot = _ ∧ _
    rcases locX with _ | x
    · exact .inl rfl
    rcases locY with _ | y
    · exact .inl rfl
    simp only [Generators.routingLocations]
    rcases guardThrow_cases (x.shape.length = 1) with ⟨_, e⟩ | ⟨_, e⟩ <;> rw [e]
    swap
    · exact .inl rfl
    rcases guardThrow_cases (y.shape.length = 1) with ⟨_, e⟩ | ⟨_, e⟩ <;> rw [e]
    swap
    · exact .inl rfl
    rcases guardThrow_cases (x.shape = y.shape ∧ y.shape = demand.shape) with ⟨_, e⟩ | ⟨_, e⟩ <;> rw [e]
    swap
    · exact .inl rfl
    rcases guardThrow_cases (¬ x.shape.headD 0 < 1) with ⟨_, e⟩ | ⟨_, e⟩ <;> rw [e]
    swap
    · exact .inl rfl
    simp only [Res.ok_bind]
    split
    · rcases guardThrow_cases (¬ x.shape.headD 0 < 2) with ⟨_, e⟩ | ⟨_, e⟩ <;> rw [e]
      swap
      · exact .inl rfl
      rcases guardThrow_cases (depot.isNone = true) with ⟨_, e⟩ | ⟨_, e⟩ <;> rw [e]
      swap
      · exact .inl rfl
      exact .inr ⟨_, rfl, fun _ h => h, by simp⟩
    · rcases depot with _ | p
      · exact .inl rfl
      · exact .inr ⟨_, rfl, fun _ h => List.mem_of_mem_drop h, by simp⟩
  · show Generators.routingDistances demand distances depot = _ ∨ ∃ data, Generators.routingDistances demand distances depot = _ ∧ _
    unfold Generators.routingDistances
    rcases guardThrow_cases (depot.isNone = true) with ⟨hd, e⟩ | ⟨_, e⟩ <;> rw [e]
    swap
    · exact .inl rfl
    rcases require_cases 2 false true true distances with e | ⟨_, _, _, _, e⟩
    · rw [e]
      exact .inl rfl
    rw [e, Res.ok_bind, Res.ok_bind]
    generalize (⟨_, _⟩ : Arr Rat) = D
    rcases guardThrow_cases (¬ D.shape.headD 0 < 2) with ⟨_, e⟩ | ⟨_, e⟩ <;> rw [e]
    swap
    · exact .inl rfl
    rcases guardThrow_cases (D.shape.headD 0 = demand.shape.headD 0) with ⟨_, e⟩ | ⟨_, e⟩ <;> rw [e]
    swap
    · exact .inl rfl
    rcases guardThrow_cases (demand.data.headD 0 = 0) with ⟨_, e⟩ | ⟨_, e⟩ <;> rw [e]
    swap
    · exact .inl rfl
    refine .inr ⟨_, rfl, fun _ h => h, ?_⟩
    rintro ⟨_, h⟩
    exact h (Option.isNone_iff_eq_none.1 hd)

/-- C54: a number of vehicles or a capacity that is not positive, a negative demand, more demand than all vehicles can carry, a
customer without demand, and giving distances together with locations are rejected. -/
theorem C54_rejects {root : Rat → Rat} {demand : Arr Rat} {vehicles : Int} {capacity : Rat} {distances locX locY : Option (Arr Rat)}
    {depot : Option (Rat × Rat)}
    (h : vehicles < 1 ∨ capacity ≤ 0 ∨ (∃ x ∈ demand.data, x < 0) ∨ vehicles * capacity < demand.data.sum ∨ (∃ x ∈ demand.data.drop 1, x = 0) ∨
      (distances ≠ none ∧ (locX ≠ none ∨ locY ≠ none ∨ depot ≠ none))) :
    Generators.vehicleRouting root demand vehicles capacity distances locX locY depot = .throw := by
  unfold Generators.vehicleRouting
  refine guard_throw fun h1 => guard_throw fun h2 => guard_throw fun h3 => ?_
  rcases require_cases 1 false true false demand with e | ⟨_, _, h4, _, e⟩
  · rw [e]; rfl
  rw [e, Res.ok_bind]
  refine guard_throw fun h5 => ?_
  rcases routingData_facts (root := root) (demand := ⟨List.replicate (1 - demand.shape.length) 1 ++ demand.shape, demand.data⟩)
    (distances := distances) (locX := locX) (locY := locY) (depot := depot) with e | ⟨data, e, k1, k2⟩
  · rw [e]; rfl
  rw [e, Res.ok_bind]
  refine routing_zero ?_
  rcases h with h | h | ⟨x, hx, h⟩ | h | ⟨x, hx, h⟩ | ⟨h, h'⟩
  · exact absurd h h1
  · exact absurd h h2
  · exact absurd (h4 rfl x hx) (not_le.2 h)
  · exact absurd h h5
  · exact ⟨x, k1 x hx, h⟩
  · exfalso
    rcases h' with h' | h' | h'
    · exact h3 ⟨Option.isSome_iff_ne_none.2 h, .inl (Option.isSome_iff_ne_none.2 h')⟩
    · exact h3 ⟨Option.isSome_iff_ne_none.2 h, .inr (Option.isSome_iff_ne_none.2 h')⟩
    · exact k2 ⟨h, h'⟩

-- customer 1 has no demand
example : Generators.vehicleRouting id ⟨[3], [0, 1, 0]⟩ 2 4 (some ⟨[3, 3], [0, 1, 1, 1, 0, 1, 1, 1, 0]⟩) none none none = .throw :=
  C54_rejects (.inr (.inr (.inr (.inr (.inl ⟨0, by simp, rfl⟩)))))

/-- C54: with distances, a matrix that is not square or has a negative element, a demand at the depot, fewer than
two places, and a number of demands other than the number of places are rejected. -/
theorem C54_distances_rejects {root : Rat → Rat} {demand D : Arr Rat} {vehicles : Int} {capacity : Rat} {locX locY : Option (Arr Rat)}
    {depot : Option (Rat × Rat)} (hw : demand.shape.length = 1)
    (h : (∃ m n : Int, D.shape = [m, n] ∧ (m ≠ n ∨ m < 2 ∨ demand.shape ≠ [m])) ∨ (∃ x ∈ D.data, x < 0) ∨ demand.elem 0 ≠ 0) :
    Generators.vehicleRouting root demand vehicles capacity (some D) locX locY depot = .throw := by
  unfold Generators.vehicleRouting
  refine guard_throw fun h1 => guard_throw fun h2 => guard_throw fun h3 => ?_
  rcases require_cases 1 false true false demand with e | ⟨_, _, h4, _, e⟩
  · rw [e]; rfl
  rw [e, Res.ok_bind, hw]
  refine guard_throw fun h5 => ?_
  have : Generators.routingData root demand (some D) locX locY depot = .throw := by
    show Generators.routingDistances demand D depot = _
    unfold Generators.routingDistances
    refine guard_throw fun _ => ?_
    rcases require_cases 2 false true true D with e | ⟨_, _, k1, k2, e⟩
    · rw [e]; rfl
    rw [e, Res.ok_bind]
    refine guard_throw fun h6 => guard_throw fun h7 => guard_throw fun h8 => ?_
    exfalso
    rcases h with ⟨m, n, hs, h | h | h⟩ | ⟨x, hx, h⟩ | h
    · rw [hs] at k2
      simp [h] at k2
    · rw [hs] at h6
      simp at h6
      omega
    · rw [hs] at h7
      match hd : demand.shape, hw with
      | [d], _ =>
        rw [hd] at h7 h
        simp at h7
        exact h (by rw [h7])
    · exact absurd (k1 rfl x hx) (not_le.2 h)
    · exact h ((headD_eq_elem demand).symm.trans h8)
  simp only [Nat.sub_self, List.replicate_zero, List.nil_append]
  rw [this]
  rfl

example : Generators.vehicleRouting id ⟨[3], [0, 1, 1]⟩ 2 4 (some ⟨[2, 2], [0, 1, 1, 0]⟩) none none none = .throw :=
  C54_distances_rejects rfl (.inl ⟨2, 2, rfl, .inr (.inr (by decide))⟩)

end Verif
