import Verif.Lemmas.GenerateFlow
import Verif.Props.Archive

set_option linter.unusedSectionVars false
set_option linter.unusedSimpArgs false
set_option linter.unusedVariables false

/-! Property C55: the generated flow-shop models for one machine or two are models of flow-shop scheduling; those for three are not. -/

namespace Verif

open Script Graph FlowShop

/-! ## The problem -/

theorem inTurn_ready (ready time : Nat → Rat) (k : Nat) : ready k + time k ≤ inTurn ready time k := by
  cases k with
  | zero => exact le_rfl
  | succ k => exact add_le_add (le_max_left _ _) le_rfl

theorem inTurn_succ (ready time : Nat → Rat) (k : Nat) : inTurn ready time k + time (k + 1) ≤ inTurn ready time (k + 1) :=
  add_le_add (le_max_right _ _) le_rfl

variable {p : FlowShop} {order : List Nat}

theorem finish_flow (p : FlowShop) (order : List Nat) (m k : Nat) :
    p.finish order m k + p.times (m + 1) (order.getD k 0) ≤ p.finish order (m + 1) k :=
  inTurn_ready (p.finish order m) (fun k => p.times (m + 1) (order.getD k 0)) k

theorem finish_alone (p : FlowShop) (order : List Nat) (m k : Nat) :
    p.finish order m k + p.times m (order.getD (k + 1) 0) ≤ p.finish order m (k + 1) := by
  cases m with
  | zero => exact inTurn_succ _ (fun k => p.times 0 (order.getD k 0)) k
  | succ m => exact inTurn_succ _ (fun k => p.times (m + 1) (order.getD k 0)) k

theorem finish_begin (h0 : ∀ m j, 0 ≤ p.times m j) (m k : Nat) : p.times m (order.getD k 0) ≤ p.finish order m k := by
  induction m with
  | zero =>
    have := inTurn_ready (fun _ => 0) (fun k => p.times 0 (order.getD k 0)) k
    rw [zero_add] at this
    exact this
  | succ m ih =>
    have := finish_flow p order m k
    have := h0 m (order.getD k 0)
    linarith

/-- C55, the objective: for all numbers of machines and all times that are not negative, the time at which the last job leaves the
last machine if every machine starts as early as it can is the makespan of the order: there is a schedule in which everything is
finished by then, and there is none in which everything is finished earlier. -/
theorem C55_makespan (h0 : ∀ m j, 0 ≤ p.times m j) (hM : 0 < p.machines) (hJ : 0 < p.jobs) (order : List Nat) :
    p.IsMakespan order (p.problem.cost order) := by
  constructor
  · refine ⟨fun m k => p.finish order m k - p.times m (order.getD k 0), ⟨?_, ?_, ?_⟩, ?_⟩
    · intro m _ k _
      linarith [finish_begin (order := order) h0 m k]
    · intro m _ k _
      linarith [finish_flow p order m k]
    · intro m _ k _
      linarith [finish_alone p order m k]
    · intro m hm k hk
      have h1 : ∀ d, p.finish order m k ≤ p.finish order m (k + d) := by
        intro d
        induction d with
        | zero => exact le_rfl
        | succ d ih =>
          have a := finish_alone p order m (k + d)
          have b := h0 m (order.getD (k + d + 1) 0)
          exact ih.trans (by rw [← Nat.add_assoc]; linarith)
      have h2 : ∀ d, p.finish order m (p.jobs - 1) ≤ p.finish order (m + d) (p.jobs - 1) := by
        intro d
        induction d with
        | zero => exact le_rfl
        | succ d ih =>
          have a := finish_flow p order (m + d) (p.jobs - 1)
          have b := h0 (m + d + 1) (order.getD (p.jobs - 1) 0)
          exact ih.trans (by rw [← Nat.add_assoc]; linarith)
      have e1 := h1 (p.jobs - 1 - k)
      have e2 := h2 (p.machines - 1 - m)
      rw [show k + (p.jobs - 1 - k) = p.jobs - 1 by omega] at e1
      rw [show m + (p.machines - 1 - m) = p.machines - 1 by omega] at e2
      show _ - _ + _ ≤ p.finish order (p.machines - 1) (p.jobs - 1)
      linarith
  · intro start c' hs hd
    have h : ∀ m < p.machines, ∀ k < p.jobs, p.finish order m k ≤ start m k + p.times m (order.getD k 0) := by
      intro m
      induction m with
      | zero =>
        intro hm k
        induction k with
        | zero =>
          intro hk
          have := hs.begin_ 0 hm 0 hk
          show 0 + _ ≤ _
          linarith
        | succ k ih =>
          intro hk
          have h1 := hs.begin_ 0 hm (k + 1) hk
          have h2 := hs.alone 0 hm k hk
          exact add_le_add (max_le h1 ((ih (by omega)).trans h2)) le_rfl
      | succ m ihm =>
        intro hm k
        induction k with
        | zero =>
          intro hk
          exact add_le_add ((ihm (by omega) 0 hk).trans (hs.flow m hm 0 hk)) le_rfl
        | succ k ih =>
          intro hk
          exact add_le_add (max_le ((ihm (by omega) (k + 1) hk).trans (hs.flow m hm (k + 1) hk))
            ((ih (by omega)).trans (hs.alone (m + 1) hm k hk))) le_rfl
    exact (h _ (by omega) _ (by omega)).trans (hd _ (by omega) _ (by omega))

/-! ## The model -/

/-- C55: for all times that are not negative, of at least one job on one machine or two, the generated model can be built and locked,
its states are exactly the orders of the jobs, its objective is the makespan of the order (`C55_makespan`), and it is always feasible;
this stays so after every history of proposals. -/
theorem C55_flowShop_partial {M J : Nat} {T : Arr Rat} (hT : T.IsMatrix M J) (h0 : ∀ x ∈ T.data, 0 ≤ x) (hM : 0 < M) (hM2 : M ≤ 2)
    (hJ : 0 < J) (hbig : (M : Int) * J ≤ ssMax) :
    ∃ G m, Generators.flowShop T = .ok G ∧ G.Tracks (flowShopOf M J T).problem m := by
  obtain ⟨G, e, h⟩ := flow_proves (full := True) hT h0 hM hM2 hJ hbig
  obtain ⟨m, hm⟩ := h.tracks
  exact ⟨G, m, e, hm⟩

/-- Two machines, three jobs (the example of the documentation). -/
def twoMachines : Arr Rat := ⟨[2, 3], [10, 5, 7, 20, 10, 15]⟩

example : ∃ G m, Generators.flowShop twoMachines = .ok G ∧ G.Tracks (flowShopOf 2 3 twoMachines).problem m :=
  C55_flowShop_partial ⟨rfl, rfl⟩ (by decide +kernel) (by decide) (by decide) (by decide) (by decide)

example : (flowShopOf 2 3 twoMachines).problem.cost [0, 1, 2] = 55 := by decide +kernel
example : (flowShopOf 2 3 twoMachines).problem.cost [1, 0, 2] = 50 := by decide +kernel

/-- C55: arrays with more than two dimensions, with a negative element or without elements are rejected. -/
theorem C55_rejects {a : Arr Rat} (h : 2 < a.shape.length ∨ (∃ x ∈ a.data, x < 0) ∨ a.shape.prod = 0) :
    Generators.flowShop a = .throw := by
  unfold Generators.flowShop
  rcases require_cases 2 false true false a with e | ⟨h1, _, h2, _, e⟩
  · rw [e]; rfl
  · rw [e, Res.ok_bind]
    rcases h with h | ⟨x, hx, h⟩ | h
    · omega
    · exact absurd (h2 rfl x hx) (not_le.2 h)
    · rw [guardThrow_false (by simpa using h)]; rfl

/-- Three machines, two jobs. -/
def threeMachines : Arr Rat := ⟨[3, 2], [1, 0, 0, 2, 2, 0]⟩

/-- The objective of a model after setting its only decision. -/
def objectiveOf (G : Generated) (m : PyModel) (x : Val) : Option Rat :=
  match m.g.objective with
  | some o => if o ∈ m.g.nodes then
      match initAll m.g G.rows.sem (fun _ => x) PState.empty with
      | .ok f => match f.cell o with
        | some c => match (single ((G.rows.sem o).view c)).front with
          | .ok e => some e
          | _ => none
        | none => none
      | _ => none
    else none
  | none => none

theorem objectiveOf_spec {G : Generated} {m : PyModel} {x : Val} {c : Rat} (h : objectiveOf G m x = some c) {st : St G.rows.sem}
    (hs : G.rows.Starts m.g (fun _ => x) st) : m.g.energy (G.rows.shown st) = .ok c := by
  obtain ⟨f, hf, hcell⟩ := hs
  unfold objectiveOf at h
  rw [hf] at h
  unfold Graph.energy
  split at h
  · rename_i o ho
    rw [ho]
    split_ifs at h with hmem
    dsimp only at h
    rw [hcell o hmem] at h
    dsimp only at h
    split at h
    · rename_i e he
      cases h
      exact he
    · cases h
  · cases h

/-- What the model of `threeMachines` says about the two orders. -/
def threeMachinesSay : Bool :=
  match Generators.flowShop threeMachines with
  | .ok G => match PyModel.new.run G.ops with
    | .ok m => decide (objectiveOf G m (shownList [2] [0, 1]) = some 5 ∧ objectiveOf G m (shownList [2] [1, 0]) = some 4)
    | _ => false
  | _ => false

/-- C55 is false for three machines: adding the time of the first job on the third machine changes the symbol for its end on the second
machine.  Here the order 0, 1 has the makespan 3 and the order 1, 0 has the makespan 4, but the objectives are 5 and 4: minimising the
objective chooses the wrong order. -/
theorem C55_three_machines_fails : ∃ G m, Generators.flowShop threeMachines = .ok G ∧ PyModel.new.run G.ops = .ok m ∧
    (∀ st, G.rows.Starts m.g (fun _ => shownList [2] [0, 1]) st → m.g.energy (G.rows.shown st) = .ok 5) ∧
    (∀ st, G.rows.Starts m.g (fun _ => shownList [2] [1, 0]) st → m.g.energy (G.rows.shown st) = .ok 4) ∧
    (flowShopOf 3 2 threeMachines).IsMakespan [0, 1] 3 ∧ (flowShopOf 3 2 threeMachines).IsMakespan [1, 0] 4 ∧
    ¬ G.Encodes (flowShopOf 3 2 threeMachines).problem m := by
  have h : threeMachinesSay = true := by decide +kernel
  unfold threeMachinesSay at h
  have h0 : ∀ m j, 0 ≤ (flowShopOf 3 2 threeMachines).times m j := entry_nonneg (by decide +kernel)
  have c1 : (flowShopOf 3 2 threeMachines).problem.cost [0, 1] = 3 := by decide +kernel
  have c2 : (flowShopOf 3 2 threeMachines).problem.cost [1, 0] = 4 := by decide +kernel
  split at h
  · rename_i G eG
    split at h
    · rename_i m em
      obtain ⟨h1, h2⟩ := of_decide_eq_true h
      refine ⟨G, m, eG, em, fun st hs => objectiveOf_spec h1 hs, fun st hs => objectiveOf_spec h2 hs, ?_, ?_, ?_⟩
      · have := C55_makespan h0 (by decide) (by decide) [0, 1]
        rwa [c1] at this
      · have := C55_makespan h0 (by decide) (by decide) [1, 0]
        rwa [c2] at this
      · intro hE
        obtain ⟨_, st, hs, hr⟩ := hE.sets [0, 1] (by
          show List.Perm [0, 1] (List.range 2)
          decide)
        have e1 := objectiveOf_spec h1 hs
        rw [hr.energy, c1] at e1
        exact absurd (Res.ok.inj e1) (by decide +kernel)
    · cases h
  · cases h

end Verif
