import Verif.Props.PyStates
import Verif.Props.Objective
import Verif.Model.PyFeasible

set_option linter.unusedSectionVars false
set_option linter.unusedSimpArgs false
set_option linter.unusedVariables false

/-!
# C72: feasibility of states in Python
-/

namespace Verif

open Graph PyModel Script

/-- Specification: as in C63, with a table of the decisions' values in all states.  `feasible(i)` changes nothing.  It is true exactly if
all constraints have non-zero values when the decisions have the values in row `i`; there is an exception if there is no such state. -/
def StateUse.Sees (g : Graph) (kind : Nat → Kind) (sem : Nat → NodeSem Val Dif) (dflt : Nat → Val) (T : List (Nat → Val)) :
    StateUse → UseOutcome → List (Nat → Val) → Prop
  | .op a, o, T' => ∃ o', o = .seen o' ∧ a.Sees g kind sem dflt T o' T'
  | .feasible i, o, T' => T' = T ∧
    if -(T.length : Int) ≤ i ∧ i < T.length then
      ∃ A vals b, T[rowIndex T.length i]? = some A ∧ Evaluates g sem A vals ∧ o = .answer b ∧
        (b = true ↔ ∀ c ∈ g.constraints, ∃ x, (single (vals c)).data = [x] ∧ x ≠ 0)
    else if g.constraints = [] then o = .answer true
    else o = .seen .raised

/-- Specification of whole histories. -/
def UsesSee (g : Graph) (kind : Nat → Kind) (sem : Nat → NodeSem Val Dif) (dflt : Nat → Val) :
    List (Nat → Val) → List StateUse → List UseOutcome → List (Nat → Val) → Prop
  | T, [], os, U => os = [] ∧ U = T
  | T, u :: us, os, U => ∃ o os' T', os = o :: os' ∧ u.Sees g kind sem dflt T o T' ∧ UsesSee g kind sem dflt T' us os' U

/-- The operations name symbols of the model (`PyStateOp.Proper`). -/
def StateUse.Proper (g : Graph) (kind : Nat → Kind) : StateUse → Prop
  | .op o => o.Proper g kind
  | .feasible _ => True

section

variable {g : Graph} {kind : Nat → Kind} {sem : Nat → NodeSem Val Dif} {dflt : Nat → Val} (C : ∀ v, Settled ([] : Dif) (sem v))

/-- Reading a symbol, with given values that follow from the row. -/
theorem state_shows (w : g.WF) (hs : g.sorted = true) {sts : List (PState sem)} {T : List (Nat → Val)}
    (h : List.Forall₂ (fun st A => Kept g sem C dflt A st) sts T) {v : Nat} (hv : v ∈ g.nodes) (ha : (kind v).isArray = true) {i : Int}
    (hi : -(T.length : Int) ≤ i ∧ i < T.length) {A vals : Nat → Val} (hA : T[rowIndex T.length i]? = some A)
    (hE : Evaluates g sem A vals) :
    ∃ sts', pyStep g kind sem dflt sts (.state v i) = .ok (sts', .shown (single (vals v)).present) ∧
      List.Forall₂ (fun st A => Kept g sem C dflt A st) sts' T := by
  have hlen := h.length_eq
  obtain ⟨st, A', e1, e2, hk⟩ := forall2_get h (i := rowIndex T.length i) (List.getElem?_eq_some_iff.1 hA).1
  rw [hA] at e2
  cases e2
  obtain ⟨st1, s, e3, e4, e5, _, hk1, _⟩ := Kept.read C w hs hk hE hv
  have e1' : sts[(if i < 0 then i + (T.length : Int) else i).toNat]? = some st := e1
  refine ⟨sts.set (rowIndex T.length i) st1, ?_, forall2_keep h hA hk1⟩
  simp only [pyStep, stateAt]
  rw [if_pos ha, hlen, if_pos hi]
  simp only [e1', e3, e4, e5]
  rfl

theorem feasibleFrom_spec (w : g.WF) (hs : g.sorted = true) {T : List (Nat → Val)} {i : Int}
    (hi : -(T.length : Int) ≤ i ∧ i < T.length) {A vals : Nat → Val} (hA : T[rowIndex T.length i]? = some A)
    (hE : Evaluates g sem A vals) : ∀ (cs : List Nat) {sts : List (PState sem)},
    List.Forall₂ (fun st A => Kept g sem C dflt A st) sts T →
    (∀ c ∈ cs, c ∈ g.nodes ∧ (kind c).isArray = true ∧ ∃ x, (single (vals c)).data = [x]) →
    ∃ sts' b, feasibleFrom g kind sem dflt i sts cs = .ok (sts', .answer b) ∧
      List.Forall₂ (fun st A => Kept g sem C dflt A st) sts' T ∧
      (b = true ↔ ∀ c ∈ cs, ∃ x, (single (vals c)).data = [x] ∧ x ≠ 0)
  | [], sts, h, _ => ⟨sts, true, rfl, h, by simp⟩
  | c :: cs, sts, h, hcs => by
    obtain ⟨hc, ha, x, hx⟩ := hcs c List.mem_cons_self
    obtain ⟨sts1, e1, h1⟩ := state_shows C (dflt := dflt) w hs h hc ha hi hA hE
    have hx' : (single (vals c)).present.data = [x] := hx
    by_cases h0 : x = 0
    · refine ⟨sts1, false, ?_, h1, ?_⟩
      · simp [feasibleFrom, e1, hx', h0]
      · simp [hx, h0]
    · obtain ⟨sts2, b, e2, h2, hb⟩ := feasibleFrom_spec w hs hi hA hE cs h1 fun d hd => hcs d (List.mem_cons_of_mem _ hd)
      refine ⟨sts2, b, ?_, h2, ?_⟩
      · simp [feasibleFrom, e1, hx', h0, e2]
      · rw [hb]
        simp [hx, h0]

theorem useStep_spec (w : g.WF) (hs : g.sorted = true) (hS : Fitting g kind sem) (hdflt : ∀ d ∈ g.decisions, (sem d).ok [dflt d])
    (htotal : ∀ A : Nat → Val, (∀ d ∈ g.decisions, (sem d).ok [A d]) → ∃ vals, Evaluates g sem A vals)
    (hc : ∀ c ∈ g.constraints, c ∈ g.nodes ∧ (kind c).isArray = true ∧ ∀ A vals : Nat → Val, (∀ d ∈ g.decisions, (sem d).ok [A d]) →
      Evaluates g sem A vals → ∃ x, (single (vals c)).data = [x])
    {sts : List (PState sem)} {T : List (Nat → Val)} (h : List.Forall₂ (fun st A => Kept g sem C dflt A st) sts T)
    {u : StateUse} (hu : u.Proper g kind) :
    ∃ sts' o T', useStep g kind sem dflt sts u = .ok (sts', o) ∧ u.Sees g kind sem dflt T o T' ∧
      List.Forall₂ (fun st A => Kept g sem C dflt A st) sts' T' := by
  cases u with
  | op op =>
    obtain ⟨sts', o, T', e, h1, h2⟩ := pyStep_spec C w hs hS hdflt htotal h (op := op) hu
    exact ⟨sts', .seen o, T', by simp only [useStep, e, Res.ok_bind], ⟨o, rfl, h1⟩, h2⟩
  | feasible i =>
    by_cases hi : -(T.length : Int) ≤ i ∧ i < T.length
    · have hj : rowIndex T.length i < T.length := by
        unfold rowIndex
        split <;> omega
      obtain ⟨st, A, e1, e2, hk⟩ := forall2_get h hj
      obtain ⟨vals, hE, _⟩ := hk.2.1
      obtain ⟨sts', b, e, h1, hb⟩ := feasibleFrom_spec C (kind := kind) (dflt := dflt) w hs hi e2 hE g.constraints h fun c hcm =>
        ⟨(hc c hcm).1, (hc c hcm).2.1, (hc c hcm).2.2 A vals hk.1 hE⟩
      refine ⟨sts', .answer b, T, e, ?_, h1⟩
      simp only [StateUse.Sees]
      rw [if_pos hi]
      exact ⟨trivial, A, vals, b, e2, hE, rfl, hb⟩
    · have hno : ∀ c, pyStep g kind sem dflt sts (.state c i) = .ok (sts, .raised) := fun c => by
        simp only [pyStep, stateAt]
        rw [h.length_eq, if_neg hi, ite_self]
      cases hcs : g.constraints with
      | nil =>
        refine ⟨sts, .answer true, T, ?_, ?_, h⟩
        · simp only [useStep]
          rw [hcs]
          rfl
        · simp only [StateUse.Sees]
          rw [if_neg hi, if_pos hcs]
          exact ⟨trivial, trivial⟩
      | cons c cs =>
        refine ⟨sts, .seen .raised, T, ?_, ?_, h⟩
        · simp only [useStep]
          rw [hcs]
          simp [feasibleFrom, hno]
        · simp only [StateUse.Sees]
          rw [if_neg hi, if_neg (by rw [hcs]; simp)]
          exact ⟨trivial, trivial⟩

theorem useRun_spec (w : g.WF) (hs : g.sorted = true) (hS : Fitting g kind sem) (hdflt : ∀ d ∈ g.decisions, (sem d).ok [dflt d])
    (htotal : ∀ A : Nat → Val, (∀ d ∈ g.decisions, (sem d).ok [A d]) → ∃ vals, Evaluates g sem A vals)
    (hc : ∀ c ∈ g.constraints, c ∈ g.nodes ∧ (kind c).isArray = true ∧ ∀ A vals : Nat → Val, (∀ d ∈ g.decisions, (sem d).ok [A d]) →
      Evaluates g sem A vals → ∃ x, (single (vals c)).data = [x]) :
    ∀ (us : List StateUse) {sts : List (PState sem)} {T : List (Nat → Val)},
    List.Forall₂ (fun st A => Kept g sem C dflt A st) sts T → (∀ u ∈ us, u.Proper g kind) →
    ∃ sts' os U, useRun g kind sem dflt sts us = .ok (sts', os) ∧ UsesSee g kind sem dflt T us os U ∧
      List.Forall₂ (fun st A => Kept g sem C dflt A st) sts' U
  | [], sts, T, h, _ => ⟨sts, [], T, rfl, ⟨rfl, rfl⟩, h⟩
  | u :: us, _, _, h, hus => by
    obtain ⟨sts1, o, T1, e1, h1, hF⟩ := useStep_spec C w hs hS hdflt htotal hc h (hus u List.mem_cons_self)
    obtain ⟨sts2, os, U, e2, h2, hU⟩ := useRun_spec w hs hS hdflt htotal hc us hF fun q hq => hus q (List.mem_cons_of_mem _ hq)
    exact ⟨sts2, o :: os, U, by simp only [useRun, e1, e2, Res.ok_bind], ⟨o, os, T1, rfl, h1, h2⟩, hU⟩

end

/-- C72, for locked models of the symbols in the catalog: whatever a user does with the model's states, asking for their feasibility in
between, they see what a table of the decisions' values says (`StateUse.Sees`): `feasible(i)` tells whether all constraints are non-zero
in state `i`, and asking changes nothing.

Partial: as `C63_states_partial`. -/
theorem C72_feasible_partial {ops : List ModelOp} {m : PyModel} (hr : PyModel.new.run ops = .ok m) (hl : 0 < lockDepth ops)
    {S : Symbols} (hS : S.Assembled m.g) {claim : Nat → Claim} (ht : S.Targeted m.g claim)
    (harr : ∀ c ∈ m.g.constraints, (S.kind c).isArray = true) {dflt : Nat → Val} (hdflt : S.Admissible m.g dflt)
    (hist : List StateUse) (hproper : ∀ u ∈ hist, u.Proper m.g S.kind) :
    ∃ sts os T, useRun m.g S.kind (S.sem m.g) dflt [] hist = .ok (sts, os) ∧ UsesSee m.g S.kind (S.sem m.g) dflt [] hist os T ∧
      sts.length = T.length := by
  have w := (reachable hr).wf
  have hs := (C18_lock_count hr).2.2 hl
  obtain ⟨C, L⟩ := hS.lawful w hs
  obtain ⟨sts, os, T, h1, h2, h3⟩ := useRun_spec C w hs (hS.fitting w) hdflt L.total
    (fun c hc => ⟨(ht.constraints c hc).1.1, harr c hc, fun A vals _ hE =>
      single_value hS w hE (ht.constraints c hc).1 (ht.constraints c hc).2.1⟩) hist .nil hproper
  exact ⟨sts, os, T, h1, h2, h3.length_eq⟩

/-- C72, for models that supported programs make, with indexing symbols.

Partial: as `C63_program_states_partial`. -/
theorem C72_program_feasible_partial {p : Program} {M : Generated} (hp : p.run = .ok M) {T : Nat → Prop} (h : M.rows.Supported T)
    {m : PyModel} (hm : PyModel.new.run M.ops = .ok m)
    (harr : ∀ c ∈ M.constraints, (M.rows.row c).kind.isArray = true ∧ (M.rows.row c).out.shapes.length = 1)
    {dflt : Nat → Val} (hdflt : M.rows.Accepts m.g dflt)
    (hist : List StateUse) (hproper : ∀ u ∈ hist, u.Proper m.g fun i => (M.rows.row i).kind) :
    ∃ sts os U, useRun m.g (fun i => (M.rows.row i).kind) M.rows.sem dflt [] hist = .ok (sts, os) ∧
      UsesSee m.g (fun i => (M.rows.row i).kind) M.rows.sem dflt [] hist os U ∧ sts.length = U.length := by
  obtain ⟨hR, _, hcs⟩ := Ready.of_built hp h hm
  obtain ⟨rel, C, L⟩ := hR.lawful
  obtain ⟨hinv, _, h2⟩ := Program.run_inv hp
  have k2 := (Program.run_targets hp).2
  have hmade := made_of_run hinv
  obtain ⟨sts, os, U, h1, h2, h3⟩ := useRun_spec C hR.whole.inv.wf ((C18_lock_count hR.built).2.2 hR.locked) (ready_fitting hp hR h) hdflt
    L.total (fun c hc => by
      rw [hcs] at hc
      refine ⟨(hR.whole.nodes c).2 (h2 c hc), (harr c hc).1, fun A vals hA hE => ?_⟩
      obtain ⟨sh, hsh⟩ := List.length_eq_one_iff.1 (harr c hc).2
      have hs := (h.facts hmade (admits_iff.1 (hR.whole.admits hA)) (runs_iff.1 (hR.whole.runs hE)) c (h2 c hc)).shapes
      rw [hsh] at hs
      obtain ⟨a, e1, e2, e3⟩ := hs.one
      have hso := (k2 c hc).1
      unfold Info.shape at hso
      rw [hsh] at hso
      obtain ⟨x, hx⟩ := wf_sizeOne (by rw [e2]; exact hso) e3
      exact ⟨x, by rw [e1]; exact hx⟩) hist .nil hproper
  exact ⟨sts, os, U, h1, h2, h3.length_eq⟩

/-! ## A concrete history -/

namespace WholeExample

/-- What the user sees. -/
def answers (hist : List StateUse) : Option (List UseOutcome) :=
  match useRun model.g symbols.kind (symbols.sem model.g) unset [] hist with
  | .ok r => some r.2
  | _ => none

/-- The constraint says that the sum of `x + l` is at most seven.  In the first state `x` is set to (1, 2, 3) and the sum is 9; in the
second it is 3.  There is no third. -/
example : (∀ c ∈ model.g.constraints, (symbols.kind c).isArray = true) ∧ answers
      [.op (.resize 2), .op (.setState 0 0 (.array ⟨[3], [1, 2, 3]⟩)), .feasible 0, .feasible 1, .feasible (-2), .feasible 2,
        .op (.resetState 0 0), .feasible 0, .op (.state 3 0)] =
    some [.seen .done, .seen .done, .answer false, .answer true, .answer false, .seen .raised, .seen .done, .answer true,
      .seen (.shown ⟨[], [3]⟩)] := by
  refine ⟨?_, by decide +kernel⟩
  have : model.g.constraints = [5] := by decide +kernel
  rw [this]
  intro c hc
  obtain rfl : c = 5 := by simpa using hc
  rfl

end WholeExample

/-- Without constraints, states that do not exist are called feasible. -/
theorem C72_no_state_fails : ¬ ∀ {ops : List ModelOp} {m : PyModel}, PyModel.new.run ops = .ok m → 0 < lockDepth ops →
    ∀ {S : Symbols}, S.Assembled m.g → ∀ {claim : Nat → Claim}, S.Targeted m.g claim → ∀ {dflt : Nat → Val}, S.Admissible m.g dflt →
    ∀ {i : Int}, ¬ (-1 ≤ i ∧ i < 1) → ∀ {sts os}, useRun m.g S.kind (S.sem m.g) dflt [] [.op (.resize 1), .feasible i] = .ok (sts, os) →
    os = [.seen .done, .seen .raised] := by
  intro h
  have hb : PyModel.new.run [.lock] = .ok ⟨⟨PyModel.new.g.mem, [], [], none, [], true⟩, 1⟩ := by rfl
  refine absurd (h hb (by decide) (S := ⟨fun _ => .constant ⟨[], []⟩, fun _ => []⟩) ?_ (claim := fun _ => ⟨⟨0, 0⟩, true⟩)
    ⟨by simp, by simp⟩ (dflt := fun _ => []) (by intro d hd; simp at hd) (i := 1) (by decide) rfl) (by decide)
  refine ⟨?_, ?_, ?_, ?_, ?_⟩ <;> intro v hv <;> first | rfl | cases hv

end Verif
