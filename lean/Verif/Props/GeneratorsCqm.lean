import Verif.Lemmas.GenerateCqm
import Verif.Props.Archive

set_option linter.unusedSectionVars false
set_option linter.unusedSimpArgs false
set_option linter.unusedVariables false

/-! Property C61: models made from constrained quadratic models mean the same. -/

namespace Verif

open Script Graph

theorem hard_of_none {c : Cqm} (h : ∀ k ∈ c.constraints, k.weight = none) : c.hard = c := by
  unfold Cqm.hard
  have : c.constraints.map (fun k : CqmConstraint => { k with weight := none }) = c.constraints := by
    refine (List.map_congr_left fun k hk => ?_).trans (List.map_id _)
    have := h k hk
    cases k
    simp only at this
    subst this
    rfl
  rw [this]

/-- C61 with all constraints read as hard: for all constrained quadratic models with binary variables, at least one, the model can be
built and locked, its states are exactly the assignments of bits to the variables, its objective is the value of the objective, and
it is feasible exactly if all constraints hold; this stays so after every history of proposals.  Missing for C61: see the `_fails`. -/
theorem C61_hard_partial {c : Cqm} (hw : c.WF) (hb : ∀ t ∈ c.vartypes, t = .binary) (hn : 0 < c.vartypes.length) :
    ∃ M m, Generators.fromCqm c = .ok M ∧ M.Tracks (cqmProblem c.hard) m := by
  obtain ⟨M, e, h⟩ := cqm_proves (full := True) hw hb hn
  obtain ⟨m, hm⟩ := h.tracks
  exact ⟨M, m, e, hm⟩

/-- C61: if no constraint is soft, the model encodes the constrained quadratic model.  Missing for C61: soft constraints and models
without variables; see the `_fails`. -/
theorem C61_partial {c : Cqm} (hw : c.WF) (hb : ∀ t ∈ c.vartypes, t = .binary) (hn : 0 < c.vartypes.length)
    (hs : ∀ k ∈ c.constraints, k.weight = none) :
    ∃ M m, Generators.fromCqm c = .ok M ∧ M.Tracks (cqmProblem c) m := by
  have := C61_hard_partial hw hb hn
  rwa [hard_of_none hs] at this

/-- `2 + a - 3 c + 4 a b - b c` is to be minimised, subject to `a + b + c >= 1`, `a b == 0` and the constraint `0 <= 5` without
variables. -/
def smallCqm : Cqm where
  vartypes := [.binary, .binary, .binary]
  objective := ⟨2, [(0, 1), (2, -3), (1, 0)], [(0, 1, 4), (1, 2, -1)]⟩
  constraints := [⟨⟨0, [(0, 1), (1, 1), (2, 1)], []⟩, .ge, 1, none⟩, ⟨⟨0, [(0, 0), (1, 0)], [(0, 1, 1)]⟩, .eq, 0, none⟩,
    ⟨⟨0, [], []⟩, .le, 5, none⟩]

instance (n : Nat) (e : QuadExpr) : Decidable (e.Over n) := by unfold QuadExpr.Over; infer_instance

instance (c : Cqm) : Decidable c.WF := by unfold Cqm.WF; infer_instance

instance (k : CqmConstraint) (x : Nat → Rat) : Decidable (k.holds x) := by
  unfold CqmConstraint.holds
  cases k.sense <;> infer_instance

example : ∃ M m, Generators.fromCqm smallCqm = .ok M ∧ M.Tracks (cqmProblem smallCqm) m :=
  C61_partial (by decide +kernel) (by decide +kernel) (by decide +kernel) (by decide +kernel)

example : (cqmProblem smallCqm).cost [false, true, true] = -2 := by decide +kernel
example : (cqmProblem smallCqm).feasible [false, true, true] := by
  show ∀ k ∈ smallCqm.constraints, _
  decide +kernel
example : ¬ (cqmProblem smallCqm).feasible [true, true, true] := fun h =>
  absurd (h ⟨⟨0, [(0, 0), (1, 0)], [(0, 1, 1)]⟩, .eq, 0, none⟩ (by simp [smallCqm]) rfl) (by decide +kernel)

/-- C61: variables that are not binary are rejected. -/
theorem C61_rejects {c : Cqm} (h : ∃ t ∈ c.vartypes, t ≠ .binary) : Generators.fromCqm c = .throw := by
  obtain ⟨t, ht, hne⟩ := h
  unfold Generators.fromCqm
  rw [guardThrow_false (fun h => hne (h t ht))]
  rfl

example : Generators.fromCqm ⟨[.binary, .integer], ⟨0, [], []⟩, []⟩ = .throw :=
  C61_rejects ⟨.integer, by simp, by decide⟩

/-- C61 fails for soft constraints: one variable `a`, nothing to minimise, and the soft constraint `a <= 0` of weight 3.  The assignment
`a = 1` is feasible and costs 3; in the model it costs nothing and is infeasible. -/
theorem C61_soft_fails : ∃ (c : Cqm) (M : Generated) (m : PyModel) (st : St M.rows.sem),
    c.WF ∧ (∀ t ∈ c.vartypes, t = .binary) ∧ Generators.fromCqm c = .ok M ∧ PyModel.new.run M.ops = .ok m ∧
    (cqmProblem c).valid [true] ∧ M.rows.Starts m.g ((cqmProblem c).values [true]) st ∧
    (cqmProblem c).feasible [true] ∧ m.g.feasible (M.rows.shown st) = .ok false ∧
    (cqmProblem c).cost [true] = 3 ∧ m.g.energy (M.rows.shown st) = .ok 0 := by
  obtain ⟨M, m, e, hm⟩ := C61_hard_partial (c := ⟨[.binary], ⟨0, [(0, 0)], []⟩, [⟨⟨0, [(0, 1)], []⟩, .le, 0, some 3⟩]⟩)
    (by decide +kernel) (by decide +kernel) (by decide +kernel)
  obtain ⟨_, st, hst, hr⟩ := hm.sets [true] rfl
  refine ⟨_, M, m, st, by decide +kernel, by decide +kernel, e, hm.built, rfl, hst, ?_, ?_, by decide +kernel, ?_⟩
  · intro k hk hn
    simp only [List.mem_singleton] at hk
    subst hk
    cases hn
  · obtain ⟨b, h1, h2⟩ := hr.feasible
    rw [h1]
    cases b with
    | false => rfl
    | true =>
      have := h2.1 rfl ⟨⟨0, [(0, 1)], []⟩, .le, 0, none⟩ (by simp [Cqm.hard]) rfl
      exact absurd this (by decide +kernel)
  · rw [hr.energy]
    congr 1
    decide +kernel

/-- C61 fails without variables: the objective is the number 5, and the constraint `0 >= 1` cannot be satisfied.  The model has
neither objective nor constraints, so that it is feasible and its objective is zero. -/
theorem C61_no_variables_fails : ∃ (c : Cqm) (M : Generated) (m : PyModel),
    c.WF ∧ (∀ t ∈ c.vartypes, t = .binary) ∧ Generators.fromCqm c = .ok M ∧ PyModel.new.run M.ops = .ok m ∧
    (∀ a, (cqmProblem c).valid a → (cqmProblem c).cost a = 5 ∧ ¬ (cqmProblem c).feasible a) ∧
    ∀ vals, m.g.energy vals = .ok 0 ∧ m.g.feasible vals = .ok true := by
  have hm : ∃ m, PyModel.new.run (Generated.mk [] none []).ops = .ok m ∧ m.g.objective = none ∧ m.g.constraints = [] :=
    ⟨_, rfl, rfl, rfl⟩
  obtain ⟨m, e, h1, h2⟩ := hm
  refine ⟨⟨[], ⟨5, [], []⟩, [⟨⟨0, [], []⟩, .ge, 1, none⟩]⟩, ⟨[], none, []⟩, m, by decide +kernel, by decide +kernel, rfl, e, ?_, ?_⟩
  · rintro a ha
    obtain rfl : a = [] := List.eq_nil_of_length_eq_zero ha
    refine ⟨by decide +kernel, fun h => ?_⟩
    exact absurd (h ⟨⟨0, [], []⟩, .ge, 1, none⟩ (by simp) rfl) (by decide +kernel)
  · intro vals
    unfold Graph.energy Graph.feasible
    rw [h1, h2]
    exact ⟨rfl, rfl⟩

end Verif
