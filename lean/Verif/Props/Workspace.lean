import Verif.Lemmas.Workspace

/-!
# C71: models are separate
-/

namespace Verif

open Workspace

/-- C71, for histories that use no symbol of one model as objective, constraint or added operand of another one: no symbol belongs to
two models, and every model is what it would be if only the operations on it had been done, in a program with no other model. -/
theorem C71_separate_partial (ops : List WorkspaceOp) (S : Workspace) (hw : start.AllWithin ops) (hr : start.run ops = .ok S) :
    (∀ j k v, v ∈ (S.model j).g.nodes → v ∈ (S.model k).g.nodes → j = k) ∧
    ∀ k, ∃ m, PyModel.new.run (start.history k ops) = .ok m ∧ m.Agree (S.model k) := by
  obtain ⟨good, h⟩ := run_rel good_start hw hr
  refine ⟨good.disjoint, fun k => h k PyModel.new ?_⟩
  rw [model_outside (Nat.zero_le k)]
  exact new_agree _

/-- Then an operation on a model ends as it would in a program with no other model: it is accepted, raises an exception or is undefined
in the same cases, and changes the model in the same way.  The other models do not change. -/
theorem C71_outcome_partial (ops : List WorkspaceOp) (S : Workspace) (hw : start.AllWithin ops) (hr : start.run ops = .ok S)
    (op : WorkspaceOp) (k : Nat) (mop : ModelOp) (hop : S.Within op) (ht : S.target op = some (k, mop)) (hk : k < S.models.length) :
    ∃ m, PyModel.new.run (start.history k ops) = .ok m ∧
      ((m.perform mop = .ub ∧ S.perform op = .ub) ∨
       (m.perform mop = .throw ∧ S.perform op = .throw) ∨
       ∃ m' S', m.perform mop = .ok m' ∧ S.perform op = .ok S' ∧ m'.Agree (S'.model k) ∧
         ∀ j, j ≠ k → (S.model j).Agree (S'.model j)) := by
  obtain ⟨good, h⟩ := run_rel good_start hw hr
  obtain ⟨m, hm, ha⟩ := h k PyModel.new (by rw [model_outside (Nat.zero_le k)]; exact new_agree _)
  refine ⟨m, hm, ?_⟩
  have hrel := perform_rel good ht hop hk ha
  cases e : m.perform mop with
  | ub => rw [e] at hrel; exact .inl ⟨rfl, hrel.ub_left⟩
  | throw => rw [e] at hrel; exact .inr (.inl ⟨rfl, hrel.throw_left⟩)
  | ok m' =>
    rw [e] at hrel
    obtain ⟨S', e', h1, _, _, h2⟩ := hrel.ok_left
    exact .inr (.inr ⟨m', S', rfl, e', h1, h2⟩)

/-- A new symbol whose operands belong to different models is refused, and nothing changes. -/
theorem C71_mixed (S : Workspace) (k a : Nat) (preds : List Nat) (r : Bool) (p q : Nat) (hp : p ∈ preds) (hq : q ∈ preds)
    (h : S.owner p ≠ S.owner q) :
    S.step (.node k a preds r) = .throw ∧ S.perform (.node k a preds r) = .ok S := by
  have ht : S.target (.node k a preds r) = none := by
    cases preds with
    | nil => cases hp
    | cons x xs =>
      simp only [target]
      cases e : S.owner x with
      | none => rfl
      | some j =>
        simp only [Option.bind_some]
        rw [if_neg]
        exact fun hall => h ((hall p hp).trans (hall q hq).symm)
  have hs : S.step (.node k a preds r) = .throw := by
    unfold step; dsimp only; rw [ht]
  exact ⟨hs, by unfold perform; rw [hs]⟩

/-- Symbols extended in place are not checked: with two models, a sum of the first one accepts a constant of the second one.  It
then depends on a symbol that is not in its model, and the second model cannot be locked any more (an assertion about the number of
symbols does not hold). -/
theorem C71_inplace_fails :
    ∃ ops S, start.run ops = .ok S ∧ S.models.length = 2 ∧
      (∃ n p, S.owner n = some 0 ∧ S.owner p = some 1 ∧ p ∈ (S.mem n).preds) ∧ S.perform (.lock 1) = .ub := by
  refine ⟨[.newModel, .newModel, .decision 0 1, .node 0 2 [1] true, .node 1 3 [] true, .addOperand 2 3], _, rfl, rfl,
    ⟨2, 3, by decide, by decide, by decide⟩, by rfl⟩

/-- Objectives are not checked: the objective of a model can be a symbol of another one, and removing the unused symbols of that one
leaves an objective that does not exist. -/
theorem C71_objective_fails :
    ∃ ops S S', start.run ops = .ok S ∧ (S.model 0).g.objective = some 2 ∧ S.owner 2 = some 1 ∧
      S.perform (.removeUnused 1) = .ok S' ∧ (S'.model 0).g.objective = some 2 ∧ S'.owner 2 = none := by
  refine ⟨[.newModel, .newModel, .decision 0 1, .node 1 2 [] true, .minimize 0 2], _, _, rfl, by decide, by decide, rfl, by decide,
    by decide⟩

/-- Neither are constraints. -/
theorem C71_constraint_fails :
    ∃ ops S S', start.run ops = .ok S ∧ (S.model 0).g.constraints = [2] ∧ S.owner 2 = some 1 ∧
      S.perform (.removeUnused 1) = .ok S' ∧ (S'.model 0).g.constraints = [2] ∧ S'.owner 2 = none := by
  refine ⟨[.newModel, .newModel, .decision 0 1, .node 1 2 [] true, .addConstraint 0 2], _, _, rfl, by decide, by decide, rfl, by decide,
    by decide⟩

/-- Two models, whose symbols are made alternately: the first one is locked while the second one grows and is cleaned up, and a
mixed sum is refused. -/
example : ∃ S, start.run [.newModel, .newModel, .decision 0 1, .decision 1 2, .node 0 3 [1] true, .node 1 4 [2, 2] true,
      .node 0 5 [3, 4] true, .addOperand 3 1, .minimize 0 3, .lock 0, .decision 0 6, .node 1 7 [4] true, .removeUnused 1, .unlock 0] = .ok S ∧
    start.AllWithin [.newModel, .newModel, .decision 0 1, .decision 1 2, .node 0 3 [1] true, .node 1 4 [2, 2] true,
      .node 0 5 [3, 4] true, .addOperand 3 1, .minimize 0 3, .lock 0, .decision 0 6, .node 1 7 [4] true, .removeUnused 1, .unlock 0] ∧
    (S.model 0).g.nodes = [1, 3] ∧ (S.model 1).g.nodes = [2] ∧
    start.history 0 [.newModel, .newModel, .decision 0 1, .decision 1 2, .node 0 3 [1] true, .node 1 4 [2, 2] true,
      .node 0 5 [3, 4] true, .addOperand 3 1, .minimize 0 3, .lock 0, .decision 0 6, .node 1 7 [4] true, .removeUnused 1, .unlock 0] =
      [.decision 1, .node 3 [1] true, .addOperand 3 1, .minimize 3, .lock, .decision 6, .unlock] := by
  refine ⟨_, rfl, ?_, by decide, by decide, by rfl⟩
  repeat' first
    | exact trivial
    | exact ⟨trivial, fun S' h => (Res.ok.inj h) ▸ ?_⟩
    | refine ⟨trivial, fun S' h => ?_⟩; have := Res.ok.inj h; subst this
    | refine ⟨rfl, fun S' h => ?_⟩; have := Res.ok.inj h; subst this

end Verif
