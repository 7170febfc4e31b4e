import Verif.Lemmas.Agree
import Mathlib.Data.List.GetD

/-!
# Several models
-/

namespace Verif

open Graph PyModel

theorem Graph.Agree.refl (g : Graph) : g.Agree g := ⟨rfl, rfl, rfl, rfl, rfl, fun _ _ => rfl⟩

theorem Graph.Agree.trans {a b c : Graph} (h : a.Agree b) (h' : b.Agree c) : a.Agree c :=
  ⟨h.nodes.trans h'.nodes, h.decisions.trans h'.decisions, h.objective.trans h'.objective, h.constraints.trans h'.constraints,
    h.sorted.trans h'.sorted, fun v hv => (h.mem v hv).trans (h'.mem v (h.nodes ▸ hv))⟩

theorem Graph.WF.agree {g g' : Graph} (w : g.WF) (h : g.Agree g') : g'.WF := by
  obtain ⟨mem, nodes, decisions, objective, constraints, sorted⟩ := g
  obtain ⟨mem', nodes', decisions', objective', constraints', sorted'⟩ := g'
  obtain ⟨h1, h2, h3, h4, h5, h6⟩ := h
  dsimp only at h1 h2 h3 h4 h5 h6
  subst h1 h2 h3 h4 h5
  have hp : ∀ v ∈ nodes, Graph.predsOf ⟨mem', nodes, decisions, objective, constraints, sorted⟩ v =
      Graph.predsOf ⟨mem, nodes, decisions, objective, constraints, sorted⟩ v := fun v hv => congrArg GNode.preds (h6 v hv).symm
  have hs : ∀ v ∈ nodes, Graph.succsOf ⟨mem', nodes, decisions, objective, constraints, sorted⟩ v =
      Graph.succsOf ⟨mem, nodes, decisions, objective, constraints, sorted⟩ v := fun v hv => congrArg GNode.succs (h6 v hv).symm
  have ht : ∀ v ∈ nodes, Graph.topoOf ⟨mem', nodes, decisions, objective, constraints, sorted⟩ v =
      Graph.topoOf ⟨mem, nodes, decisions, objective, constraints, sorted⟩ v := fun v hv => congrArg GNode.topo (h6 v hv).symm
  refine ⟨w.nodup, w.decNodup, w.decMem, fun d hd => ?_, fun v hv => ?_, fun v hv => ?_, fun v hv u hu => ?_, w.objMem, w.conMem,
    fun i hi => ?_, fun hso v hv hd => ?_, fun hso => ?_, fun hso i hi => ?_⟩
  · rw [hp d (w.decMem d hd)]; exact w.decPreds d hd
  · rw [hp v hv]; exact w.predMem v hv
  · rw [hs v hv]; exact w.succMem v hv
  · rw [hs v hv, hp u hu]; exact w.link v hv u hu
  · rw [ht _ (w.decMem _ (List.getElem_mem hi))]; exact w.decTopo i hi
  · rw [ht v hv]; exact w.unsorted hso v hv hd
  · have t := w.topological hso
    refine ⟨fun v hv => ?_, fun v hv u hu => ?_, fun i hi => ?_, fun v hv u hu => ?_⟩
    · rw [ht v hv]; exact t.range v hv
    · rw [ht v hv, ht u hu]; exact t.inj v hv u hu
    · rw [ht _ (w.decMem _ (List.getElem_mem hi))]; exact t.decision i hi
    · rw [hs v hv] at hu
      rw [ht v hv, ht u (w.succMem v hv u hu)]
      exact t.edge v hv u hu
  · rw [ht _ (List.getElem_mem hi)]; exact w.positions hso i hi

namespace PyModel

theorem Agree.refl (m : PyModel) : m.Agree m := ⟨.refl _, rfl⟩

theorem Agree.trans {a b c : PyModel} (h : a.Agree b) (h' : b.Agree c) : a.Agree c :=
  ⟨h.graph.trans h'.graph, h.locks.trans h'.locks⟩

theorem Inv.agree {m m' : PyModel} (h : m.Inv) (ha : m.Agree m') : m'.Inv :=
  ⟨h.wf.agree ha.graph, ha.locks ▸ h.nonneg, by rw [← ha.graph.sorted, ← ha.locks]; exact h.sorted⟩

/-- New symbols are at new addresses. -/
theorem step_nodes {m m1 : PyModel} {op : ModelOp} (wf : m.g.WF) (h : m.step op = .ok m1) :
    ∀ v ∈ m1.g.nodes, v ∈ m.g.nodes ∨ fresh op v := by
  have hsort : ∀ g1, m.g.topologicalSort = .ok g1 → ∀ v ∈ g1.nodes, v ∈ m.g.nodes := by
    intro g1 h1 v hv
    obtain ⟨b, e, _, _, hn⟩ := (h1 ▸ (Graph.Agree.refl m.g).sort wf).ok_left
    exact (hn v).1 hv
  have hreset : ∀ g : Graph, g.resetTopologicalSort.nodes = g.nodes := by
    intro g; unfold Graph.resetTopologicalSort; split <;> rfl
  intro v hv
  cases op with
  | decision a =>
    simp only [step, Res.bind_eq_ok, Res.ok.injEq, Graph.emplaceDecision, guardUB_eq_ok, guardThrow_eq_ok] at h
    obtain ⟨g, ⟨_, _, _, _, rfl⟩, rfl⟩ := h
    simpa [fresh] using hv
  | node a preds r =>
    simp only [step, Res.bind_eq_ok, Res.ok.injEq, Graph.emplaceNode, guardUB_eq_ok, guardThrow_eq_ok] at h
    obtain ⟨g, ⟨_, _, _, _, rfl⟩, rfl⟩ := h
    simpa [fresh] using hv
  | addOperand n p =>
    simp only [step, Res.bind_eq_ok, Res.ok.injEq, Graph.addPredecessor, guardUB_eq_ok, guardThrow_eq_ok] at h
    obtain ⟨g, ⟨_, _, _, _, _, _, rfl⟩, rfl⟩ := h
    exact .inl hv
  | minimize o =>
    simp only [step, Res.bind_eq_ok, Res.ok.injEq, Graph.setObjective, guardUB_eq_ok, guardThrow_eq_ok] at h
    obtain ⟨g, ⟨_, _, _, _, rfl⟩, rfl⟩ := h
    exact .inl hv
  | addConstraint c =>
    simp only [step, Res.bind_eq_ok, Res.ok.injEq, Graph.addConstraint, guardUB_eq_ok, guardThrow_eq_ok] at h
    obtain ⟨g, ⟨_, _, _, _, _, _, rfl⟩, rfl⟩ := h
    exact .inl hv
  | reference u b =>
    simp only [step, Res.ok.injEq] at h
    subst h
    exact .inl hv
  | lock =>
    simp only [step, Res.bind_eq_ok, Res.ok.injEq] at h
    obtain ⟨g, hg, rfl⟩ := h
    exact .inl (hsort g hg v hv)
  | unlock =>
    simp only [step] at h
    split at h
    · rw [← Res.ok.inj h] at hv; exact .inl hv
    · split at h
      · rw [← Res.ok.inj h] at hv
        exact .inl (hreset _ ▸ hv)
      · rw [← Res.ok.inj h] at hv; exact .inl hv
  | removeUnused =>
    simp only [step, Res.bind_eq_ok, Res.ok.injEq, Graph.removeUnused] at h
    obtain ⟨_, _, r, ⟨g, hg, rfl⟩, rfl⟩ := h
    dsimp only at hv
    rw [hreset] at hv
    exact .inl (hsort g hg v (List.mem_of_mem_filter hv))

end PyModel

namespace Workspace

/-- No symbol is in two models, and all models are well-formed. -/
structure Good (S : Workspace) : Prop where
  disjoint : ∀ j k v, v ∈ (S.model j).g.nodes → v ∈ (S.model k).g.nodes → j = k
  inv : ∀ k, (S.model k).Inv

theorem model_outside {S : Workspace} {k : Nat} (h : S.models.length ≤ k) : S.model k = ⟨⟨S.mem, [], [], none, [], false⟩, 0⟩ := by
  unfold model
  rw [List.getD_eq_default _ _ h]

theorem new_agree (mem : Nat → GNode) : PyModel.new.Agree ⟨⟨mem, [], [], none, [], false⟩, 0⟩ :=
  ⟨⟨rfl, rfl, rfl, rfl, rfl, fun v hv => by cases hv⟩, rfl⟩

theorem good_start : start.Good := by
  refine ⟨fun j k v hv => ?_, fun k => ?_⟩
  · rw [model_outside (Nat.zero_le j)] at hv; cases hv
  · rw [model_outside (Nat.zero_le k)]
    exact inv_new.agree (new_agree _)

variable {S : Workspace}

theorem owner_some {v j : Nat} (h : S.owner v = some j) : j < S.models.length ∧ v ∈ (S.model j).g.nodes := by
  unfold owner at h
  rw [List.findIdx?_eq_some_iff_getElem] at h
  obtain ⟨hj, hv, _⟩ := h
  refine ⟨hj, ?_⟩
  unfold model
  rw [List.getD_eq_getElem _ _ hj]
  exact of_decide_eq_true hv

theorem owner_none {v j : Nat} (h : S.owner v = none) : v ∉ (S.model j).g.nodes := by
  unfold owner at h
  rw [List.findIdx?_eq_none_iff] at h
  unfold model
  by_cases hj : j < S.models.length
  · rw [List.getD_eq_getElem _ _ hj]
    exact of_decide_eq_false (h _ (List.getElem_mem hj))
  · rw [List.getD_eq_default _ _ (by omega)]
    exact List.not_mem_nil

theorem put_same {j : Nat} (hj : j < S.models.length) (m : PyModel) : (S.put j m).model j = m := by
  unfold put model
  dsimp only
  have : (S.models.set j ⟨m.g.nodes, m.g.decisions, m.g.objective, m.g.constraints, m.g.sorted, m.lockCount⟩).getD j {} =
      ⟨m.g.nodes, m.g.decisions, m.g.objective, m.g.constraints, m.g.sorted, m.lockCount⟩ := by
    rw [List.getD_eq_getElem _ _ (by simpa using hj), List.getElem_set_self]
  rw [this]

theorem put_other {j k : Nat} (h : k ≠ j) (m : PyModel) :
    (S.put j m).model k = { S.model k with g := { (S.model k).g with mem := m.g.mem } } := by
  unfold put model
  dsimp only
  have : (S.models.set j ⟨m.g.nodes, m.g.decisions, m.g.objective, m.g.constraints, m.g.sorted, m.lockCount⟩).getD k {} = S.models.getD k {} := by
    rw [List.getD_eq_getElem?_getD, List.getD_eq_getElem?_getD, List.getElem?_set_ne h.symm]
  rw [this]

theorem target_spec {op : WorkspaceOp} {j : Nat} {mop : ModelOp} (ht : S.target op = some (j, mop)) (hw : S.Within op) :
    S.act j mop = (S.model j).step mop ∧ (∀ v b, mop = .reference v b → v ∈ (S.model j).g.nodes) ∧
      ∀ v, fresh mop v → S.owner v = none := by
  cases op with
  | newModel => cases ht
  | decision k a =>
    obtain ⟨rfl, rfl⟩ := Prod.mk.inj (Option.some.inj ht)
    have hw : S.owner a = none := hw
    refine ⟨?_, fun v b h => (by cases h), fun v hv => (by rw [show v = a from hv]; exact hw)⟩
    simp only [act, guardUB_true hw, Res.ok_bind]
  | node k a preds r =>
    have hm : mop = .node a preds r := by
      cases preds with
      | nil => exact (Prod.mk.inj (Option.some.inj ht)).2.symm
      | cons p ps =>
        simp only [target, Option.bind_eq_some_iff] at ht
        obtain ⟨i, _, h⟩ := ht
        split at h
        · exact (Prod.mk.inj (Option.some.inj h)).2.symm
        · cases h
    subst hm
    have hw : S.owner a = none := hw
    refine ⟨?_, fun v b h => (by cases h), fun v hv => (by rw [show v = a from hv]; exact hw)⟩
    simp only [act, guardUB_true hw, Res.ok_bind]
  | addOperand n p =>
    simp only [target, Option.map_eq_some_iff] at ht
    obtain ⟨i, ho, h⟩ := ht
    obtain ⟨rfl, rfl⟩ := Prod.mk.inj h
    refine ⟨?_, fun v b h => (by cases h), fun v hv => hv.elim⟩
    have hp : S.owner p = some i := (show S.owner p = S.owner n from hw).trans ho
    have h1 : p ∈ (S.model i).g.nodes := (owner_some hp).2
    have h2 : S.owner p ≠ none := by rw [hp]; exact Option.some_ne_none _
    have e : (n ∈ (S.model i).g.nodes ∧ S.owner p ≠ none ∧ n ∉ (S.model i).g.decisions ∧ (S.mem n).preds ≠ []) ↔
        (n ∈ (S.model i).g.nodes ∧ p ∈ (S.model i).g.nodes ∧ n ∉ (S.model i).g.decisions ∧ ((S.model i).g.mem n).preds ≠ []) :=
      ⟨fun h => ⟨h.1, h1, h.2.2⟩, fun h => ⟨h.1, h2, h.2.2⟩⟩
    simp only [act, PyModel.step, Graph.addPredecessor, e]
    have em : (S.model i).g.mem = S.mem := rfl
    simp only [em]
    unfold guardUB guardThrow
    by_cases c1 : n ∈ (S.model i).g.nodes ∧ p ∈ (S.model i).g.nodes ∧ n ∉ (S.model i).g.decisions ∧ (S.mem n).preds ≠ []
    · by_cases c2 : ¬ (0 ≤ (S.mem n).topo ∧ 0 ≤ (S.mem p).topo ∧ (S.mem n).topo < (S.mem p).topo)
      · by_cases c3 : (S.mem n).topo ≤ 0
        · simp only [if_pos c1, if_pos c2, if_pos c3, Res.ok_bind]
        · simp only [if_pos c1, if_pos c2, if_neg c3, Res.ok_bind, Res.ub_bind]
      · simp only [if_pos c1, if_neg c2, Res.ok_bind, Res.throw_bind]
    · simp only [if_neg c1, Res.ub_bind]
  | minimize k o =>
    obtain ⟨rfl, rfl⟩ := Prod.mk.inj (Option.some.inj ht)
    refine ⟨?_, fun v b h => (by cases h), fun v hv => hv.elim⟩
    have ho : S.owner o = some k := hw
    have h2 : S.owner o ≠ none := by rw [ho]; exact Option.some_ne_none _
    have h3 : ∀ v ∈ some o, v ∈ (S.model k).g.nodes := by
      intro v hv
      rw [← Option.some.inj hv]
      exact (owner_some ho).2
    simp only [act, PyModel.step, Graph.setObjective, guardUB_true h2, guardUB_true h3, Res.ok_bind]
    rfl
  | addConstraint k c =>
    obtain ⟨rfl, rfl⟩ := Prod.mk.inj (Option.some.inj ht)
    refine ⟨?_, fun v b h => (by cases h), fun v hv => hv.elim⟩
    have ho : S.owner c = some k := hw
    have h2 : S.owner c ≠ none := by rw [ho]; exact Option.some_ne_none _
    have h3 : c ∈ (S.model k).g.nodes := (owner_some ho).2
    simp only [act, PyModel.step, Graph.addConstraint, guardUB_true h2, guardUB_true h3, Res.ok_bind]
    rfl
  | reference v b =>
    simp only [target, Option.map_eq_some_iff] at ht
    obtain ⟨i, ho, h⟩ := ht
    obtain ⟨rfl, rfl⟩ := Prod.mk.inj h
    refine ⟨rfl, fun w c h => ?_, fun v hv => hv.elim⟩
    cases h
    exact (owner_some ho).2
  | lock k =>
    obtain ⟨rfl, rfl⟩ := Prod.mk.inj (Option.some.inj ht)
    exact ⟨rfl, fun v b h => (by cases h), fun v hv => hv.elim⟩
  | unlock k =>
    obtain ⟨rfl, rfl⟩ := Prod.mk.inj (Option.some.inj ht)
    exact ⟨rfl, fun v b h => (by cases h), fun v hv => hv.elim⟩
  | removeUnused k =>
    obtain ⟨rfl, rfl⟩ := Prod.mk.inj (Option.some.inj ht)
    exact ⟨rfl, fun v b h => (by cases h), fun v hv => hv.elim⟩

/-- Accepted operations. -/
theorem put_good (good : S.Good) {j : Nat} {mop : ModelOp} {m1 : PyModel} (hj : j < S.models.length)
    (hs : (S.model j).step mop = .ok m1) (href : ∀ v b, mop = .reference v b → v ∈ (S.model j).g.nodes)
    (hf : ∀ v, fresh mop v → S.owner v = none) :
    (S.put j m1).Good ∧ ∀ k, k ≠ j → (S.model k).Agree ((S.put j m1).model k) := by
  have wf := (good.inv j).wf
  have hframe : (S.model j).g.Frame m1.g (fresh mop) := by
    have := (Agree.refl (S.model j)).step wf href
    rw [hs] at this
    obtain ⟨b, hb, h⟩ := this.ok_left
    exact h.2
  have hother : ∀ k, k ≠ j → (S.model k).Agree ((S.put j m1).model k) := by
    intro k hk
    rw [put_other hk]
    refine ⟨⟨rfl, rfl, rfl, rfl, rfl, fun v hv => ?_⟩, rfl⟩
    refine (hframe v (fun hv' => hk (good.disjoint k j v hv hv')) fun hfr => ?_).symm
    exact owner_none (hf v hfr) hv
  refine ⟨⟨fun i k v hi hk => ?_, fun k => ?_⟩, hother⟩
  · by_cases ei : i = j
    · by_cases ek : k = j
      · exact ei.trans ek.symm
      · exfalso
        rw [ei, put_same hj] at hi
        rw [← (hother k ek).graph.nodes] at hk
        rcases step_nodes wf hs v hi with h | h
        · exact ek (good.disjoint k j v hk h)
        · exact owner_none (hf v h) hk
    · rw [← (hother i ei).graph.nodes] at hi
      by_cases ek : k = j
      · exfalso
        rw [ek, put_same hj] at hk
        rcases step_nodes wf hs v hk with h | h
        · exact ei (good.disjoint i j v hi h)
        · exact owner_none (hf v h) hi
      · rw [← (hother k ek).graph.nodes] at hk
        exact good.disjoint i k v hi hk
  · by_cases ek : k = j
    · rw [ek, put_same hj]
      exact (step_inv (good.inv j) hs).1
    · exact (good.inv k).agree (hother k ek)

/-- An operation ends as it would on a model of its own, which it changes in the same way; other models do not change. -/
theorem perform_rel (good : S.Good) {op : WorkspaceOp} {j : Nat} {mop : ModelOp} (ht : S.target op = some (j, mop)) (hw : S.Within op)
    (hj : j < S.models.length) {m : PyModel} (ha : m.Agree (S.model j)) :
    Res.Rel (fun m1 S1 => m1.Agree (S1.model j) ∧ S1.Good ∧ S1.models.length = S.models.length ∧
      ∀ k, k ≠ j → (S.model k).Agree (S1.model k)) (m.perform mop) (S.perform op) := by
  obtain ⟨hact, href, hf⟩ := target_spec ht hw
  have hm : m.Inv := by
    have h' : (S.model j).Agree m := ⟨⟨ha.graph.nodes.symm, ha.graph.decisions.symm, ha.graph.objective.symm, ha.graph.constraints.symm,
      ha.graph.sorted.symm, fun v hv => (ha.graph.mem v (by rw [ha.graph.nodes]; exact hv)).symm⟩, ha.locks.symm⟩
    exact (good.inv j).agree h'
  have hrel := ha.step hm.wf (op := mop) fun v b h => by rw [ha.graph.nodes]; exact href v b h
  have hlk : m.isLocked = (S.model j).isLocked := by unfold PyModel.isLocked; rw [ha.locks]
  have hstep : S.step op = (do
      let m1 ← (S.model j).step mop
      .ok (S.put j m1)) := by
    unfold step
    cases op with
    | newModel => cases ht
    | _ => dsimp only; rw [ht]; dsimp only; rw [guardUB_true hj, Res.ok_bind, hact]
  unfold PyModel.perform perform
  rw [hstep]
  cases e : (S.model j).step mop with
  | ub =>
    rw [e] at hrel
    cases e' : m.step mop with
    | ub => exact .ub
    | throw => rw [e'] at hrel; cases hrel
    | ok m1 => rw [e'] at hrel; cases hrel
  | ok m2 =>
    rw [e] at hrel
    obtain ⟨m1, e1, h1⟩ := hrel.ok_right
    rw [e1]
    obtain ⟨g1, g2⟩ := put_good good hj e href hf
    refine .ok ⟨?_, g1, ?_, g2⟩
    · rw [put_same hj]; exact h1.1
    · show (S.models.set _ _).length = _
      rw [List.length_set]
  | throw =>
    rw [e] at hrel
    have e1 : m.step mop = .throw := by
      cases e' : m.step mop with
      | ub => rw [e'] at hrel; cases hrel
      | throw => rfl
      | ok m1 => rw [e'] at hrel; cases hrel
    rw [e1]
    have hsame : m.Agree (S.model j) ∧ S.Good ∧ S.models.length = S.models.length ∧ ∀ k, k ≠ j → (S.model k).Agree (S.model k) :=
      ⟨ha, good, rfl, fun k _ => .refl _⟩
    cases op with
    | newModel => cases ht
    | lock k =>
      obtain ⟨rfl, rfl⟩ := Prod.mk.inj (Option.some.inj ht)
      simp only [Res.throw_bind, hlk, true_or, and_true]
      split
      · exact .throw
      · exact .ok hsame
    | removeUnused k =>
      obtain ⟨rfl, rfl⟩ := Prod.mk.inj (Option.some.inj ht)
      simp only [Res.throw_bind, hlk, or_true, and_true]
      split
      · exact .throw
      · exact .ok hsame
    | decision k a =>
      obtain ⟨rfl, rfl⟩ := Prod.mk.inj (Option.some.inj ht)
      simp only [Res.throw_bind, reduceCtorEq, or_self, and_false, if_false]
      exact .ok hsame
    | node k a preds r =>
      have hm : mop = .node a preds r := by
        cases preds with
        | nil => exact (Prod.mk.inj (Option.some.inj ht)).2.symm
        | cons p ps =>
          simp only [target, Option.bind_eq_some_iff] at ht
          obtain ⟨i, _, h⟩ := ht
          split at h
          · exact (Prod.mk.inj (Option.some.inj h)).2.symm
          · cases h
      subst hm
      simp only [Res.throw_bind, reduceCtorEq, or_self, and_false, if_false]
      exact .ok hsame
    | addOperand n p =>
      simp only [target, Option.map_eq_some_iff] at ht
      obtain ⟨i, ho, h⟩ := ht
      obtain ⟨rfl, rfl⟩ := Prod.mk.inj h
      simp only [Res.throw_bind, reduceCtorEq, or_self, and_false, if_false]
      exact .ok hsame
    | minimize k o =>
      obtain ⟨rfl, rfl⟩ := Prod.mk.inj (Option.some.inj ht)
      simp only [Res.throw_bind, reduceCtorEq, or_self, and_false, if_false]
      exact .ok hsame
    | addConstraint k c =>
      obtain ⟨rfl, rfl⟩ := Prod.mk.inj (Option.some.inj ht)
      simp only [Res.throw_bind, reduceCtorEq, or_self, and_false, if_false]
      exact .ok hsame
    | reference v b =>
      simp only [target, Option.map_eq_some_iff] at ht
      obtain ⟨i, ho, h⟩ := ht
      obtain ⟨rfl, rfl⟩ := Prod.mk.inj h
      simp only [Res.throw_bind, reduceCtorEq, or_self, and_false, if_false]
      exact .ok hsame
    | unlock k =>
      obtain ⟨rfl, rfl⟩ := Prod.mk.inj (Option.some.inj ht)
      simp only [Res.throw_bind, reduceCtorEq, or_self, and_false, if_false]
      exact .ok hsame

/-- Operations whose operands are of different models, and new models. -/
theorem perform_none {op : WorkspaceOp} (ht : S.target op = none) :
    S.perform op = .ok S ∨ S.perform op = .ok ⟨S.mem, S.models ++ [({} : ModelPart)]⟩ := by
  cases op with
  | newModel => exact .inr rfl
  | decision => cases ht
  | minimize => cases ht
  | addConstraint => cases ht
  | lock => cases ht
  | unlock => cases ht
  | removeUnused => cases ht
  | node => left; unfold perform step; dsimp only; rw [ht]
  | addOperand => left; unfold perform step; dsimp only; rw [ht]
  | reference => left; unfold perform step; dsimp only; rw [ht]

theorem newModel_model (S : Workspace) (k : Nat) : (Workspace.mk S.mem (S.models ++ [({} : ModelPart)])).model k = S.model k := by
  have : (S.models ++ [({} : ModelPart)]).getD k {} = S.models.getD k {} := by
    rw [List.getD_eq_getElem?_getD, List.getD_eq_getElem?_getD, List.getElem?_append]
    split
    · rfl
    · rename_i h
      rw [List.getElem?_eq_none (by omega : S.models.length ≤ k)]
      cases e : k - S.models.length with
      | zero => rfl
      | succ n => rfl
  unfold model
  dsimp only
  rw [this]

theorem perform_none_good (good : S.Good) {op : WorkspaceOp} {S1 : Workspace} (ht : S.target op = none) (hp : S.perform op = .ok S1) :
    S1.Good ∧ ∀ k, S1.model k = S.model k := by
  have h : ∀ k, S1.model k = S.model k := by
    intro k
    rcases perform_none ht with e | e
    · rw [e] at hp; rw [← Res.ok.inj hp]
    · rw [e] at hp; rw [← Res.ok.inj hp]; exact newModel_model S k
  refine ⟨⟨fun i k v => ?_, fun k => ?_⟩, h⟩
  · rw [h i, h k]; exact good.disjoint i k v
  · rw [h k]; exact good.inv k

theorem perform_some_lt {op : WorkspaceOp} {j : Nat} {mop : ModelOp} {S1 : Workspace} (ht : S.target op = some (j, mop))
    (hp : S.perform op = .ok S1) : j < S.models.length := by
  by_contra hj
  have : S.step op = .ub := by
    unfold step
    cases op with
    | newModel => cases ht
    | _ =>
      dsimp only
      rw [ht]
      dsimp only
      have : guardUB (j < S.models.length) = .ub := if_neg hj
      rw [this]; rfl
  unfold perform at hp
  rw [this] at hp
  cases hp

/-- A history of operations that do not mix models. -/
theorem run_rel : ∀ {ops : List WorkspaceOp} {S S' : Workspace}, S.Good → S.AllWithin ops → S.run ops = .ok S' →
    S'.Good ∧ ∀ (k : Nat) (m : PyModel), m.Agree (S.model k) → ∃ m', m.run (S.history k ops) = .ok m' ∧ m'.Agree (S'.model k)
  | [], S, S', good, _, hr => by
    have e : S = S' := Res.ok.inj hr
    subst e
    exact ⟨good, fun k m h => ⟨m, rfl, h⟩⟩
  | op :: ops, S, S', good, hw, hr => by
    simp only [run, List.foldlM_cons, Res.bind_eq_ok] at hr
    obtain ⟨S1, hp, hr⟩ := hr
    cases ht : S.target op with
    | none =>
      obtain ⟨g1, h1⟩ := perform_none_good good ht hp
      obtain ⟨g2, h2⟩ := run_rel g1 (hw.2 S1 hp) hr
      refine ⟨g2, fun k m ha => ?_⟩
      rw [← h1 k] at ha
      obtain ⟨m', e, h'⟩ := h2 k m ha
      exact ⟨m', by simp only [history, ht, hp, List.nil_append]; exact e, h'⟩
    | some t =>
      obtain ⟨j, mop⟩ := t
      have hj := perform_some_lt ht hp
      obtain ⟨_, _, _, g1, _, hoth⟩ := (hp ▸ perform_rel good ht hw.1 hj (Agree.refl (S.model j))).ok_right
      obtain ⟨g2, h2⟩ := run_rel g1 (hw.2 S1 hp) hr
      refine ⟨g2, fun k m ha => ?_⟩
      by_cases e : j = k
      · subst e
        obtain ⟨m1, e1, ha1, _⟩ := (hp ▸ perform_rel good ht hw.1 hj ha).ok_right
        obtain ⟨m', e', h'⟩ := h2 j m1 ha1
        refine ⟨m', ?_, h'⟩
        simp only [history, ht, hp, if_true]
        rw [PyModel.run_append]
        simp only [PyModel.run, List.foldlM_cons, List.foldlM_nil, e1, Res.ok_bind] at e' ⊢
        exact e'
      · obtain ⟨m', e', h'⟩ := h2 k m (ha.trans (hoth k (Ne.symm e)))
        refine ⟨m', ?_, h'⟩
        simp only [history, ht, hp, if_neg e, List.nil_append]
        exact e'

end Workspace

end Verif
