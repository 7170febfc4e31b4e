import Verif.Lemmas.Build

set_option linter.unusedSectionVars false
set_option linter.unusedSimpArgs false
set_option linter.unusedVariables false

/-!
# Every model built by constructors is assembled
-/

namespace Verif

open Graph PyModel

/-- Operations that make no new symbols or connections. -/
theorem step_keeps {m m' : PyModel} (h : m.Inv) {op : ModelOp} (hs : m.step op = .ok m')
    (hop : (∃ o, op = .minimize o) ∨ (∃ c, op = .addConstraint c) ∨ (∃ v b, op = .reference v b) ∨ op = .lock ∨
      op = .unlock ∨ op = .removeUnused) :
    (∀ v ∈ m'.g.nodes, v ∈ m.g.nodes ∧ (m'.g.mem v).preds = (m.g.mem v).preds) ∧
      m'.g.decisions = m.g.decisions ∧ (op ≠ .removeUnused → ∀ v ∈ m.g.nodes, v ∈ m'.g.nodes) := by
  rcases hop with ⟨o, rfl⟩ | ⟨c, rfl⟩ | ⟨v, b, rfl⟩ | rfl | rfl | rfl
  · simp only [step, setObjective, Res.bind_eq_ok, Res.ok.injEq] at hs
    obtain ⟨g, ⟨_, _, _, _, rfl⟩, rfl⟩ := hs
    exact ⟨fun v hv => ⟨hv, rfl⟩, rfl, fun _ v hv => hv⟩
  · simp only [step, Graph.addConstraint, Res.bind_eq_ok, Res.ok.injEq] at hs
    obtain ⟨g, ⟨_, _, _, _, _, _, rfl⟩, rfl⟩ := hs
    exact ⟨fun v hv => ⟨hv, rfl⟩, rfl, fun _ v hv => hv⟩
  · simp only [step, Res.ok.injEq] at hs
    subst hs
    refine ⟨fun w hw => ⟨hw, ?_⟩, rfl, fun _ v hv => hv⟩
    by_cases hv : w = v
    · subst hv; simp
    · simp [upd_ne _ _ hv]
  · simp only [step, Res.bind_eq_ok, Res.ok.injEq] at hs
    obtain ⟨g, hg, rfl⟩ := hs
    by_cases hf : m.g.sorted = false
    · rcases h.wf.sort_spec hf with ⟨g', e, w, hso, hperm, hsame, hd, _⟩ | ⟨e, _⟩
      · rw [hg] at e; cases e
        exact ⟨fun v hv => ⟨hperm.mem_iff.1 hv, (hsame v).1⟩, hd, fun _ v hv => hperm.mem_iff.2 hv⟩
      · rw [hg] at e; cases e
    · have hf : m.g.sorted = true := by simpa using hf
      simp only [topologicalSort, hf, if_true, Res.ok.injEq] at hg
      subst hg
      exact ⟨fun v hv => ⟨hv, rfl⟩, rfl, fun _ v hv => hv⟩
  · simp only [step] at hs
    split_ifs at hs
    · cases hs
      exact ⟨fun v hv => ⟨hv, rfl⟩, rfl, fun _ v hv => hv⟩
    · cases hs
      obtain ⟨w, hso, hsame, hn, hd, _⟩ := reset_spec h.wf
      exact ⟨fun v hv => ⟨hn ▸ hv, (hsame v).1⟩, hd, fun _ v hv => by simpa [hn] using hv⟩
    · cases hs
      exact ⟨fun v hv => ⟨hv, rfl⟩, rfl, fun _ v hv => hv⟩
  · simp only [step, Res.bind_eq_ok, Res.ok.injEq, guardThrow] at hs
    obtain ⟨_, h1, r, hr, rfl⟩ := hs
    split_ifs at h1 with hl
    have hl' : ¬ 0 < m.lockCount := by simpa [isLocked] using hl
    have hf : m.g.sorted = false := by
      by_contra hc
      exact hl' (h.sorted.1 (by simpa using hc))
    rcases h.wf.sort_spec hf with ⟨g1, e, w, hso, hperm, hsame, hd, _⟩ | ⟨e, _⟩
    · obtain ⟨g', e2, w', hso', hsurv, _, hfields, hd', _⟩ := removeUnused_sorted w hso false
      have : m.g.removeUnused false = g1.removeUnused false := by
        simp only [removeUnused, e, Res.ok_bind]
        rw [show g1.topologicalSort = .ok g1 by simp [topologicalSort, hso]]
        simp only [Res.ok_bind]
      rw [this, e2] at hr
      cases hr
      refine ⟨fun v hv => ⟨hperm.mem_iff.1 ((hsurv v).1 hv).1, ?_⟩, hd'.trans hd, fun hx => absurd rfl hx⟩
      rw [(hfields v hv).1, (hsame v).1]
    · simp [removeUnused, e] at hr

namespace Kind

theorem make_nary_inv {op : NaryOp} {shapes : Nat → List (List Int)} {preds : List Nat} {out : List (List Int)}
    (h : (nary op).make (preds.map shapes) = .ok out) :
    preds ≠ [] ∧ (∀ p ∈ preds, (shapes p).length = 1) ∧ (∀ p ∈ preds, NaryFits shapes (preds.headD 0) p) ∧
      out = [shape1 (shapes (preds.headD 0))] := by
  have hne : preds ≠ [] := by
    rintro rfl
    simp [make, naryShape] at h
  have h1 : ∀ l : List Nat, ∀ ss, (l.map shapes).mapM arrayShape = .ok ss → ∀ p ∈ l, (shapes p).length = 1 := by
    intro l
    induction l with
    | nil => simp
    | cons p l ih =>
      intro ss hss q hq
      rw [List.map_cons, List.mapM_cons, Res.bind_eq_ok] at hss
      obtain ⟨s, hs, hss⟩ := hss
      obtain ⟨ss', hss', _⟩ := Res.bind_eq_ok.1 hss
      rcases List.mem_cons.1 hq with rfl | hq
      · match hsh : shapes q, hs with
        | [t], _ => rfl
      · exact ih ss' hss' q hq
  have hone : ∀ p ∈ preds, (shapes p).length = 1 := by
    simp only [make, Res.bind_eq_ok] at h
    obtain ⟨ss, hss, _⟩ := h
    exact h1 _ _ hss
  have h2 : ∀ l : List Nat, (∀ p ∈ l, (shapes p).length = 1) →
      (l.map shapes).mapM arrayShape = .ok (l.map fun p => shape1 (shapes p)) := by
    intro l hl
    induction l with
    | nil => rfl
    | cons p l ih =>
      have hp := hl p (by simp)
      rw [List.map_cons, List.mapM_cons, ih fun q hq => hl q (List.mem_cons_of_mem _ hq)]
      match hsh : shapes p, hp with
      | [s], _ => simp [arrayShape, shape1, hsh]
  have h3 : ∀ (s : List Int) (l : List (List Int)),
      (l.forM fun t => do guardThrow (dynamicShape t = false); guardThrow (s = t)) = Res.ok () →
      ∀ t ∈ l, dynamicShape t = false ∧ t = s := by
    intro s l hl
    induction l with
    | nil => simp
    | cons t l ih =>
      simp only [List.forM] at hl
      obtain ⟨_, ha, hb⟩ := Res.bind_eq_ok.1 hl
      obtain ⟨_, hc, hd⟩ := Res.bind_eq_ok.1 ha
      intro u hu
      rcases List.mem_cons.1 hu with rfl | hu
      · exact ⟨guardThrow_eq_ok.1 hc, (guardThrow_eq_ok.1 hd).symm⟩
      · exact ih hb u hu
  have hfit : ∀ p ∈ preds, NaryFits shapes (preds.headD 0) p := by
    simp only [make] at h
    rw [h2 _ hone, Res.ok_bind] at h
    obtain ⟨s, hs, _⟩ := Res.bind_eq_ok.1 h
    cases preds with
    | nil => exact absurd rfl hne
    | cons q preds =>
      simp only [List.map_cons, naryShape, Res.bind_eq_ok] at hs
      obtain ⟨_, hf, _⟩ := hs
      intro p hp
      have := h3 (shape1 (shapes q)) ((q :: preds).map fun p => shape1 (shapes p)) hf (shape1 (shapes p))
        (List.mem_map.2 ⟨p, hp, rfl⟩)
      exact this
  refine ⟨hne, hone, hfit, ?_⟩
  rw [make_nary hone hne hfit] at h
  simpa using h.symm

end Kind

namespace Draft

/-- What holds of all models built from constructors that have not been rejected half-way. -/
structure Made (d : Draft) : Prop where
  reached : ∃ mops, PyModel.new.run mops = .ok d.m
  made : ∀ v ∈ d.m.g.nodes, (d.S.kind v).make (d.S.inShapes d.m.g v) = .ok (d.S.shapes v)
  decisions : ∀ v ∈ d.m.g.nodes, v ∈ d.m.g.decisions ↔ (d.S.kind v).isDecision = true
  unused : ∀ v, v ∉ d.m.g.nodes → d.S.kind v = .constant ⟨[], []⟩

theorem Made.oneOutput {d : Draft} (h : d.Made) : d.OneOutput :=
  fun p hp ha => Kind.make_array ha (h.made p hp)

theorem Made.inv {d : Draft} (h : d.Made) : d.m.Inv := by
  obtain ⟨mops, hr⟩ := h.reached
  exact reachable hr

theorem made_new : Made new := by
  refine ⟨⟨[], rfl⟩, ?_, ?_, ?_⟩ <;> simp [new, PyModel.new, Graph.empty]

theorem reached_step {m m' : PyModel} (h : ∃ mops, PyModel.new.run mops = .ok m) {op : ModelOp}
    (hs : m.step op = .ok m') : ∃ mops, PyModel.new.run mops = .ok m' := by
  obtain ⟨mops, hr⟩ := h
  refine ⟨mops ++ [op], ?_⟩
  rw [run_append, hr, Res.ok_bind]
  simp only [PyModel.run, List.foldlM_cons, List.foldlM_nil, PyModel.perform, hs]
  rfl

/-- What a successful constructor changes. -/
theorem Made.constructed {d d' : Draft} (h : d.Made) {claim : Nat → Claim} {a : Nat} {k : Kind}
    {preds : List Nat} (he : d.emplace claim a k preds = (d', .ok ())) :
    d'.m.g.nodes = d.m.g.nodes ++ [a] ∧ (d'.m.g.mem a).preds = preds ∧
      (∀ v ∈ d.m.g.nodes, (d'.m.g.mem v).preds = (d.m.g.mem v).preds) ∧
      d'.m.g.decisions =
        if (k.resolve d.m.g.mem preds).isDecision then d.m.g.decisions ++ [a] else d.m.g.decisions := by
  obtain ⟨hs, ha, hp, hkind, ⟨out, hm, hsh⟩, _, hst⟩ := emplace_ok h.oneOutput he
  generalize hk' : k.resolve d.m.g.mem preds = k' at *
  have w := h.inv.wf
  cases hd : k'.isDecision with
  | true =>
    have hps : preds = [] := by simpa using Kind.decision_preds hd hm
    obtain ⟨g', e, _, _, h1, h2, _, _, h3, h4⟩ := emplaceDecision_spec w hs ha
    simp only [Kind.op, hd, if_true, PyModel.step, e, Res.ok_bind, Res.ok.injEq] at hst
    rw [← hst]
    exact ⟨h1, by rw [hps]; exact h3, h4, by simpa using h2⟩
  | false =>
    obtain ⟨g', e, _, _, h1, h2, _, _, h3, h4⟩ := emplaceNode_spec w hs ha hp k'.removable
    simp only [Kind.op, hd, Bool.false_eq_true, if_false, PyModel.step, e, Res.ok_bind, Res.ok.injEq] at hst
    rw [← hst]
    exact ⟨h1, h3, h4, by simpa using h2⟩

theorem Made.construct {d d' : Draft} (h : d.Made) {claim : Nat → Claim} {a : Nat} {k : Kind}
    {preds : List Nat} (he : d.emplace claim a k preds = (d', .ok ())) : d'.Made := by
  have key := h.constructed he
  obtain ⟨hs, ha, hp, hkind, ⟨out, hm, hsh⟩, _, hst⟩ := emplace_ok h.oneOutput he
  have hreach := reached_step h.reached hst
  generalize hk' : k.resolve d.m.g.mem preds = k' at *
  have hne : ∀ v ∈ d.m.g.nodes, v ≠ a := fun v hv e => ha (e ▸ hv)
  have w := h.inv.wf
  obtain ⟨hn, hpa, hpo, hdec⟩ := key
  have had : a ∉ d.m.g.decisions := fun hx => ha (w.decMem a hx)
  refine ⟨hreach, ?_, ?_, ?_⟩
  · intro v hv
    rw [hn] at hv
    have hin : ∀ ps : List Nat, (∀ p ∈ ps, p ∈ d.m.g.nodes) → ps.map d'.S.shapes = ps.map d.S.shapes := by
      intro ps hps
      refine List.map_congr_left fun p hq => ?_
      rw [hsh, upd_ne _ _ (hne p (hps p hq))]
    rcases List.mem_append.1 hv with hv | hv
    · rw [Symbols.inShapes, hpo v hv, hin (d.m.g.mem v).preds (w.predMem v hv), hkind, hsh, upd_ne _ _ (hne v hv),
        upd_ne _ _ (hne v hv)]
      exact h.made v hv
    · obtain rfl : v = a := by simpa using hv
      rw [Symbols.inShapes, hpa, hin _ hp, hkind, hsh, upd_same, upd_same]
      exact hm
  · intro v hv
    rw [hn] at hv
    rw [hdec, hkind]
    rcases List.mem_append.1 hv with hv | hv
    · rw [upd_ne _ _ (hne v hv), ← h.decisions v hv]
      split_ifs
      · simp [hne v hv]
      · rfl
    · obtain rfl : v = a := by simpa using hv
      rw [upd_same]
      cases k'.isDecision <;> simp [had]
  · intro v hv
    rw [hn] at hv
    simp only [List.mem_append, List.mem_singleton, not_or] at hv
    rw [hkind, upd_ne _ _ hv.2]
    exact h.unused v hv.1

/-- A successful in-place addition of an operand. -/
theorem Made.added {d d' : Draft} (h : d.Made) {n p : Nat} (he : d.addNode n p = (d', .ok ())) :
    d'.Made ∧ d'.S = d.S ∧ d'.m.g.nodes = d.m.g.nodes ∧ d'.m.g.decisions = d.m.g.decisions ∧
      ∀ v, (d'.m.g.mem v).preds = if v = n then (d.m.g.mem n).preds ++ [p] else (d.m.g.mem v).preds := by
  unfold Draft.addNode at he
  cases hk : d.S.kind n with
  | nary op =>
    rw [hk] at he
    simp only at he
    by_cases c1 : n ∉ d.m.g.nodes ∨ p ∉ d.m.g.nodes ∨ (d.S.kind p).isArray = false
    · rw [if_pos c1] at he; simp at he
    rw [if_neg c1] at he
    push Not at c1
    split_ifs at he with c2 c3 c4
    · simp at he
    · simp at he
    · simp at he
    · unfold onModel at he
      cases hst : d.m.step (.addOperand n p) with
      | throw => rw [hst] at he; simp at he
      | ub => rw [hst] at he; simp at he
      | ok m =>
        rw [hst] at he
        simp only [Prod.mk.injEq, and_true] at he
        subst he
        have hreach := reached_step h.reached hst
        have hst' := hst
        simp only [PyModel.step, Graph.addPredecessor, Res.bind_eq_ok, Res.ok.injEq] at hst'
        obtain ⟨g, ⟨_, hg1, _, _, _, _, rfl⟩, rfl⟩ := hst'
        have hg1 := guardUB_eq_ok.1 hg1
        have hpreds : ∀ v, ((upd (upd d.m.g.mem p { d.m.g.mem p with succs := (d.m.g.mem p).succs ++ [n] }) n
            { (upd d.m.g.mem p { d.m.g.mem p with succs := (d.m.g.mem p).succs ++ [n] }) n with
              preds := ((upd d.m.g.mem p { d.m.g.mem p with succs := (d.m.g.mem p).succs ++ [n] }) n).preds ++ [p] })
            v).preds = if v = n then (d.m.g.mem n).preds ++ [p] else (d.m.g.mem v).preds := by
          intro v
          by_cases h1 : v = n
          · subst h1
            by_cases h2 : v = p
            · subst h2; simp
            · simp [upd_ne _ _ h2]
          · rw [upd_ne _ _ h1, if_neg h1]
            by_cases h2 : v = p
            · subst h2; simp
            · rw [upd_ne _ _ h2]
        refine ⟨⟨hreach, ?_, h.decisions, h.unused⟩, rfl, rfl, rfl, hpreds⟩
        intro v hv
        simp only [Symbols.inShapes, hpreds]
        by_cases hv' : v = n
        · subst hv'
          rw [if_pos rfl, hk]
          have hm := h.made v hv
          rw [hk, Symbols.inShapes] at hm
          obtain ⟨e1, e2, e3, e4⟩ := Kind.make_nary_inv hm
          have hhd : ((d.m.g.mem v).preds ++ [p]).headD 0 = (d.m.g.mem v).preds.headD 0 := by
            cases hq : (d.m.g.mem v).preds with
            | nil => exact absurd hq e1
            | cons q l => rfl
          rw [e4, ← hhd]
          refine Kind.make_nary ?_ (by simp) ?_
          · intro q hq
            rcases List.mem_append.1 hq with hq | hq
            · exact e2 q hq
            · obtain rfl : q = p := by simpa using hq
              exact h.oneOutput q c1.2.1 (by simpa using c1.2.2)
          · intro q hq
            rw [hhd]
            rcases List.mem_append.1 hq with hq | hq
            · exact e3 q hq
            · obtain rfl : q = p := by simpa using hq
              refine ⟨by simpa using c3, ?_⟩
              have : Kind.shape1 (d.S.shapes v) = Kind.shape1 (d.S.shapes ((d.m.g.mem v).preds.headD 0)) := by
                rw [e4]; rfl
              rw [← this]
              simpa using (not_not.1 c4).symm
        · rw [if_neg hv']
          exact h.made v hv
  | _ => rw [hk] at he; simp at he

theorem Made.addNode {d d' : Draft} (h : d.Made) {n p : Nat} (he : d.addNode n p = (d', .ok ())) : d'.Made :=
  (h.added he).1

theorem Made.keeps {d : Draft} (h : d.Made) {op : ModelOp} {m : PyModel} (hs : d.m.step op = .ok m)
    (hop : (∃ o, op = .minimize o) ∨ (∃ c, op = .addConstraint c) ∨ (∃ v b, op = .reference v b) ∨ op = .lock ∨
      op = .unlock ∨ op = .removeUnused) : Made (forget { d with m := m }) := by
  obtain ⟨h1, h2, h3⟩ := step_keeps h.inv hs hop
  refine ⟨reached_step h.reached hs, ?_, ?_, ?_⟩
  · intro v hv
    have hv : v ∈ m.g.nodes := hv
    simp only [forget, Symbols.inShapes, if_pos hv]
    rw [(h1 v hv).2]
    exact h.made v (h1 v hv).1
  · intro v hv
    have hv : v ∈ m.g.nodes := hv
    simp only [forget, if_pos hv]
    rw [h2]
    exact h.decisions v (h1 v hv).1
  · intro v hv
    have hv : v ∉ m.g.nodes := hv
    simp only [forget, if_neg hv]

theorem forget_same {d : Draft} (h : d.Made) {m : PyModel} (hm : ∀ v ∈ d.m.g.nodes, v ∈ m.g.nodes) :
    forget { d with m := m } = { d with m := m } := by
  unfold forget
  have : (fun v => if v ∈ m.g.nodes then d.S.kind v else .constant ⟨[], []⟩) = d.S.kind := by
    funext v
    by_cases hv : v ∈ m.g.nodes
    · rw [if_pos hv]
    · rw [if_neg hv, h.unused v fun hx => hv (hm v hx)]
  simp only [this]

theorem Made.onModel {d d' : Draft} (h : d.Made) {op : ModelOp} (he : d.onModel op = (d', .ok ()))
    (hop : (∃ o, op = .minimize o) ∨ (∃ c, op = .addConstraint c) ∨ (∃ v b, op = .reference v b) ∨ op = .lock ∨
      op = .unlock) : d'.Made := by
  unfold Draft.onModel at he
  cases hst : d.m.step op with
  | throw => rw [hst] at he; simp at he
  | ub => rw [hst] at he; simp at he
  | ok m =>
    rw [hst] at he
    simp only [Prod.mk.injEq, and_true] at he
    subst he
    have hop' : (∃ o, op = .minimize o) ∨ (∃ c, op = .addConstraint c) ∨ (∃ v b, op = .reference v b) ∨ op = .lock ∨
      op = .unlock ∨ op = .removeUnused := by
      rcases hop with x | x | x | x | x
      · exact .inl x
      · exact .inr (.inl x)
      · exact .inr (.inr (.inl x))
      · simp [x]
      · simp [x]
    have hne : op ≠ .removeUnused := by
      rcases hop with ⟨_, rfl⟩ | ⟨_, rfl⟩ | ⟨_, _, rfl⟩ | rfl | rfl <;> simp
    have := h.keeps hst hop'
    rwa [forget_same h ((step_keeps h.inv hst hop').2.2 hne)] at this

theorem onModel_throw {d d' : Draft} {op : ModelOp} (he : d.onModel op = (d', .throw)) : d' = d := by
  unfold Draft.onModel at he
  cases hst : d.m.step op with
  | throw => rw [hst] at he; simpa using he.symm
  | ub => rw [hst] at he; simp at he
  | ok m => rw [hst] at he; simp at he

/-- One successful operation. -/
theorem Made.perform {d d' : Draft} (h : d.Made) {decl : Symbols → Graph → Nat → Claim} {op : BuildOp}
    (he : d.perform decl op = (d', .ok ())) : d'.Made := by
  cases op with
  | construct a k preds => exact h.construct he
  | addOperand n p => exact h.addNode he
  | minimize o =>
    simp only [Draft.perform] at he
    split_ifs at he
    · exact h.onModel he (.inl ⟨o, rfl⟩)
    · simp at he
  | constraint c =>
    simp only [Draft.perform] at he
    split_ifs at he
    · exact h.onModel he (.inr (.inl ⟨c, rfl⟩))
    · simp at he
  | reference v b => exact h.onModel (op := .reference v b) he (.inr (.inr (.inl ⟨v, b, rfl⟩)))
  | lock => exact h.onModel (op := .lock) he (by simp)
  | unlock => exact h.onModel (op := .unlock) he (by simp)
  | removeUnused =>
    simp only [Draft.perform] at he
    cases hst : d.m.step .removeUnused with
    | throw => rw [hst] at he; simp at he
    | ub => rw [hst] at he; simp at he
    | ok m =>
      rw [hst] at he
      simp only [Prod.mk.injEq, and_true] at he
      subst he
      exact h.keeps hst (by simp)

/-- A rejected operation leaves the model as it was, except that a constructor of an n-ary symbol may have
entered the symbol with some of its operands. -/
theorem perform_throw {d d' : Draft} {decl : Symbols → Graph → Nat → Claim} {op : BuildOp}
    (he : d.perform decl op = (d', .throw)) (hn : ∀ a o preds, op ≠ .construct a (.nary o) preds) : d' = d := by
  cases op with
  | construct a k preds =>
    rcases emplace_throw he with h | ⟨o, _, _, _, rfl, _⟩
    · exact h
    · exact absurd rfl (hn a o preds)
  | addOperand n p =>
    simp only [Draft.perform, Draft.addNode] at he
    split at he
    · split_ifs at he
      · simp at he
      · simpa using he.symm
      · simpa using he.symm
      · simpa using he.symm
      · exact onModel_throw he
    · simp at he
  | minimize o =>
    simp only [Draft.perform] at he
    split_ifs at he
    · exact onModel_throw he
    · simpa using he.symm
  | constraint c =>
    simp only [Draft.perform] at he
    split_ifs at he
    · exact onModel_throw he
    · simpa using he.symm
  | reference v b => exact onModel_throw (op := .reference v b) he
  | lock => exact onModel_throw (op := .lock) he
  | unlock => exact onModel_throw (op := .unlock) he
  | removeUnused =>
    simp only [Draft.perform] at he
    cases hst : d.m.step .removeUnused with
    | throw => rw [hst] at he; simpa using he.symm
    | ub => rw [hst] at he; simp at he
    | ok m => rw [hst] at he; simp at he

end Draft
end Verif
