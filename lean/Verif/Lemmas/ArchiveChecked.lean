import Verif.Lemmas.ArchiveFile

set_option linter.unusedSectionVars false
set_option linter.unusedSimpArgs false
set_option linter.unusedVariables false

/-!
# Without in-place additions, what was checked stays true
-/

namespace Verif

open Graph PyModel

namespace Draft

/-- Operands come before the symbols computed from them. -/
structure Sequential (g : Graph) : Prop where
  earlier : g.nodes.Pairwise fun a b => b ∉ (g.mem a).preds
  irrefl : ∀ a ∈ g.nodes, a ∉ (g.mem a).preds

theorem Sequential.rank {g : Graph} (h : Sequential g) (w : g.WF) {v p : Nat} (hv : v ∈ g.nodes)
    (hp : p ∈ (g.mem v).preds) : g.nodes.idxOf p < g.nodes.idxOf v := by
  have hpn := w.predMem v hv p hp
  have h1 := List.idxOf_lt_length_iff.2 hv
  have h2 := List.idxOf_lt_length_iff.2 hpn
  by_contra hc
  rcases Nat.lt_or_ge (g.nodes.idxOf v) (g.nodes.idxOf p) with hlt | hge
  · have := List.pairwise_iff_getElem.1 h.earlier _ _ h1 h2 hlt
    rw [List.getElem_idxOf, List.getElem_idxOf] at this
    exact this hp
  · have e : g.nodes.idxOf p = g.nodes.idxOf v := by omega
    have : p = v := by
      rw [← List.getElem_idxOf h1, ← List.getElem_idxOf h2]
      congr 1
    exact h.irrefl v hv (this ▸ hp)

theorem sequential_of_sorted {g : Graph} (w : g.WF) (hs : g.sorted = true) : Sequential g := by
  have hedge : ∀ a ∈ g.nodes, ∀ p ∈ (g.mem a).preds, g.topoOf p < g.topoOf a := by
    intro a ha p hp
    have hpn := w.predMem a ha p hp
    exact (w.topological hs).edge p hpn a ((w.mem_link hpn ha).2 hp)
  refine ⟨?_, fun a ha hp => Int.lt_irrefl _ (hedge a ha a hp)⟩
  refine (sorted_pairwise w hs).imp_of_mem fun {a b} ha hb hlt hp => ?_
  have := hedge a ha b hp
  omega

/-- The same symbols with the same operands declare the same. -/
theorem declared_stable {d1 d2 : Draft} (w : d1.m.g.WF) (hs : Sequential d1.m.g)
    (hle : d1.m.g.nodes.length ≤ d2.m.g.nodes.length)
    (hk : ∀ v ∈ d1.m.g.nodes, d1.S.kind v = d2.S.kind v)
    (hsh : ∀ v ∈ d1.m.g.nodes, d1.S.shapes v = d2.S.shapes v)
    (hp : ∀ v ∈ d1.m.g.nodes, (d2.m.g.mem v).preds = (d1.m.g.mem v).preds) {v : Nat} (hv : v ∈ d1.m.g.nodes) :
    d1.S.declared d1.m.g v = d2.S.declared d2.m.g v := by
  have hA : Agree (· ∈ d1.m.g.nodes) id d1 d2 :=
    ⟨fun i _ j _ e => e, fun i hi => by rw [hk i hi]; exact .same _, hsh,
      fun i hi => by rw [List.map_id]; exact hp i hi, fun i hi p hpi => w.predMem i hi p hpi⟩
  have hlt := List.idxOf_lt_length_iff.2 hv
  exact hA.answer (rank := fun v => d1.m.g.nodes.idxOf v) (fun i hi p hpi => hs.rank w hi hpi) _ v hv rfl _ _ hlt
    (by omega)

/-- What was checked is true. -/
structure Sound (d : Draft) : Prop where
  sequential : Sequential d.m.g
  checked : d.Checked Symbols.declared
  objective : ∀ o, d.m.g.objective = some o → d.S.scalar o = true
  constraints : ∀ c ∈ d.m.g.constraints, d.S.scalar c = true ∧ (d.S.declared d.m.g c).logical = true

theorem sound_new : Sound Draft.new :=
  ⟨⟨List.Pairwise.nil, by simp [Draft.new, PyModel.new, Graph.empty]⟩,
    by simp [Checked, Draft.new, PyModel.new, Graph.empty], by simp [Draft.new, PyModel.new, Graph.empty],
    by simp [Draft.new, PyModel.new, Graph.empty]⟩

/-- Keeping symbols and operands keeps everything. -/
theorem Sound.transfer {d d' : Draft} (h : d.Sound) (w : d.m.g.WF) (w' : d'.m.g.WF) (hseq : Sequential d'.m.g)
    (hin : ∀ v ∈ d'.m.g.nodes, v ∈ d.m.g.nodes)
    (hk : ∀ v ∈ d'.m.g.nodes, d'.S.kind v = d.S.kind v)
    (hsh : ∀ v ∈ d'.m.g.nodes, d'.S.shapes v = d.S.shapes v)
    (hp : ∀ v ∈ d'.m.g.nodes, (d'.m.g.mem v).preds = (d.m.g.mem v).preds)
    (ho : ∀ o, d'.m.g.objective = some o → d.m.g.objective = some o ∨ d'.S.scalar o = true)
    (hc : ∀ c ∈ d'.m.g.constraints, c ∈ d.m.g.constraints ∨
      d'.S.scalar c = true ∧ (d.S.declared d.m.g c).logical = true) : d'.Sound := by
  have hle : d'.m.g.nodes.length ≤ d.m.g.nodes.length := by
    refine List.Subperm.length_le ?_
    exact List.subperm_of_subset w'.nodup hin
  have hdec : ∀ v ∈ d'.m.g.nodes, d'.S.declared d'.m.g v = d.S.declared d.m.g v := fun v hv =>
    declared_stable w' hseq hle hk hsh (fun v hv => (hp v hv).symm) hv
  have hsc : ∀ v ∈ d'.m.g.nodes, d'.S.scalar v = d.S.scalar v := fun v hv => by
    simp only [Symbols.scalar, hsh v hv]
  refine ⟨hseq, ?_, ?_, ?_⟩
  · intro v hv
    rw [hk v hv, hp v hv, List.map_congr_left fun p hpv => hdec p (w'.predMem v hv p (by
      show p ∈ (d'.m.g.mem v).preds
      rw [hp v hv]; exact hpv))]
    exact h.checked v (hin v hv)
  · intro o hoo
    rcases ho o hoo with h1 | h1
    · rw [hsc o (w'.objMem o hoo)]; exact h.objective o h1
    · exact h1
  · intro c hcc
    have hm := w'.conMem c hcc
    rw [hdec c hm]
    rcases hc c hcc with h1 | h1
    · rw [hsc c hm]; exact h.constraints c h1
    · exact h1

theorem emplace_targets {d d' : Draft} {claim : Nat → Claim} {a : Nat} {k : Kind} {preds : List Nat}
    (h : d.emplace claim a k preds = (d', .ok ())) :
    d'.m.g.objective = d.m.g.objective ∧ d'.m.g.constraints = d.m.g.constraints := by
  unfold emplace emplaceWith at h
  split_ifs at h
  · simp at h
  · simp at h
  · split at h
    · simp only [Prod.mk.injEq, and_true] at h
      rw [← h]
      exact ⟨rfl, rfl⟩
    · simp at h
    · simp at h

theorem Sound.construct {d d' : Draft} (h : d.Sound) (hM : d.Made) {a : Nat} {k : Kind} {preds : List Nat}
    (he : d.emplace (Symbols.declared d.S d.m.g) a k preds = (d', .ok ())) : d'.Sound := by
  obtain ⟨hn, hpa, hpo, hdec⟩ := hM.constructed he
  obtain ⟨hs, ha, hp, hkind, ⟨out, hm, hsh⟩, hrc, hst⟩ := emplace_ok hM.oneOutput he
  obtain ⟨ho, hc⟩ := emplace_targets he
  have w := hM.inv.wf
  have w' := (hM.construct he).inv.wf
  have hne : ∀ v ∈ d.m.g.nodes, v ≠ a := fun v hv e => ha (e ▸ hv)
  have hdecl : ∀ v ∈ d.m.g.nodes, d.S.declared d.m.g v = d'.S.declared d'.m.g v := fun v hv =>
    declared_stable w h.sequential (by rw [hn]; simp) (fun v hv => by rw [hkind, upd_ne _ _ (hne v hv)])
      (fun v hv => by rw [hsh, upd_ne _ _ (hne v hv)]) hpo hv
  have hsc : ∀ v ∈ d.m.g.nodes, d'.S.scalar v = d.S.scalar v := fun v hv => by
    simp only [Symbols.scalar, hsh, upd_ne _ _ (hne v hv)]
  refine ⟨⟨?_, ?_⟩, ?_, ?_, ?_⟩
  · rw [hn, List.pairwise_append]
    refine ⟨h.sequential.earlier.imp_of_mem fun {x y} hx hy hxy => by rw [hpo x hx]; exact hxy,
      List.pairwise_singleton _ _, ?_⟩
    intro x hx y hy hxy
    simp only [List.mem_singleton] at hy
    subst hy
    rw [hpo x hx] at hxy
    exact ha (w.predMem x hx y hxy)
  · intro x hx
    rw [hn] at hx
    rcases List.mem_append.1 hx with hx | hx
    · rw [hpo x hx]; exact h.sequential.irrefl x hx
    · simp only [List.mem_singleton] at hx
      subst hx
      rw [hpa]
      exact fun hc => ha (hp x hc)
  · intro v hv
    rw [hn] at hv
    rcases List.mem_append.1 hv with hv | hv
    · have e : (d.m.g.mem v).preds.map (d'.S.declared d'.m.g) = (d.m.g.mem v).preds.map (d.S.declared d.m.g) :=
        List.map_congr_left fun p hpv => (hdecl p (w.predMem v hv p hpv)).symm
      rw [hpo v hv, hkind, upd_ne _ _ (hne v hv), e]
      exact h.checked v hv
    · simp only [List.mem_singleton] at hv
      subst hv
      rw [hpa, hkind, upd_same, List.map_congr_left fun p hpv => (hdecl p (hp p hpv)).symm]
      exact hrc
  · intro o hoo
    rw [ho] at hoo
    rw [hsc o (w.objMem o hoo)]
    exact h.objective o hoo
  · intro c hcc
    rw [hc] at hcc
    have hm := w.conMem c hcc
    rw [hsc c hm, ← hdecl c hm]
    exact h.constraints c hcc

theorem Sound.perform {d d' : Draft} (h : d.Sound) (hM : d.Made) {op : BuildOp}
    (hop : ∀ n p, op ≠ .addOperand n p) (he : d.perform Symbols.declared op = (d', .ok ())) : d'.Sound := by
  have w := hM.inv.wf
  have w' := (hM.perform he).inv.wf
  cases op with
  | construct a k preds => exact h.construct hM he
  | addOperand n p => exact absurd rfl (hop n p)
  | minimize o =>
    simp only [Draft.perform] at he
    split_ifs at he with hsc
    swap
    · simp at he
    simp only [onModel] at he
    cases hst : d.m.step (.minimize o) with
    | throw => rw [hst] at he; simp at he
    | ub => rw [hst] at he; simp at he
    | ok m =>
      rw [hst] at he
      simp only [Prod.mk.injEq, and_true] at he
      simp only [PyModel.step, setObjective, Res.bind_eq_ok, Res.ok.injEq] at hst
      obtain ⟨g, ⟨_, _, _, _, rfl⟩, rfl⟩ := hst
      subst he
      refine h.transfer w w' ⟨h.sequential.earlier, h.sequential.irrefl⟩ (fun v hv => hv) (fun _ _ => rfl)
        (fun _ _ => rfl) (fun _ _ => rfl) (fun o' ho' => ?_) (fun c hc => .inl hc)
      simp only [Option.some.injEq] at ho'
      subst ho'
      exact .inr hsc
  | constraint c =>
    simp only [Draft.perform] at he
    split_ifs at he with hsc
    swap
    · simp at he
    simp only [onModel] at he
    cases hst : d.m.step (.addConstraint c) with
    | throw => rw [hst] at he; simp at he
    | ub => rw [hst] at he; simp at he
    | ok m =>
      rw [hst] at he
      simp only [Prod.mk.injEq, and_true] at he
      simp only [PyModel.step, addConstraint, Res.bind_eq_ok, Res.ok.injEq] at hst
      obtain ⟨g, ⟨_, _, _, _, _, _, rfl⟩, rfl⟩ := hst
      subst he
      simp only [Bool.and_eq_true] at hsc
      refine h.transfer w w' ⟨h.sequential.earlier, h.sequential.irrefl⟩ (fun v hv => hv) (fun _ _ => rfl)
        (fun _ _ => rfl) (fun _ _ => rfl) (fun o' ho' => .inl ho') (fun c' hc' => ?_)
      rcases List.mem_append.1 hc' with hc' | hc'
      · exact .inl hc'
      · simp only [List.mem_singleton] at hc'
        subst hc'
        exact .inr ⟨hsc.2, hsc.1⟩
  | reference v b =>
    simp only [Draft.perform, onModel, PyModel.step, Prod.mk.injEq, and_true] at he
    subst he
    have e : ∀ x, ((upd d.m.g.mem v { d.m.g.mem v with listened := b }) x).preds = (d.m.g.mem x).preds := by
      intro x
      by_cases hx : x = v
      · subst hx; simp
      · simp [upd_ne _ _ hx]
    refine h.transfer w w' ⟨?_, ?_⟩ (fun v hv => hv) (fun _ _ => rfl)
        (fun _ _ => rfl) (fun x _ => e x) (fun o' ho' => .inl ho') (fun c hc => .inl hc)
    · exact h.sequential.earlier.imp fun {x y} hxy => by rw [e x]; exact hxy
    · intro x hx; rw [e x]; exact h.sequential.irrefl x hx
  | lock =>
    simp only [Draft.perform, onModel] at he
    cases hst : d.m.step .lock with
    | throw => rw [hst] at he; simp at he
    | ub => rw [hst] at he; simp at he
    | ok m =>
      rw [hst] at he
      simp only [Prod.mk.injEq, and_true] at he
      simp only [PyModel.step, Res.bind_eq_ok, Res.ok.injEq] at hst
      obtain ⟨g, hg, rfl⟩ := hst
      subst he
      by_cases hf : d.m.g.sorted = false
      · rcases w.sort_spec hf with ⟨g', e, w1, hso, hperm, hsame, hd, hob, hco, _⟩ | ⟨e, _⟩
        · rw [hg] at e; cases e
          refine h.transfer w w' (sequential_of_sorted w1 hso) (fun v hv => hperm.mem_iff.1 hv) (fun _ _ => rfl)
            (fun _ _ => rfl) (fun x _ => (hsame x).1) (fun o' ho' => .inl ?_) (fun c hc => .inl ?_)
          · rw [← hob]; exact ho'
          · rw [← hco]; exact hc
        · rw [hg] at e; cases e
      · have hf : d.m.g.sorted = true := by simpa using hf
        simp only [topologicalSort, hf, if_true, Res.ok.injEq] at hg
        subst hg
        exact h.transfer w w' h.sequential (fun v hv => hv) (fun _ _ => rfl) (fun _ _ => rfl) (fun x _ => rfl)
          (fun o' ho' => .inl ho') (fun c hc => .inl hc)
  | unlock =>
    simp only [Draft.perform, onModel] at he
    cases hst : d.m.step .unlock with
    | throw => rw [hst] at he; simp at he
    | ub => rw [hst] at he; simp at he
    | ok m =>
      rw [hst] at he
      simp only [Prod.mk.injEq, and_true] at he
      subst he
      simp only [PyModel.step] at hst
      split_ifs at hst
      · cases hst
        exact h
      · cases hst
        obtain ⟨w1, hso, hsame, hn, hd, hob, hco⟩ := reset_spec w
        refine h.transfer w w' ⟨?_, ?_⟩ (fun v hv => hn ▸ hv) (fun _ _ => rfl)
          (fun _ _ => rfl) (fun x _ => (hsame x).1) (fun o' ho' => .inl ?_) (fun c hc => .inl ?_)
        · show (resetTopologicalSort d.m.g).nodes.Pairwise _
          rw [hn]
          exact h.sequential.earlier.imp fun {x y} hxy => by rw [(hsame x).1]; exact hxy
        · intro x hx
          rw [(hsame x).1]
          exact h.sequential.irrefl x (hn ▸ hx)
        · rw [← hob]; exact ho'
        · rw [← hco]; exact hc
      · cases hst
        exact h.transfer w w' h.sequential (fun v hv => hv) (fun _ _ => rfl) (fun _ _ => rfl) (fun x _ => rfl)
          (fun o' ho' => .inl ho') (fun c hc => .inl hc)
  | removeUnused =>
    simp only [Draft.perform] at he
    cases hst : d.m.step .removeUnused with
    | throw => rw [hst] at he; simp at he
    | ub => rw [hst] at he; simp at he
    | ok m =>
      rw [hst] at he
      simp only [Prod.mk.injEq, and_true] at he
      subst he
      simp only [step, Res.bind_eq_ok, Res.ok.injEq, guardThrow] at hst
      obtain ⟨_, h1, r, hr, rfl⟩ := hst
      split_ifs at h1 with hl
      have hl' : ¬ 0 < d.m.lockCount := by simpa [isLocked] using hl
      have hf : d.m.g.sorted = false := by
        by_contra hc
        exact hl' (hM.inv.sorted.1 (by simpa using hc))
      rcases w.sort_spec hf with ⟨g1, e, w1, hso, hperm, hsame, hd, hob, hco, _⟩ | ⟨e, _⟩
      · obtain ⟨g', e2, w2, hso', hsurv, ⟨q, hq⟩, hfields, hd', hob', hco'⟩ := removeUnused_sorted w1 hso false
        have : d.m.g.removeUnused false = g1.removeUnused false := by
          simp only [removeUnused, e, Res.ok_bind]
          rw [show g1.topologicalSort = .ok g1 by simp [topologicalSort, hso]]
          simp only [Res.ok_bind]
        rw [this, e2] at hr
        cases hr
        have hin : ∀ v ∈ g'.nodes, v ∈ d.m.g.nodes := fun v hv => hperm.mem_iff.1 ((hsurv v).1 hv).1
        have hs1 := sequential_of_sorted w1 hso
        have hpr : ∀ v ∈ g'.nodes, (g'.mem v).preds = (d.m.g.mem v).preds := fun v hv => by
          rw [(hfields v hv).1, (hsame v).1]
        have hseq : Sequential g' := by
          refine ⟨?_, fun x hx => by rw [(hfields x hx).1]; exact hs1.irrefl x ((hsurv x).1 hx).1⟩
          have : g'.nodes.Pairwise fun a b => b ∉ (g1.mem a).preds := by
            rw [hq]; exact hs1.earlier.filter _
          exact this.imp_of_mem fun {x y} hx hy hxy => by rw [(hfields x hx).1]; exact hxy
        refine h.transfer w w' hseq hin (fun v hv => ?_) (fun _ _ => rfl) hpr (fun o' ho' => .inl ?_)
          (fun c hc => .inl ?_)
        · exact if_pos hv
        · rw [← hob, ← hob']; exact ho'
        · rw [← hco, ← hco']; exact hc
      · simp [removeUnused, e] at hr

theorem run_sound {ops : List BuildOp} : ∀ {d d' : Draft}, d.Sound → d.Made →
    (∀ op ∈ ops, ∀ n p, op ≠ .addOperand n p) → Draft.NaryAccepted Symbols.declared d ops →
    d.run Symbols.declared ops = .ok d' → d'.Sound := by
  induction ops with
  | nil => intro d d' hS h _ _ hr; simp only [Draft.run, Res.ok.injEq] at hr; exact hr ▸ hS
  | cons op ops ih =>
    intro d d' hS h hops hn hr
    simp only [Draft.run] at hr
    generalize hp : d.perform Symbols.declared op = r at hr
    obtain ⟨d1, res⟩ := r
    have hn2 : Draft.NaryAccepted Symbols.declared d1 ops := by have := hn.2; rwa [hp] at this
    have ho2 : ∀ op ∈ ops, ∀ n p, op ≠ .addOperand n p := fun o ho => hops o (by simp [ho])
    cases res with
    | ok u => exact ih (hS.perform h (hops op (by simp)) hp) (h.perform hp) ho2 hn2 hr
    | ub => simp at hr
    | throw =>
      have hd : d1 = d := by
        refine Draft.perform_throw hp fun a o preds he => ?_
        exact hn.1 a o preds he (by rw [hp])
      subst hd
      simp only at hr
      split at hr
      · simp at hr
      · simp at hr
      · exact ih hS h ho2 hn2 hr

end Draft
end Verif
