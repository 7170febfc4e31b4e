import Verif.Lemmas.StableSort
import Verif.Props.Build

set_option linter.unusedSectionVars false
set_option linter.unusedSimpArgs false
set_option linter.unusedVariables false

/-!
# Operands have the right type; parts of disjoint decisions come in order
-/

namespace Verif

open Graph PyModel

namespace Draft

/-- Operands have the type the constructor takes; the successors of a disjoint decision are its parts, in the order
of the symbols of the model, and they are numbered in that order. -/
structure Orderly (d : Draft) : Prop where
  typed : ∀ v ∈ d.m.g.nodes, (d.S.kind v).typed ((d.m.g.mem v).preds.map d.S.kind) = true
  inOrder : ∀ p ∈ d.m.g.nodes, (d.S.kind p).isArray = false →
    (d.m.g.mem p).succs = d.m.g.nodes.filter fun w => decide (p ∈ (d.m.g.mem w).preds)
  numbered : ∀ p ∈ d.m.g.nodes, (d.S.kind p).isArray = false → ∀ j w, (d.m.g.mem p).succs[j]? = some w →
    d.S.kind w = .output j
  kept : ∀ v ∈ d.m.g.nodes, (∃ j, d.S.kind v = .output j) → (d.m.g.mem v).removable = false

theorem orderly_new : Orderly new := by
  refine ⟨?_, ?_, ?_, ?_⟩ <;> simp [new, PyModel.new, Graph.empty]

theorem output_or (k : Kind) : (∃ j, k = .output j) ∨ ∀ j, k ≠ .output j := by
  cases k <;> simp

theorem typed_array {k : Kind} (hk : ∀ j, k ≠ .output j) {ks : List Kind} (h : k.typed ks = true) :
    ∀ p ∈ ks, p.isArray = true := by
  cases k <;> first
    | exact absurd rfl (hk _)
    | simpa [Kind.typed] using h

theorem typed_output {j : Nat} {ks : List Kind} (h : (Kind.output j).typed ks = true) :
    ∀ p ∈ ks, p.isArray = false := by
  simpa [Kind.typed] using h

theorem isArray_decision {k : Kind} (h : k.isArray = false) : k.isDecision = true := by
  cases k <;> simp_all [Kind.isArray, Kind.isDecision]

theorem make_output {j : Nat} {ps : List (List (List Int))} {out : List (List Int)}
    (h : (Kind.output j).make ps = .ok out) : ps.length = 1 := by
  match ps, h with
  | [_], _ => rfl
  | [], h => simp [Kind.make] at h
  | _ :: _ :: _, h => simp [Kind.make] at h

/-- Symbols with an operand that is not an array are parts. -/
theorem Orderly.part {d : Draft} (h : d.Orderly) (hm : d.Made) {p w : Nat} (hp : p ∈ d.m.g.nodes)
    (ha : (d.S.kind p).isArray = false) (hw : w ∈ d.m.g.nodes) (hpw : p ∈ (d.m.g.mem w).preds) :
    (∃ j, d.S.kind w = .output j) ∧ (d.m.g.mem w).preds = [p] := by
  rcases output_or (d.S.kind w) with ⟨j, hj⟩ | hj
  · refine ⟨⟨j, hj⟩, ?_⟩
    have := hm.made w hw
    rw [hj] at this
    have := make_output this
    simp only [Symbols.inShapes, List.length_map] at this
    match hps : (d.m.g.mem w).preds, this with
    | [q], _ => rw [hps] at hpw; simp at hpw; rw [hpw]
  · have := typed_array hj (h.typed w hw) (d.S.kind p) (List.mem_map.2 ⟨p, hpw, rfl⟩)
    rw [ha] at this
    cases this

theorem emplace_typed {d d' : Draft} {claim : Nat → Claim} {a : Nat} {k : Kind} {preds : List Nat}
    (h : d.emplace claim a k preds = (d', .ok ())) : k.typed (preds.map d.S.kind) = true := by
  unfold emplace emplaceWith at h
  split_ifs at h
  · simp at h
  · simp at h
  · cases ht : k.typed (preds.map d.S.kind) with
    | true => rfl
    | false => simp [ht, Act.run] at h

theorem resolve_typed (k : Kind) (mem : Nat → GNode) (preds : List Nat) (ks : List Kind) :
    (k.resolve mem preds).typed ks = k.typed ks := by
  unfold Kind.resolve; split <;> rfl

/-- The memory after a constructor. -/
theorem Made.emplace_mem {d d' : Draft} (h : d.Made) {claim : Nat → Claim} {a : Nat} {k : Kind}
    {preds : List Nat} (he : d.emplace claim a k preds = (d', .ok ())) :
    (∀ v, v ≠ a → (d'.m.g.mem v).succs = (d.m.g.mem v).succs ++ List.replicate (preds.count v) a ∧
      (d'.m.g.mem v).removable = (d.m.g.mem v).removable) ∧
    (d'.m.g.mem a).succs = [] ∧ (d'.m.g.mem a).removable = (k.resolve d.m.g.mem preds).removable := by
  obtain ⟨hs, ha, hp, hkind, ⟨out, hm, hsh⟩, _, hst⟩ := emplace_ok h.oneOutput he
  generalize hk' : k.resolve d.m.g.mem preds = k' at *
  have hdec : k'.isDecision = true → preds = [] := fun hd => by simpa using Kind.decision_preds hd hm
  rw [enter_step hs ha hp hdec] at hst
  have hap : a ∉ preds := fun h => ha (hp a h)
  simp only [Res.ok.injEq] at hst
  have key : ∀ v, (d'.m.g.mem v).succs =
        (Act.links a preds (upd d.m.g.mem a { removable := k'.removable }) v).succs ∧
      (d'.m.g.mem v).removable =
        (Act.links a preds (upd d.m.g.mem a { removable := k'.removable }) v).removable := by
    intro v
    rw [← hst]
    simp only [enter]
    split_ifs
    · by_cases hv : v = a
      · subst hv; simp
      · simp [upd_ne _ _ hv]
    · exact ⟨rfl, rfl⟩
  refine ⟨fun v hv => ?_, ?_, ?_⟩
  · rw [(key v).1, (key v).2, Act.links_eq hap, if_neg hv, upd_ne _ _ hv]
    exact ⟨rfl, rfl⟩
  · rw [(key a).1, Act.links_eq hap, if_pos rfl, upd_same]
  · rw [(key a).2, Act.links_eq hap, if_pos rfl, upd_same]

theorem Orderly.construct {d d' : Draft} (h : d.Orderly) (hM : d.Made) {claim : Nat → Claim} {a : Nat} {k : Kind}
    {preds : List Nat} (he : d.emplace claim a k preds = (d', .ok ())) : d'.Orderly := by
  obtain ⟨hn, hpa, hpo, hdec⟩ := hM.constructed he
  obtain ⟨hs, ha, hp, hkind, ⟨out, hm, hsh⟩, _, hst⟩ := emplace_ok hM.oneOutput he
  obtain ⟨hmem, hmema, hrem⟩ := hM.emplace_mem he
  have ht := emplace_typed he
  rw [← resolve_typed k d.m.g.mem preds] at ht
  have hk0 : k.resolve d.m.g.mem preds = k.resolve d.m.g.mem preds := rfl
  generalize hk' : k.resolve d.m.g.mem preds = k' at *
  have hne : ∀ v ∈ d.m.g.nodes, v ≠ a := fun v hv e => ha (e ▸ hv)
  have w := hM.inv.wf
  have hkm : ∀ ps : List Nat, (∀ p ∈ ps, p ∈ d.m.g.nodes) → ps.map d'.S.kind = ps.map d.S.kind := by
    intro ps hps
    refine List.map_congr_left fun p hq => ?_
    rw [hkind, upd_ne _ _ (hne p (hps p hq))]
  have hold : ∀ v ∈ d.m.g.nodes, d'.S.kind v = d.S.kind v := by
    intro v hv
    rw [hkind, upd_ne _ _ (hne v hv)]
  have hnew : d'.S.kind a = k' := by rw [hkind, upd_same]
  -- which operands of the new symbol are not arrays
  have hparts : ∀ p ∈ d.m.g.nodes, (d.S.kind p).isArray = false →
      (p ∉ preds) ∨ (preds = [p] ∧ k' = .output (d.m.g.mem p).succs.length) := by
    intro p hpn hpa'
    by_cases hpp : p ∈ preds
    · right
      rcases output_or k' with ⟨j, hj⟩ | hj
      · rw [hj] at hm
        have hl := make_output hm
        simp only [List.length_map] at hl
        match preds, hl with
        | [q], _ =>
          obtain rfl : p = q := by simpa using hpp
          refine ⟨rfl, ?_⟩
          cases k <;> simp [Kind.resolve] at hk' <;> first
            | exact hk'.symm
            | (rw [hj] at hk'; simp at hk')
      · have := typed_array hj ht _ (List.mem_map.2 ⟨p, hpp, rfl⟩)
        rw [hpa'] at this; cases this
    · exact .inl hpp
  have hfil : ∀ p, d'.m.g.nodes.filter (fun w => decide (p ∈ (d'.m.g.mem w).preds)) =
      d.m.g.nodes.filter (fun w => decide (p ∈ (d.m.g.mem w).preds)) ++ if p ∈ preds then [a] else [] := by
    intro p
    rw [hn, List.filter_append]
    congr 1
    · refine List.filter_congr fun x hx => ?_
      rw [hpo x hx]
    · simp only [List.filter_cons, hpa, List.filter_nil, decide_eq_true_eq]
  refine ⟨?_, ?_, ?_, ?_⟩
  · intro v hv
    rw [hn] at hv
    rcases List.mem_append.1 hv with hv | hv
    · rw [hpo v hv, hkm (d.m.g.mem v).preds (w.predMem v hv), hold v hv]
      exact h.typed v hv
    · obtain rfl : v = a := by simpa using hv
      rw [hpa, hkm _ hp, hnew]
      exact ht
  · intro p hpn hpA
    rw [hfil]
    rw [hn] at hpn
    rcases List.mem_append.1 hpn with hpn | hpn
    · rw [hold p hpn] at hpA
      rw [(hmem p (hne p hpn)).1, h.inOrder p hpn hpA]
      rcases hparts p hpn hpA with hc | ⟨hc, _⟩
      · rw [if_neg hc, List.count_eq_zero.2 hc]; simp
      · rw [hc]; simp
    · obtain rfl : p = a := by simpa using hpn
      have hap : p ∉ preds := fun hx => ha (hp p hx)
      rw [hmema, if_neg hap, List.append_nil]
      symm
      rw [List.filter_eq_nil_iff]
      intro x hx
      have : p ∉ (d.m.g.mem x).preds := fun hc => ha (w.predMem x hx p hc)
      simpa using this
  · intro p hpn hpA j x hx
    rw [hn] at hpn
    rcases List.mem_append.1 hpn with hpn | hpn
    · rw [hold p hpn] at hpA
      rw [(hmem p (hne p hpn)).1] at hx
      rcases hparts p hpn hpA with hc | ⟨hc, hk2⟩
      · rw [List.count_eq_zero.2 hc] at hx
        simp only [List.replicate_zero, List.append_nil] at hx
        have hxn := w.succMem p hpn x (List.mem_of_getElem? hx)
        rw [hold x hxn]
        exact h.numbered p hpn hpA j x hx
      · rw [hc] at hx
        simp only [List.count_cons_self, List.count_nil, Nat.zero_add, List.replicate_one] at hx
        rw [List.getElem?_append] at hx
        split_ifs at hx with hj
        · have hxn := w.succMem p hpn x (List.mem_of_getElem? hx)
          rw [hold x hxn]
          exact h.numbered p hpn hpA j x hx
        · have hj2 : j = (d.m.g.mem p).succs.length := by
            have := List.getElem?_eq_some_iff.1 hx
            obtain ⟨hlt, _⟩ := this
            simp at hlt
            omega
          subst hj2
          obtain rfl : a = x := by simpa using hx
          rw [hnew, hk2]
    · obtain rfl : p = a := by simpa using hpn
      rw [hmema] at hx
      simp at hx
  · rintro v hv ⟨j, hj⟩
    rw [hn] at hv
    rcases List.mem_append.1 hv with hv | hv
    · rw [hold v hv] at hj
      rw [(hmem v (hne v hv)).2]
      exact h.kept v hv ⟨j, hj⟩
    · obtain rfl : v = a := by simpa using hv
      rw [hnew] at hj
      rw [hrem, hj]; rfl

theorem Orderly.addNode {d d' : Draft} (h : d.Orderly) (hM : d.Made) {n p : Nat}
    (he : d.addNode n p = (d', .ok ())) : d'.Orderly := by
  obtain ⟨_, hS, hn, hd, hpreds⟩ := hM.added he
  have w := hM.inv.wf
  unfold Draft.addNode at he
  cases hk : d.S.kind n with
  | nary op =>
    rw [hk] at he
    simp only at he
    by_cases c1 : n ∉ d.m.g.nodes ∨ p ∉ d.m.g.nodes ∨ (d.S.kind p).isArray = false
    · rw [if_pos c1] at he; simp at he
    rw [if_neg c1] at he
    push Not at c1
    split_ifs at he with c2 c3 c4
    · simp at he
    · simp at he
    · simp at he
    · unfold onModel at he
      cases hst : d.m.step (.addOperand n p) with
      | throw => rw [hst] at he; simp at he
      | ub => rw [hst] at he; simp at he
      | ok m =>
        rw [hst] at he
        simp only [Prod.mk.injEq, and_true] at he
        have hpA : (d.S.kind p).isArray = true := by simpa using c1.2.2
        have hmem : ∀ v, (d'.m.g.mem v).removable = (d.m.g.mem v).removable ∧ (v ≠ p →
            (d'.m.g.mem v).succs = (d.m.g.mem v).succs) := by
          have hst' := hst
          simp only [PyModel.step, Graph.addPredecessor, Res.bind_eq_ok, Res.ok.injEq] at hst'
          obtain ⟨g, ⟨_, hg1, _, _, _, _, rfl⟩, rfl⟩ := hst'
          rw [← he]
          intro v
          simp only
          by_cases h1 : v = n
          · subst h1
            by_cases h2 : v = p
            · subst h2; simp
            · simp [upd_ne _ _ h2]
          · rw [upd_ne _ _ h1]
            by_cases h2 : v = p
            · subst h2; simp
            · rw [upd_ne _ _ h2]; simp
        clear he
        refine ⟨?_, ?_, ?_, ?_⟩
        · intro v hv
          rw [hn] at hv
          rw [hpreds, hS]
          by_cases hv' : v = n
          · subst hv'
            rw [if_pos rfl]
            have := h.typed v hv
            rw [hk] at this ⊢
            simp only [Kind.typed, List.all_map, List.all_eq_true, Function.comp, List.mem_append,
              List.mem_singleton] at this ⊢
            rintro q (hq | rfl)
            · exact this q hq
            · exact hpA
          · rw [if_neg hv']
            exact h.typed v hv
        · intro q hq hqA
          rw [hn] at hq
          rw [hS] at hqA
          have hqp : q ≠ p := by
            rintro rfl
            rw [hpA] at hqA; cases hqA
          rw [(hmem q).2 hqp, h.inOrder q hq hqA, hn]
          refine List.filter_congr fun x hx => ?_
          rw [hpreds]
          by_cases hxn : x = n
          · subst hxn
            simp [hqp]
          · simp [hxn]
        · intro q hq hqA j x hx
          rw [hn] at hq
          rw [hS] at hqA ⊢
          have hqp : q ≠ p := by
            rintro rfl
            rw [hpA] at hqA; cases hqA
          rw [(hmem q).2 hqp] at hx
          exact h.numbered q hq hqA j x hx
        · intro v hv hj
          rw [hn] at hv
          rw [hS] at hj
          exact (hmem v).1.trans (h.kept v hv hj)
  | _ => rw [hk] at he; simp at he

/-- Any change of the graph that keeps the order of the parts. -/
theorem Orderly.same {d : Draft} (h : d.Orderly) (hM : d.Made) {m : PyModel}
    (hn : ∀ v ∈ m.g.nodes, v ∈ d.m.g.nodes)
    (hp : ∀ v ∈ m.g.nodes, (m.g.mem v).preds = (d.m.g.mem v).preds)
    (hpm : ∀ v ∈ m.g.nodes, ∀ p ∈ (d.m.g.mem v).preds, p ∈ m.g.nodes)
    (hr : ∀ v ∈ m.g.nodes, (m.g.mem v).removable = (d.m.g.mem v).removable)
    (hs : ∀ v ∈ m.g.nodes, (d.S.kind v).isArray = false → (m.g.mem v).succs = (d.m.g.mem v).succs)
    (hf : ∀ p ∈ m.g.nodes, (d.S.kind p).isArray = false →
      m.g.nodes.filter (fun w => decide (p ∈ (d.m.g.mem w).preds)) =
        d.m.g.nodes.filter (fun w => decide (p ∈ (d.m.g.mem w).preds))) :
    Orderly (forget { d with m := m }) := by
  have hk : ∀ v ∈ m.g.nodes, (forget { d with m := m }).S.kind v = d.S.kind v := by
    intro v hv
    simp only [forget, if_pos hv]
  have hsucc : ∀ p ∈ m.g.nodes, (d.S.kind p).isArray = false → ∀ x ∈ (m.g.mem p).succs, x ∈ m.g.nodes := by
    intro p hpn hpA x hx
    rw [hs p hpn hpA, h.inOrder p (hn p hpn) hpA, ← hf p hpn hpA] at hx
    exact List.mem_of_mem_filter hx
  refine ⟨?_, ?_, ?_, ?_⟩
  · intro v hv
    have hv : v ∈ m.g.nodes := hv
    have e : ((forget { d with m := m }).m.g.mem v).preds = (d.m.g.mem v).preds := hp v hv
    rw [hk v hv, e, show (d.m.g.mem v).preds.map (forget { d with m := m }).S.kind =
      (d.m.g.mem v).preds.map d.S.kind from List.map_congr_left fun p hq => hk p (hpm v hv p hq)]
    exact h.typed v (hn v hv)
  · intro p hpn hpA
    have hpn : p ∈ m.g.nodes := hpn
    rw [hk p hpn] at hpA
    have e : ((forget { d with m := m }).m.g.mem p).succs = (d.m.g.mem p).succs := hs p hpn hpA
    rw [e, h.inOrder p (hn p hpn) hpA, ← hf p hpn hpA]
    show _ = m.g.nodes.filter _
    refine List.filter_congr fun x hx => ?_
    have : ((forget { d with m := m }).m.g.mem x).preds = (d.m.g.mem x).preds := hp x hx
    rw [this]
  · intro p hpn hpA j x hx
    have hpn : p ∈ m.g.nodes := hpn
    rw [hk p hpn] at hpA
    have hx : (m.g.mem p).succs[j]? = some x := hx
    rw [hk x (hsucc p hpn hpA x (List.mem_of_getElem? hx))]
    rw [hs p hpn hpA] at hx
    exact h.numbered p (hn p hpn) hpA j x hx
  · rintro v hv ⟨j, hj⟩
    have hv : v ∈ m.g.nodes := hv
    rw [hk v hv] at hj
    exact (hr v hv).trans (h.kept v (hn v hv) ⟨j, hj⟩)

theorem Orderly.keeps {d : Draft} (h : d.Orderly) (hM : d.Made) {op : ModelOp} {m : PyModel}
    (hs : d.m.step op = .ok m)
    (hop : (∃ o, op = .minimize o) ∨ (∃ c, op = .addConstraint c) ∨ (∃ v b, op = .reference v b) ∨ op = .lock ∨
      op = .unlock ∨ op = .removeUnused) : Orderly (forget { d with m := m }) := by
  have w := hM.inv.wf
  have hdecOf : ∀ p ∈ d.m.g.nodes, (d.S.kind p).isArray = false → p ∈ d.m.g.decisions := fun p hp hA =>
    (hM.decisions p hp).2 (isArray_decision hA)
  -- sorting
  have hsort : ∀ g', d.m.g.sorted = false → d.m.g.topologicalSort = .ok g' →
      ∀ p ∈ d.m.g.nodes, (d.S.kind p).isArray = false →
        g'.nodes.filter (fun w => decide (p ∈ (d.m.g.mem w).preds)) =
          d.m.g.nodes.filter (fun w => decide (p ∈ (d.m.g.mem w).preds)) := by
    intro g' hf hok p hp hA
    refine sort_filter w hf hok _ fun u hu hPu => ?_
    have hPu : p ∈ (d.m.g.mem u).preds := by simpa using hPu
    obtain ⟨⟨j, hj⟩, hps⟩ := h.part hM hp hA hu hPu
    refine ⟨fun hd => ?_, fun q hq => ?_⟩
    · have := (hM.decisions u hu).1 hd
      rw [hj] at this; cases this
    · have hq : q ∈ (d.m.g.mem u).preds := hq
      rw [hps] at hq
      obtain rfl : q = p := by simpa using hq
      exact hdecOf q hp hA
  rcases hop with ⟨o, rfl⟩ | ⟨c, rfl⟩ | ⟨v, b, rfl⟩ | rfl | rfl | rfl
  · simp only [step, setObjective, Res.bind_eq_ok, Res.ok.injEq] at hs
    obtain ⟨g, ⟨_, _, _, _, rfl⟩, rfl⟩ := hs
    exact h.same hM (fun v hv => hv) (fun _ _ => rfl) (fun v hv => w.predMem v hv) (fun _ _ => rfl)
      (fun _ _ _ => rfl) fun _ _ _ => rfl
  · simp only [step, Graph.addConstraint, Res.bind_eq_ok, Res.ok.injEq] at hs
    obtain ⟨g, ⟨_, _, _, _, _, _, rfl⟩, rfl⟩ := hs
    exact h.same hM (fun v hv => hv) (fun _ _ => rfl) (fun v hv => w.predMem v hv) (fun _ _ => rfl)
      (fun _ _ _ => rfl) fun _ _ _ => rfl
  · simp only [step, Res.ok.injEq] at hs
    subst hs
    have e : ∀ x, ((upd d.m.g.mem v { d.m.g.mem v with listened := b }) x).preds = (d.m.g.mem x).preds ∧
        ((upd d.m.g.mem v { d.m.g.mem v with listened := b }) x).succs = (d.m.g.mem x).succs ∧
        ((upd d.m.g.mem v { d.m.g.mem v with listened := b }) x).removable = (d.m.g.mem x).removable := by
      intro x
      by_cases hx : x = v
      · subst hx; simp
      · simp [upd_ne _ _ hx]
    exact h.same hM (fun v hv => hv) (fun x _ => (e x).1) (fun v hv => w.predMem v hv) (fun x _ => (e x).2.2)
      (fun x _ _ => (e x).2.1) fun _ _ _ => rfl
  · simp only [step, Res.bind_eq_ok, Res.ok.injEq] at hs
    obtain ⟨g, hg, rfl⟩ := hs
    by_cases hf : d.m.g.sorted = false
    · rcases w.sort_spec hf with ⟨g', e, w', hso, hperm, hsame, hd, _⟩ | ⟨e, _⟩
      · have hg0 := hg
        rw [hg] at e; cases e
        exact h.same hM (fun v hv => hperm.mem_iff.1 hv) (fun x _ => (hsame x).1)
          (fun v hv p hp => hperm.mem_iff.2 (w.predMem v (hperm.mem_iff.1 hv) p hp)) (fun x _ => (hsame x).2.2.1)
          (fun x _ _ => (hsame x).2.1) fun p hp hA => hsort g hf hg0 p (hperm.mem_iff.1 hp) hA
      · rw [hg] at e; cases e
    · have hf : d.m.g.sorted = true := by simpa using hf
      simp only [topologicalSort, hf, if_true, Res.ok.injEq] at hg
      subst hg
      exact h.same hM (fun v hv => hv) (fun _ _ => rfl) (fun v hv => w.predMem v hv) (fun _ _ => rfl)
        (fun _ _ _ => rfl) fun _ _ _ => rfl
  · simp only [step] at hs
    split_ifs at hs
    · cases hs
      exact h.same hM (fun v hv => hv) (fun _ _ => rfl) (fun v hv => w.predMem v hv) (fun _ _ => rfl)
        (fun _ _ _ => rfl) fun _ _ _ => rfl
    · cases hs
      obtain ⟨w', hso, hsame, hn, hd, _⟩ := reset_spec w
      have hrem : ∀ v, ((resetTopologicalSort d.m.g).mem v).removable = (d.m.g.mem v).removable := by
        intro v
        unfold resetTopologicalSort
        split_ifs
        · rfl
        · simp only
          split_ifs <;> rfl
      exact h.same hM (fun v hv => hn ▸ hv) (fun x _ => (hsame x).1)
        (fun v hv p hp => by
          have : v ∈ d.m.g.nodes := hn ▸ hv
          show p ∈ (resetTopologicalSort d.m.g).nodes
          rw [hn]; exact w.predMem v this p hp) (fun x _ => hrem x)
        (fun x _ _ => (hsame x).2) fun p hp hA => by
          show (resetTopologicalSort d.m.g).nodes.filter _ = _
          rw [hn]
    · cases hs
      exact h.same hM (fun v hv => hv) (fun _ _ => rfl) (fun v hv => w.predMem v hv) (fun _ _ => rfl)
        (fun _ _ _ => rfl) fun _ _ _ => rfl
  · simp only [step, Res.bind_eq_ok, Res.ok.injEq, guardThrow] at hs
    obtain ⟨_, h1, r, hr, rfl⟩ := hs
    split_ifs at h1 with hl
    have hl' : ¬ 0 < d.m.lockCount := by simpa [isLocked] using hl
    have hf : d.m.g.sorted = false := by
      by_contra hc
      exact hl' (hM.inv.sorted.1 (by simpa using hc))
    rcases w.sort_spec hf with ⟨g1, e, w1, hso, hperm, hsame, hd, _⟩ | ⟨e, _⟩
    · obtain ⟨g', e2, w', hso', hsurv, ⟨q, hq⟩, hfields, hd', _⟩ := removeUnused_sorted w1 hso false
      have : d.m.g.removeUnused false = g1.removeUnused false := by
        simp only [removeUnused, e, Res.ok_bind]
        rw [show g1.topologicalSort = .ok g1 by simp [topologicalSort, hso]]
        simp only [Res.ok_bind]
      rw [this, e2] at hr
      cases hr
      have hin : ∀ v ∈ g'.nodes, v ∈ d.m.g.nodes := fun v hv => hperm.mem_iff.1 ((hsurv v).1 hv).1
      -- parts stay
      have hstay : ∀ p ∈ d.m.g.nodes, (d.S.kind p).isArray = false → ∀ x ∈ d.m.g.nodes,
          p ∈ (d.m.g.mem x).preds → x ∈ g'.nodes := by
        intro p hp hA x hx hpx
        obtain ⟨hj, _⟩ := h.part hM hp hA hx hpx
        refine (hsurv x).2 ⟨hperm.mem_iff.2 hx, .root ⟨hperm.mem_iff.2 hx, .inr (.inl ?_)⟩⟩
        rw [(hsame x).2.2.1]
        exact h.kept x hx hj
      refine h.same hM hin (fun v hv => by rw [(hfields v hv).1, (hsame v).1]) ?_
        (fun v hv => by rw [(hfields v hv).2.2.1, (hsame v).2.2.1]) ?_ ?_
      · intro v hv p hp
        refine w'.predMem v hv p ?_
        show p ∈ (g'.mem v).preds
        rw [(hfields v hv).1, (hsame v).1]
        exact hp
      · intro v hv hA
        rw [(hfields v hv).2.1, (hsame v).2.1, List.filter_eq_self]
        intro x hx
        have hxn := w.succMem v (hin v hv) x hx
        have := (w.mem_link (hin v hv) hxn).1 hx
        simpa using hstay v (hin v hv) hA x hxn this
      · intro p hp hA
        rw [← hsort g1 hf e p (hin p hp) hA]
        show g'.nodes.filter _ = _
        rw [hq, List.filter_filter]
        refine List.filter_congr fun x hx => ?_
        by_cases hpx : p ∈ (d.m.g.mem x).preds
        · have := hstay p (hin p hp) hA x (hperm.mem_iff.1 hx) hpx
          rw [hq] at this
          simp [hpx, (List.mem_filter.1 this).2]
        · simp [hpx]
    · simp [removeUnused, e] at hr

theorem Orderly.onModel {d d' : Draft} (h : d.Orderly) (hM : d.Made) {op : ModelOp}
    (he : d.onModel op = (d', .ok ()))
    (hop : (∃ o, op = .minimize o) ∨ (∃ c, op = .addConstraint c) ∨ (∃ v b, op = .reference v b) ∨ op = .lock ∨
      op = .unlock) : d'.Orderly := by
  unfold Draft.onModel at he
  cases hst : d.m.step op with
  | throw => rw [hst] at he; simp at he
  | ub => rw [hst] at he; simp at he
  | ok m =>
    rw [hst] at he
    simp only [Prod.mk.injEq, and_true] at he
    subst he
    have hop' : (∃ o, op = .minimize o) ∨ (∃ c, op = .addConstraint c) ∨ (∃ v b, op = .reference v b) ∨ op = .lock ∨
      op = .unlock ∨ op = .removeUnused := by
      rcases hop with x | x | x | x | x
      · exact .inl x
      · exact .inr (.inl x)
      · exact .inr (.inr (.inl x))
      · simp [x]
      · simp [x]
    have hne : op ≠ .removeUnused := by
      rcases hop with ⟨_, rfl⟩ | ⟨_, rfl⟩ | ⟨_, _, rfl⟩ | rfl | rfl <;> simp
    have := h.keeps hM hst hop'
    rwa [forget_same hM ((step_keeps hM.inv hst hop').2.2 hne)] at this

/-- One successful operation. -/
theorem Orderly.perform {d d' : Draft} (h : d.Orderly) (hM : d.Made) {decl : Symbols → Graph → Nat → Claim}
    {op : BuildOp} (he : d.perform decl op = (d', .ok ())) : d'.Orderly := by
  cases op with
  | construct a k preds => exact h.construct hM he
  | addOperand n p => exact h.addNode hM he
  | minimize o =>
    simp only [Draft.perform] at he
    split_ifs at he
    · exact h.onModel hM he (.inl ⟨o, rfl⟩)
    · simp at he
  | constraint c =>
    simp only [Draft.perform] at he
    split_ifs at he
    · exact h.onModel hM he (.inr (.inl ⟨c, rfl⟩))
    · simp at he
  | reference v b => exact h.onModel hM (op := .reference v b) he (.inr (.inr (.inl ⟨v, b, rfl⟩)))
  | lock => exact h.onModel hM (op := .lock) he (by simp)
  | unlock => exact h.onModel hM (op := .unlock) he (by simp)
  | removeUnused =>
    simp only [Draft.perform] at he
    cases hst : d.m.step .removeUnused with
    | throw => rw [hst] at he; simp at he
    | ub => rw [hst] at he; simp at he
    | ok m =>
      rw [hst] at he
      simp only [Prod.mk.injEq, and_true] at he
      subst he
      exact h.keeps hM hst (by simp)

theorem run_orderly {d d' : Draft} (hO : d.Orderly) (h : d.Made) {decl : Symbols → Graph → Nat → Claim}
    {ops : List BuildOp} (hn : Draft.NaryAccepted decl d ops) (hr : d.run decl ops = .ok d') : d'.Orderly := by
  induction ops generalizing d with
  | nil => simp only [Draft.run, Res.ok.injEq] at hr; exact hr ▸ hO
  | cons op ops ih =>
    simp only [Draft.run] at hr
    generalize hp : d.perform decl op = r at hr
    obtain ⟨d1, res⟩ := r
    have hn2 : Draft.NaryAccepted decl d1 ops := by have := hn.2; rwa [hp] at this
    cases res with
    | ok u => exact ih (hO.perform h hp) (h.perform hp) hn2 hr
    | ub => simp at hr
    | throw =>
      have hd : d1 = d := by
        refine Draft.perform_throw hp fun a o preds he => ?_
        exact hn.1 a o preds he (by rw [hp])
      subst hd
      simp only at hr
      split at hr
      · simp at hr
      · simp at hr
      · exact ih hO h hn2 hr

end Draft
end Verif
