import Verif.Lemmas.GraphOps

set_option linter.unusedSectionVars false
set_option linter.unusedSimpArgs false
set_option linter.unusedVariables false

/-!
# `remove_unused_nodes` keeps exactly the needed nodes
-/

namespace Verif
namespace Graph

/-- The nodes that must be kept for their own sake. -/
def Root (g : Graph) (ignoreListeners : Bool) (v : Nat) : Prop :=
  v ∈ g.nodes ∧ (v ∈ g.decisions ∨ (g.mem v).removable = false ∨ v ∈ g.constraints ∨
    g.objective = some v ∨ (ignoreListeners = false ∧ (g.mem v).listened = true))

/-- Everything but the index is unchanged. -/
def SameButTopo (m m' : Nat → GNode) : Prop :=
  ∀ v, (m' v).preds = (m v).preds ∧ (m' v).succs = (m v).succs ∧ (m' v).removable = (m v).removable ∧
    (m' v).listened = (m v).listened

theorem SameButTopo.trans {a b c : Nat → GNode} (h : SameButTopo a b) (h' : SameButTopo b c) :
    SameButTopo a c := fun v =>
  ⟨(h' v).1.trans (h v).1, (h' v).2.1.trans (h v).2.1, (h' v).2.2.1.trans (h v).2.2.1,
    (h' v).2.2.2.trans (h v).2.2.2⟩

theorem SameButTopo.refl (a : Nat → GNode) : SameButTopo a a := fun v => ⟨rfl, rfl, rfl, rfl⟩

theorem sameButTopo_upd (m : Nat → GNode) (c : Nat) (t : Int) :
    SameButTopo m (upd m c { m c with topo := t }) := by
  intro v
  by_cases h : v = c
  · subst h; simp
  · rw [upd_ne _ _ h]; simp

theorem topo_upd (m : Nat → GNode) (c : Nat) (t : Int) (v : Nat) :
    (upd m c { m c with topo := t } v).topo = if v = c then t else (m v).topo := by
  by_cases h : v = c
  · subst h; simp
  · rw [upd_ne _ _ h]; simp [h]

theorem markCons (nd : Nat) (cs : List Nat) (m : Nat → GNode) :
    SameButTopo m (markConstraints nd cs m) ∧
    ∀ v, (markConstraints nd cs m v).topo =
      if v ∈ cs ∧ (nd : Int) ≤ (m v).topo then -2 else (m v).topo := by
  unfold markConstraints
  induction cs generalizing m with
  | nil => exact ⟨SameButTopo.refl m, by simp⟩
  | cons c cs ih =>
    simp only [List.foldl_cons]
    by_cases hc : (m c).topo < (nd : Int)
    · rw [if_pos hc]
      refine ⟨(ih m).1, fun v => ?_⟩
      rw [(ih m).2 v]
      by_cases hv : v = c
      · subst hv
        rw [if_neg (by omega), if_neg (by omega)]
      · simp [hv]
    · rw [if_neg hc]
      refine ⟨(sameButTopo_upd m c (-2)).trans (ih _).1, fun v => ?_⟩
      rw [(ih _).2 v, topo_upd]
      by_cases hv : v = c
      · subst hv
        simp
        intro h; omega
      · simp [hv]

theorem markListen (L : List Nat) (m : Nat → GNode) :
    SameButTopo m (markListeners L m) ∧
    ∀ v, (markListeners L m v).topo =
      if v ∈ L ∧ (m v).listened = true then -2 else (m v).topo := by
  unfold markListeners
  induction L generalizing m with
  | nil => exact ⟨SameButTopo.refl m, by simp⟩
  | cons c cs ih =>
    simp only [List.foldl_cons]
    by_cases hc : (m c).listened = true
    · rw [if_pos hc]
      refine ⟨(sameButTopo_upd m c (-2)).trans (ih _).1, fun v => ?_⟩
      rw [(ih _).2 v, topo_upd, (sameButTopo_upd m c (-2) v).2.2.2]
      by_cases hv : v = c
      · subst hv; simp [hc]
      · simp [hv]
    · rw [if_neg hc]
      refine ⟨(ih m).1, fun v => ?_⟩
      rw [(ih m).2 v]
      by_cases hv : v = c
      · subst hv; simp [hc]
      · simp [hv]

theorem WF.topo_dec {g : Graph} (h : g.WF) (hs : g.sorted = true) {v : Nat} (hv : v ∈ g.nodes) :
    v ∈ g.decisions ↔ (g.mem v).topo < g.decisions.length := by
  constructor
  · intro hd
    obtain ⟨i, hi, rfl⟩ := List.mem_iff_getElem.1 hd
    have := h.decTopo i hi
    simp only [topoOf] at this
    omega
  · intro ht
    have h0 := ((h.topological hs).range v hv).1
    simp only [topoOf] at h0
    obtain ⟨i, hi⟩ := Int.eq_ofNat_of_zero_le h0
    have hil : i < g.decisions.length := by omega
    have : v = g.decisions[i] := (h.topological hs).inj v hv _ (h.decMem _ (List.getElem_mem hil))
      (by rw [h.decTopo i hil]; exact hi)
    rw [this]; exact List.getElem_mem hil

theorem markObj (nd : Nat) (o : Option Nat) (m1 : Nat → GNode) :
    SameButTopo m1 (markObjective nd o m1) ∧ ∀ v, (markObjective nd o m1 v).topo =
        if o = some v ∧ (nd : Int) ≤ (m1 v).topo then -2 else (m1 v).topo := by
  unfold markObjective
  cases o with
  | none => exact ⟨SameButTopo.refl _, by simp⟩
  | some o =>
    simp only
    by_cases hc : (m1 o).topo ≥ (nd : Int)
    · rw [if_pos hc]
      refine ⟨sameButTopo_upd m1 o (-2), fun v => ?_⟩
      rw [topo_upd]
      by_cases hv : v = o
      · subst hv; simp; intro h; omega
      · simp [hv, Ne.symm hv]
    · rw [if_neg hc]
      refine ⟨SameButTopo.refl _, fun v => ?_⟩
      by_cases hv : v = o
      · subst hv; rw [if_neg (by omega)]
      · simp [Ne.symm hv]

theorem markKeep_spec {g : Graph} (h : g.WF) (hs : g.sorted = true) (ig : Bool) :
    SameButTopo g.mem (g.markKeep ig) ∧
    (∀ v ∈ g.decisions, (g.markKeep ig v).topo = (g.mem v).topo) ∧
    ∀ v ∈ g.nodes, v ∉ g.decisions → ((g.markKeep ig v).topo = -2 ↔
      (v ∈ g.constraints ∨ g.objective = some v ∨ (ig = false ∧ (g.mem v).listened = true))) := by
  obtain ⟨hs1, ht1⟩ := markCons g.decisions.length g.constraints g.mem
  obtain ⟨hs2, ht2⟩ := markObj g.decisions.length g.objective
    (markConstraints g.decisions.length g.constraints g.mem)
  unfold markKeep
  generalize markConstraints g.decisions.length g.constraints g.mem = m1 at *
  generalize markObjective g.decisions.length g.objective m1 = m2 at *
  have hs12 := hs1.trans hs2
  have key : SameButTopo g.mem (if ig = true then m2
        else markListeners (g.nodes.drop g.decisions.length) m2) ∧
      ∀ v, ((if ig = true then m2
        else markListeners (g.nodes.drop g.decisions.length) m2) v).topo =
        if ig = false ∧ v ∈ g.nodes.drop g.decisions.length ∧
          (g.mem v).listened = true then -2 else (m2 v).topo := by
    cases ig with
    | true => exact ⟨hs12, by simp⟩
    | false =>
      obtain ⟨hs3, ht3⟩ := markListen (g.nodes.drop g.decisions.length) m2
      refine ⟨hs12.trans hs3, fun v => ?_⟩
      simp only [Bool.false_eq_true, if_false]
      rw [ht3, (hs12 v).2.2.2]
      simp
  obtain ⟨hs3, ht3⟩ := key
  generalize (if ig = true then m2
        else markListeners (g.nodes.drop g.decisions.length) m2) = m3 at *
  refine ⟨hs3, ?_, ?_⟩
  · intro v hv
    have hlt := (h.topo_dec hs (h.decMem v hv)).1 hv
    rw [ht3, if_neg (fun hx => ((h.mem_drop hs).1 hx.2.1).2 hv), ht2, ht1]
    rw [if_neg (c := _ ∧ (g.decisions.length : Int) ≤ (g.mem v).topo) (by omega), if_neg (by omega)]
  · intro v hv hd
    have hge : (g.decisions.length : Int) ≤ (g.mem v).topo := by
      have := mt (h.topo_dec hs hv).2 hd; omega
    have hdr := (h.mem_drop hs).2 ⟨hv, hd⟩
    rw [ht3]
    by_cases hl : ig = false ∧ v ∈ g.nodes.drop g.decisions.length ∧ (g.mem v).listened = true
    · rw [if_pos hl]; simp [hl.1, hl.2.2]
    · rw [if_neg hl, ht2, ht1]
      by_cases hc : v ∈ g.constraints
      · simp [hc, hge]
      · by_cases ho : g.objective = some v
        · simp [hc, hge, ho]
        · simp only [hc, ho, false_and, if_false, false_or]
          constructor
          · intro h2; omega
          · rintro ⟨a, b⟩; exact absurd ⟨a, hdr, b⟩ hl

/-- Erasing `v` from the successors of each of its predecessors. -/
theorem eraseSuccs (v : Nat) (ps : List Nat) (m : Nat → GNode) (u : Nat) :
    (ps.foldl (fun m p => upd m p { m p with succs := (m p).succs.filter (fun w => w ≠ v) }) m) u =
      { m u with succs := if u ∈ ps then (m u).succs.filter (fun w => w ≠ v) else (m u).succs } := by
  induction ps generalizing m with
  | nil => simp
  | cons p ps ih =>
    simp only [List.foldl_cons]
    rw [ih]
    by_cases h : u = p
    · subst h
      simp
    · rw [upd_ne _ _ h]; simp [h]

theorem removeLoop {g : Graph} (h : g.WF) (hs : g.sorted = true) (ig : Bool)
    (L done : List Nat) (s : (Nat → GNode) × List Nat)
    (hL : ∀ v ∈ L, v ∈ g.nodes ∧ v ∉ g.decisions)
    (hdesc : L.Pairwise (fun a b => g.topoOf b < g.topoOf a))
    (hcov : ∀ w ∈ g.nodes, w ∉ g.decisions → w ∈ done ∨ w ∈ L)
    (hmem : ∀ v ∈ g.nodes, s.1 v = { g.markKeep ig v with
      succs := (g.mem v).succs.filter (fun w => decide (w ∉ s.2)) })
    (hdead : ∀ v, v ∈ s.2 ↔ v ∈ done ∧ ¬ Needed g.predsOf (g.Root ig) v) :
    ∃ s', L.foldl removeStep s = s' ∧
      (∀ v ∈ g.nodes, s'.1 v = { g.markKeep ig v with
        succs := (g.mem v).succs.filter (fun w => decide (w ∉ s'.2)) }) ∧
      ∀ v, v ∈ s'.2 ↔ (v ∈ done ∨ v ∈ L) ∧ ¬ Needed g.predsOf (g.Root ig) v := by
  induction L generalizing done s with
  | nil => exact ⟨s, rfl, hmem, by simpa using hdead⟩
  | cons v L ih =>
    obtain ⟨hd1, hd2⟩ := List.pairwise_cons.1 hdesc
    obtain ⟨hvn, hvd⟩ := hL v List.mem_cons_self
    obtain ⟨hsame, hmd, hmk⟩ := markKeep_spec h hs ig
    have hsv := hmem v hvn
    have hnm : ∀ w, Needed g.predsOf (g.Root ig) w → w ∈ g.nodes := by
      intro w hw
      induction hw with
      | root hr => exact hr.1
      | pred _ hp ihw => exact h.predMem _ ihw _ hp
    have hsd : ∀ w ∈ g.succsOf v, w ∈ done := by
      intro w hw
      have hw2 := h.succ_not_dec hvn w hw
      rcases hcov w hw2.1 hw2.2 with hx | hx
      · exact hx
      · exfalso
        have he := (h.topological hs).edge v hvn w hw
        rcases List.mem_cons.1 hx with rfl | hx
        · omega
        · have := hd1 w hx; omega
    have hcov' : ∀ w ∈ g.nodes, w ∉ g.decisions → w ∈ (v :: done) ∨ w ∈ L := by
      intro w hw hwd
      rcases hcov w hw hwd with hx | hx
      · exact Or.inl (List.mem_cons_of_mem _ hx)
      · rcases List.mem_cons.1 hx with rfl | hx
        · exact Or.inl List.mem_cons_self
        · exact Or.inr hx
    have hkept : Needed g.predsOf (g.Root ig) v →
        ∀ s', removeStep s v = s → s' = s → (∀ u, u ∈ s'.2 ↔ u ∈ (v :: done) ∧
          ¬ Needed g.predsOf (g.Root ig) u) := by
      intro hN s' _ hss u
      subst hss
      rw [hdead]
      constructor
      · rintro ⟨a, b⟩; exact ⟨List.mem_cons_of_mem _ a, b⟩
      · rintro ⟨a, b⟩
        rcases List.mem_cons.1 a with rfl | a
        · exact absurd hN b
        · exact ⟨a, b⟩
    have hfin : ∀ s1 : (Nat → GNode) × List Nat, removeStep s v = s1 →
        (∀ v ∈ g.nodes, s1.1 v = { g.markKeep ig v with
          succs := (g.mem v).succs.filter (fun w => decide (w ∉ s1.2)) }) →
        (∀ u, u ∈ s1.2 ↔ u ∈ (v :: done) ∧ ¬ Needed g.predsOf (g.Root ig) u) → _ :=
      fun s1 h1 h2 h3 => ih (v :: done) s1 (fun w hw => hL w (List.mem_cons_of_mem _ hw)) hd2 hcov' h2 h3
    have hconv : (∃ s', L.foldl removeStep (removeStep s v) = s' ∧
        (∀ v ∈ g.nodes, s'.1 v = { g.markKeep ig v with
          succs := (g.mem v).succs.filter (fun w => decide (w ∉ s'.2)) }) ∧
        ∀ u, u ∈ s'.2 ↔ (u ∈ (v :: done) ∨ u ∈ L) ∧ ¬ Needed g.predsOf (g.Root ig) u) →
        ∃ s', (v :: L).foldl removeStep s = s' ∧
        (∀ v ∈ g.nodes, s'.1 v = { g.markKeep ig v with
          succs := (g.mem v).succs.filter (fun w => decide (w ∉ s'.2)) }) ∧
        ∀ u, u ∈ s'.2 ↔ (u ∈ done ∨ u ∈ v :: L) ∧ ¬ Needed g.predsOf (g.Root ig) u := by
      rintro ⟨s', a, b, c⟩
      refine ⟨s', by simpa using a, b, fun u => ?_⟩
      rw [c u]
      simp only [List.mem_cons]
      grind
    have hrem : (s.1 v).removable = (g.mem v).removable := by rw [hsv]; exact (hsame v).2.2.1
    have htp : (s.1 v).topo = (g.markKeep ig v).topo := by rw [hsv]
    have hsu : (s.1 v).succs = (g.mem v).succs.filter (fun w => decide (w ∉ s.2)) := by rw [hsv]
    by_cases h1 : (s.1 v).removable = false
    · have hst : removeStep s v = s := by simp [removeStep, h1]
      apply hconv
      rw [hst]
      have hN : Needed g.predsOf (g.Root ig) v := .root ⟨hvn, Or.inr (Or.inl (hrem ▸ h1))⟩
      exact hfin s hst hmem (hkept hN s hst rfl)
    by_cases h2 : (s.1 v).topo = -2
    · have hst : removeStep s v = s := by simp [removeStep, h2]
      apply hconv
      rw [hst]
      have hN : Needed g.predsOf (g.Root ig) v :=
        .root ⟨hvn, Or.inr (Or.inr ((hmk v hvn hvd).1 (htp ▸ h2)))⟩
      exact hfin s hst hmem (hkept hN s hst rfl)
    by_cases h3 : (s.1 v).succs ≠ []
    · have hst : removeStep s v = s := by simp [removeStep, h3]
      apply hconv
      rw [hst]
      obtain ⟨w, hw⟩ := List.exists_mem_of_ne_nil _ h3
      rw [hsu, List.mem_filter] at hw
      have hwd : w ∉ s.2 := by simpa using hw.2
      have hwN : Needed g.predsOf (g.Root ig) w := by
        by_contra hc
        exact hwd ((hdead w).2 ⟨hsd w hw.1, hc⟩)
      have hN : Needed g.predsOf (g.Root ig) v :=
        .pred hwN ((h.mem_link hvn (h.succMem v hvn w hw.1)).1 hw.1)
      exact hfin s hst hmem (hkept hN s hst rfl)
    · have hst : removeStep s v = ((s.1 v).preds.foldl
        (fun m p => upd m p { m p with succs := (m p).succs.filter (fun w => w ≠ v) }) s.1,
          v :: s.2) := by
        rw [removeStep, if_neg h1, if_neg h2, if_neg h3]
      apply hconv
      have h3' : (s.1 v).succs = [] := by simpa using h3
      have hnN : ¬ Needed g.predsOf (g.Root ig) v := by
        intro hN
        cases hN with
        | root hr =>
          rcases hr.2 with hx | hx | hx
          · exact hvd hx
          · exact h1 (hrem ▸ hx)
          · exact h2 (htp ▸ (hmk v hvn hvd).2 hx)
        | pred hw hp =>
          rename_i w
          have hwn := hnm w hw
          have hws := (h.mem_link hvn hwn).2 hp
          have : w ∈ s.2 := by
            by_contra hc
            have : w ∈ (s.1 v).succs := by
              rw [hsu, List.mem_filter]; exact ⟨hws, by simpa using hc⟩
            rw [h3'] at this; simp at this
          exact ((hdead w).1 this).2 hw
      have hpv : (s.1 v).preds = g.predsOf v := by rw [hsv]; exact (hsame v).1
      refine hst ▸ hfin _ hst ?_ ?_
      · intro u hu
        simp only
        rw [eraseSuccs, hpv, hmem u hu]
        have : (if u ∈ g.predsOf v then
            ((g.mem u).succs.filter (fun w => decide (w ∉ s.2))).filter (fun w => decide (w ≠ v))
            else (g.mem u).succs.filter (fun w => decide (w ∉ s.2))) =
            (g.mem u).succs.filter (fun w => decide (w ∉ v :: s.2)) := by
          by_cases hup : u ∈ g.predsOf v
          · rw [if_pos hup, List.filter_filter]
            apply List.filter_congr
            intro x hx
            simp
          · rw [if_neg hup]
            apply List.filter_congr
            intro x hx
            have : x ≠ v := by
              rintro rfl
              exact hup ((h.mem_link hu hvn).1 hx)
            simp [this]
        simp only [this]
      · intro u
        simp only [List.mem_cons, hdead]
        constructor
        · rintro (rfl | ⟨a, b⟩)
          · exact ⟨Or.inl rfl, hnN⟩
          · exact ⟨Or.inr a, b⟩
        · rintro ⟨rfl | a, b⟩
          · exact Or.inl rfl
          · exact Or.inr ⟨a, b⟩

/-- What `removeUnused` does to a sorted well-formed model. -/
theorem removeUnused_sorted {g : Graph} (h : g.WF) (hs : g.sorted = true) (ig : Bool) :
    ∃ g', g.removeUnused ig = .ok (g', g.nodes.length - g'.nodes.length) ∧ g'.WF ∧
      g'.sorted = false ∧
      (∀ v, v ∈ g'.nodes ↔ v ∈ g.nodes ∧ Needed g.predsOf (g.Root ig) v) ∧
      (∃ p, g'.nodes = g.nodes.filter p) ∧
      (∀ v ∈ g'.nodes, (g'.mem v).preds = (g.mem v).preds ∧
        (g'.mem v).succs = (g.mem v).succs.filter (fun w => decide (w ∈ g'.nodes)) ∧
        (g'.mem v).removable = (g.mem v).removable ∧ (g'.mem v).listened = (g.mem v).listened) ∧
      g'.decisions = g.decisions ∧ g'.objective = g.objective ∧ g'.constraints = g.constraints := by
  obtain ⟨hsame, hmd, hmk⟩ := markKeep_spec h hs ig
  have hsort : g.topologicalSort = .ok g := by simp [topologicalSort, hs]
  have hLmem : ∀ v, v ∈ (g.nodes.drop g.decisions.length).reverse ↔ v ∈ g.nodes ∧ v ∉ g.decisions := by
    intro v; rw [List.mem_reverse]; exact h.mem_drop hs
  have hdesc : (g.nodes.drop g.decisions.length).reverse.Pairwise
      (fun a b => g.topoOf b < g.topoOf a) := by
    rw [List.pairwise_reverse]
    rw [List.pairwise_iff_getElem]
    intro i j hi hj hij
    rw [List.getElem_drop, List.getElem_drop, h.positions hs, h.positions hs]
    omega
  obtain ⟨s, hsf, hm, hd⟩ := removeLoop h hs ig (g.nodes.drop g.decisions.length).reverse []
    (g.markKeep ig, []) (fun v hv => (hLmem v).1 hv) hdesc
    (fun w hw hwd => Or.inr ((hLmem w).2 ⟨hw, hwd⟩))
    (fun v hv => by
      have := (hsame v).2.1
      simp [← this])
    (by simp)
  have hdead : ∀ v, v ∈ s.2 ↔ (v ∈ g.nodes ∧ v ∉ g.decisions) ∧ ¬ Needed g.predsOf (g.Root ig) v := by
    intro v; rw [hd v]; simp only [hLmem, List.not_mem_nil, false_or]
  have hdecN : ∀ v ∈ g.decisions, Needed g.predsOf (g.Root ig) v :=
    fun v hv => .root ⟨h.decMem v hv, Or.inl hv⟩
  have hnm : ∀ w, Needed g.predsOf (g.Root ig) w → w ∈ g.nodes := by
    intro w hw
    induction hw with
    | root hr => exact hr.1
    | pred _ hp ihw => exact h.predMem _ ihw _ hp
  have hsurv : ∀ v, v ∈ g.nodes.filter (fun v => decide (v ∉ s.2)) ↔
      v ∈ g.nodes ∧ Needed g.predsOf (g.Root ig) v := by
    intro v
    simp only [List.mem_filter, decide_eq_true_eq, hdead]
    constructor
    · rintro ⟨a, b⟩
      refine ⟨a, ?_⟩
      by_contra hc
      exact b ⟨⟨a, fun hx => hc (hdecN v hx)⟩, hc⟩
    · rintro ⟨a, b⟩
      exact ⟨a, fun hx => hx.2 b⟩
  generalize hN : g.nodes.filter (fun v => decide (v ∉ s.2)) = N at hsurv
  have hNd : N.drop g.decisions.length =
      (g.nodes.drop g.decisions.length).filter (fun v => decide (v ∉ s.2)) := by
    rw [← hN]
    conv_lhs => rw [h.nodes_eq hs]
    rw [List.filter_append]
    have : g.decisions.filter (fun v => decide (v ∉ s.2)) = g.decisions := by
      rw [List.filter_eq_self]
      intro v hv
      simp only [decide_eq_true_eq, hdead]
      exact fun hx => hx.1.2 hv
    rw [this, List.drop_left]
  have hNdm : ∀ v, v ∈ N.drop g.decisions.length ↔ v ∈ N ∧ v ∉ g.decisions := by
    intro v
    rw [hNd, ← hN]
    simp only [List.mem_filter, h.mem_drop hs]
    tauto
  have hge : resetTopologicalSort { g with mem := s.1, nodes := N } = { g with
      mem := fun v => if v ∈ N.drop g.decisions.length then { s.1 v with topo := -1 } else s.1 v
      nodes := N
      sorted := false } := by
    simp [resetTopologicalSort, hs]
  have hfields : ∀ v ∈ N, ((if v ∈ N.drop g.decisions.length then { s.1 v with topo := -1 } else s.1 v :
      GNode)).preds = (g.mem v).preds ∧
      (if v ∈ N.drop g.decisions.length then { s.1 v with topo := -1 } else s.1 v :
      GNode).succs = (g.mem v).succs.filter (fun w => decide (w ∈ N)) ∧
      (if v ∈ N.drop g.decisions.length then { s.1 v with topo := -1 } else s.1 v :
      GNode).removable = (g.mem v).removable ∧
      (if v ∈ N.drop g.decisions.length then { s.1 v with topo := -1 } else s.1 v :
      GNode).listened = (g.mem v).listened := by
    intro v hv
    have hvn := ((hsurv v).1 hv).1
    have hsv := hm v hvn
    have hfe : (g.mem v).succs.filter (fun w => decide (w ∉ s.2)) =
        (g.mem v).succs.filter (fun w => decide (w ∈ N)) := by
      apply List.filter_congr
      intro w hw
      have := h.succMem v hvn w hw
      rw [← hN]
      simp [this]
    have a1 : (s.1 v).preds = (g.mem v).preds := by rw [hsv]; exact (hsame v).1
    have a2 : (s.1 v).succs = (g.mem v).succs.filter (fun w => decide (w ∈ N)) := by
      rw [hsv]; exact hfe
    have a3 : (s.1 v).removable = (g.mem v).removable := by rw [hsv]; exact (hsame v).2.2.1
    have a4 : (s.1 v).listened = (g.mem v).listened := by rw [hsv]; exact (hsame v).2.2.2
    split_ifs <;> exact ⟨a1, a2, a3, a4⟩
  refine ⟨{ g with
      mem := fun v => if v ∈ N.drop g.decisions.length then { s.1 v with topo := -1 } else s.1 v
      nodes := N
      sorted := false }, ?_, ?_, rfl, hsurv, ⟨_, hN.symm⟩, hfields, rfl, rfl, rfl⟩
  · rw [removeUnused, hsort]
    simp only [Res.ok_bind]
    rw [hsf]
    simp only [hN]
    rw [hge]
  · have hpN : ∀ v ∈ N, ∀ p ∈ (g.mem v).preds, p ∈ N := by
      intro v hv p hp
      have hn := (hsurv v).1 hv
      exact (hsurv p).2 ⟨h.predMem v hn.1 p hp, .pred hn.2 hp⟩
    constructor
    · rw [← hN]; exact h.nodup.filter _
    · exact h.decNodup
    · intro d hd; exact (hsurv d).2 ⟨h.decMem d hd, hdecN d hd⟩
    · intro d hd
      have hdN : d ∈ N := (hsurv d).2 ⟨h.decMem d hd, hdecN d hd⟩
      simp only [predsOf]
      rw [(hfields d hdN).1]; exact h.decPreds d hd
    · intro v hv p hp
      simp only [predsOf] at hp
      rw [(hfields v hv).1] at hp
      exact hpN v hv p hp
    · intro v hv p hp
      simp only [succsOf] at hp
      rw [(hfields v hv).2.1, List.mem_filter] at hp
      simpa using hp.2
    · intro v hv w hw
      simp only [succsOf, predsOf]
      rw [(hfields v hv).2.1, (hfields w hw).1, List.count_filter (by simpa using hw)]
      exact h.link v ((hsurv v).1 hv).1 w ((hsurv w).1 hw).1
    · intro v hv
      have := h.objMem v hv
      exact (hsurv v).2 ⟨this, .root ⟨this, Or.inr (Or.inr (Or.inr (Or.inl hv)))⟩⟩
    · intro v hv
      have := h.conMem v hv
      exact (hsurv v).2 ⟨this, .root ⟨this, Or.inr (Or.inr (Or.inl hv))⟩⟩
    · intro i hi
      have hdm := List.getElem_mem hi
      simp only [topoOf]
      rw [if_neg (fun hx => ((hNdm _).1 hx).2 hdm), hm _ (h.decMem _ hdm)]
      simp only
      rw [hmd _ hdm]
      exact h.decTopo i hi
    · intro _ v hv hd
      simp only [topoOf]
      rw [if_pos ((hNdm v).2 ⟨hv, hd⟩)]
    · intro hf; simp at hf
    · intro hf; simp at hf

end Graph
end Verif
