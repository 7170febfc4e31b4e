import Verif.Lemmas.Refused

/-!
# Models that cannot be locked any more
-/

namespace Verif
namespace Graph

/-- Sorting has been refused. -/
structure Stuck (g : Graph) : Prop where
  sorted : g.sorted = false
  nodup : g.nodes.Nodup
  closed : ∀ v ∈ g.nodes, ∀ w ∈ (g.mem v).succs, w ∈ g.nodes
  state : ∀ v ∈ g.nodes, (g.mem v).topo = -1 ∨ (g.mem v).topo = -2 ∨ 0 ≤ (g.mem v).topo
  stuck : ∃ c ∈ g.nodes, (g.mem c).topo = -2
  decMem : ∀ d ∈ g.decisions, d ∈ g.nodes
  decTopo : ∀ i (h : i < g.decisions.length), (g.mem g.decisions[i]).topo = i

/-- Only the indices of symbols that are no decisions differ. -/
structure SameButOrder (g g' : Graph) : Prop where
  nodes : g'.nodes = g.nodes
  decisions : g'.decisions = g.decisions
  objective : g'.objective = g.objective
  constraints : g'.constraints = g.constraints
  sorted : g'.sorted = g.sorted
  mem : ∀ v, ∃ i, g'.mem v = { g.mem v with topo := i }
  order : ∀ v, 0 ≤ (g.mem v).topo → (g'.mem v).topo = (g.mem v).topo

theorem startInv {g : Graph} (hst : ∀ v ∈ g.nodes, (g.mem v).topo = -1 ∨ (g.mem v).topo = -2 ∨ 0 ≤ (g.mem v).topo) :
    RunInv g.nodes ⟨fun v => (g.mem v).topo, (g.nodes.length : Int) - 1, false⟩ :=
  ⟨hst, by
    have : pending g.nodes (fun v => (g.mem v).topo) ≤ g.nodes.length := List.countP_le_length
    simp only
    omega⟩

theorem sortOn_spec {g : Graph} (hn : g.nodes.Nodup) (hcl : ∀ v ∈ g.nodes, ∀ w ∈ (g.mem v).succs, w ∈ g.nodes)
    (hst : ∀ v ∈ g.nodes, (g.mem v).topo = -1 ∨ (g.mem v).topo = -2 ∨ 0 ≤ (g.mem v).topo) :
    ∃ t, g.sortOn = .ok t ∧ Later g.nodes ⟨fun v => (g.mem v).topo, (g.nodes.length : Int) - 1, false⟩ t := by
  have hw : Graph.white g.nodes (fun v => (g.mem v).topo) < g.nodes.length + 1 :=
    Nat.lt_succ_of_le List.countP_le_length
  exact foldOn_spec (visitOn_spec hn hcl (g.nodes.length + 1)) g.nodes.reverse _ (fun m hm => List.mem_reverse.1 hm)
    (startInv hst) (fun h => by simp at h) hw

theorem fold_stuck {V : List Nat} {succs : Nat → List Nat} {k : Nat} (hV : V.Nodup) (hcl : ∀ v ∈ V, ∀ m ∈ succs v, m ∈ V) {c : Nat} :
    ∀ (l : List Nat) (s : SortRun) {t : SortRun}, (∀ n ∈ l, n ∈ V) → c ∈ l → RunInv V s → s.idx c = -2 →
      Graph.white V s.idx < k → s.raised = false →
      l.foldlM (fun s m => if s.raised then .ok s else visitOn succs k s m) s = .ok t → t.raised = true := by
  intro l
  induction l with
  | nil => intro s t _ hc; simp at hc
  | cons n l ih =>
    intro s t hl hc hi h2 hw hr hf
    rw [List.foldlM_cons] at hf
    simp only [hr, Bool.false_eq_true, if_false] at hf
    obtain ⟨u, hu, hlu⟩ := visitOn_spec hV hcl k s n (hl n (by simp)) hi hr hw
    rw [hu, Res.ok_bind] at hf
    cases hur : u.raised with
    | true =>
      rw [fold_raised l hur, Res.ok.injEq] at hf
      rw [← hf, hur]
    | false =>
      rcases List.mem_cons.1 hc with rfl | hc
      · exfalso
        cases k with
        | zero => omega
        | succ k =>
          rw [visitOn, if_neg (by omega), if_pos h2, Res.ok.injEq] at hu
          rw [← hu] at hur
          simp at hur
      · exact ih u (fun m hm => hl m (by simp [hm])) hc hlu.inv (hlu.open_ c h2) (lt_of_le_of_lt hlu.white hw) hur hf

theorem sort_agrees (g : Graph) : Agrees
    (g.nodes.reverse.foldlM (visit (fun v => (g.mem v).succs) (g.nodes.length + 1)) (fun v => (g.mem v).topo, (g.nodes.length : Int) - 1))
    g.sortOn :=
  fold_agrees (visit_agrees _ _) _ _

/-- After a run with an exception, sorting throws. -/
theorem sort_throws {g : Graph} (hs : g.sorted = false) {t : SortRun} (ht : g.sortOn = .ok t) (hr : t.raised = true) :
    g.topologicalSort = .throw := by
  have ha := sort_agrees g
  have hf : g.nodes.reverse.foldlM (visit (fun v => (g.mem v).succs) (g.nodes.length + 1))
      (fun v => (g.mem v).topo, (g.nodes.length : Int) - 1) = .throw := by
    cases h : g.nodes.reverse.foldlM (visit (fun v => (g.mem v).succs) (g.nodes.length + 1))
      (fun v => (g.mem v).topo, (g.nodes.length : Int) - 1) with
    | throw => rfl
    | ok s =>
      rw [h] at ha
      simp only [Agrees] at ha
      rw [ha, Res.ok.injEq] at ht
      rw [← ht] at hr
      simp at hr
    | ub =>
      rw [h] at ha
      simp only [Agrees] at ha
      rw [ha] at ht
      cases ht
  simp only [topologicalSort, hs, Bool.false_eq_true, if_false, sortIdx, hf]
  rfl

theorem Stuck.refuses {g : Graph} (h : g.Stuck) : g.topologicalSort = .throw := by
  obtain ⟨t, ht, _⟩ := sortOn_spec h.nodup h.closed h.state
  obtain ⟨c, hc, h2⟩ := h.stuck
  refine sort_throws h.sorted ht ?_
  exact fold_stuck h.nodup h.closed g.nodes.reverse _ (fun m hm => List.mem_reverse.1 hm) (List.mem_reverse.2 hc)
    (startInv h.state) h2 (Nat.lt_succ_of_le List.countP_le_length) rfl ht

/-- What a refused sort leaves behind. -/
theorem after_spec {g : Graph} (hs : g.sorted = false) (hn : g.nodes.Nodup)
    (hcl : ∀ v ∈ g.nodes, ∀ w ∈ (g.mem v).succs, w ∈ g.nodes)
    (hst : ∀ v ∈ g.nodes, (g.mem v).topo = -1 ∨ (g.mem v).topo = -2 ∨ 0 ≤ (g.mem v).topo)
    (hdm : ∀ d ∈ g.decisions, d ∈ g.nodes) (hdt : ∀ i (h : i < g.decisions.length), (g.mem g.decisions[i]).topo = i)
    (ht : g.topologicalSort = .throw) :
    ∃ g', g.afterRefusal = .ok g' ∧ g'.Stuck ∧ SameButOrder g g' := by
  obtain ⟨t, h1, hl⟩ := sortOn_spec hn hcl hst
  have hr : t.raised = true := by
    cases hr : t.raised with
    | true => rfl
    | false =>
      exfalso
      have ha := sort_agrees g
      rw [h1] at ha
      simp only [topologicalSort, hs, Bool.false_eq_true, if_false, sortIdx] at ht
      cases hf : g.nodes.reverse.foldlM (visit (fun v => (g.mem v).succs) (g.nodes.length + 1))
          (fun v => (g.mem v).topo, (g.nodes.length : Int) - 1) with
      | throw =>
        rw [hf] at ha
        obtain ⟨t', ht', hr'⟩ := ha
        rw [Res.ok.injEq] at ht'
        rw [← ht', hr] at hr'
        cases hr'
      | ub => rw [hf] at ha; cases ha
      | ok s =>
        rw [hf] at ht
        simp only [Res.ok_bind] at ht
        unfold guardUB at ht
        split_ifs at ht
        · cases ht
        · cases ht
  refine ⟨{ g with mem := fun v => { g.mem v with topo := t.idx v } }, by rw [afterRefusal, h1, Res.ok_bind], ⟨hs, hn, hcl, hl.inv.state, hl.stuck hr, hdm, fun i hi => ?_⟩,
    ⟨rfl, rfl, rfl, rfl, rfl, fun v => ⟨t.idx v, rfl⟩, fun v hv => hl.done v hv⟩⟩
  have := hl.done g.decisions[i] (by simp only [hdt i hi]; omega)
  exact this.trans (hdt i hi)

theorem Stuck.after {g : Graph} (h : g.Stuck) : ∃ g', g.afterRefusal = .ok g' ∧ g'.Stuck ∧ SameButOrder g g' :=
  after_spec h.sorted h.nodup h.closed h.state h.decMem h.decTopo h.refuses

theorem WF.after {g : Graph} (h : g.WF) (ht : g.topologicalSort = .throw) :
    ∃ g', g.afterRefusal = .ok g' ∧ g'.Stuck ∧ SameButOrder g g' := by
  have hs : g.sorted = false := by
    cases hs : g.sorted with
    | false => rfl
    | true => simp [topologicalSort, hs] at ht
  refine after_spec hs h.nodup h.succMem (fun v hv => ?_) h.decMem h.decTopo ht
  by_cases hd : v ∈ g.decisions
  · obtain ⟨i, hi, rfl⟩ := List.mem_iff_getElem.1 hd
    have := h.decTopo i hi
    simp only [topoOf] at this
    rw [this]
    omega
  · exact .inl (h.unsorted hs v hv hd)

/-- Later, symbols, decisions and operands may have been added. -/
structure Grown (g g' : Graph) : Prop where
  nodes : ∀ v ∈ g.nodes, v ∈ g'.nodes
  decisions : ∃ t, g'.decisions = g.decisions ++ t

theorem Grown.refl (g : Graph) : Grown g g := ⟨fun _ h => h, [], by simp⟩

theorem Grown.trans {a b c : Graph} (h : Grown a b) (k : Grown b c) : Grown a c := by
  obtain ⟨t, ht⟩ := h.decisions
  obtain ⟨u, hu⟩ := k.decisions
  exact ⟨fun v hv => k.nodes v (h.nodes v hv), t ++ u, by rw [hu, ht, List.append_assoc]⟩

theorem Stuck.emplaceDecision {g g' : Graph} (h : g.Stuck) {a : Nat} (he : g.emplaceDecision a = .ok g') :
    g'.Stuck ∧ Grown g g' := by
  simp only [Graph.emplaceDecision, Res.bind_eq_ok, Res.ok.injEq, guardThrow_eq_ok, guardUB_eq_ok] at he
  obtain ⟨_, _, _, ha, rfl⟩ := he
  have hne : ∀ v ∈ g.nodes, v ≠ a := fun v hv he => ha (he ▸ hv)
  obtain ⟨c, hc, h2⟩ := h.stuck
  refine ⟨⟨h.sorted, ?_, ?_, ?_, ⟨c, by simp [hc], by simp only [upd_ne _ _ (hne c hc)]; exact h2⟩, ?_, ?_⟩,
    ⟨fun v hv => by simp [hv], [a], rfl⟩⟩
  · rw [List.nodup_append]
    exact ⟨h.nodup, by simp, fun v hv w hw => by rw [List.mem_singleton.1 hw]; exact hne v hv⟩
  · intro v hv w hw
    rcases List.mem_append.1 hv with hv | hv
    · simp only [upd_ne _ _ (hne v hv)] at hw
      exact List.mem_append_left _ (h.closed v hv w hw)
    · obtain rfl := List.mem_singleton.1 hv
      simp at hw
  · intro v hv
    rcases List.mem_append.1 hv with hv | hv
    · simp only [upd_ne _ _ (hne v hv)]
      exact h.state v hv
    · obtain rfl := List.mem_singleton.1 hv
      simp
  · intro d hd
    rcases List.mem_append.1 hd with hd | hd
    · exact List.mem_append_left _ (h.decMem d hd)
    · exact List.mem_append_right _ hd
  · intro i hi
    by_cases hl : i < g.decisions.length
    · simp only [List.getElem_append_left hl, upd_ne _ _ (hne _ (h.decMem _ (List.getElem_mem hl)))]
      exact h.decTopo i hl
    · simp only [List.length_append, List.length_singleton] at hi
      have : i = g.decisions.length := by omega
      subst this
      simp

theorem Stuck.emplaceNode {g g' : Graph} (h : g.Stuck) {a : Nat} {ps : List Nat} {r : Bool} (he : g.emplaceNode a ps r = .ok g') :
    g'.Stuck ∧ Grown g g' := by
  simp only [Graph.emplaceNode, Res.bind_eq_ok, Res.ok.injEq, guardThrow_eq_ok, guardUB_eq_ok] at he
  obtain ⟨_, _, _, ⟨ha, hp⟩, rfl⟩ := he
  have hne : ∀ v ∈ g.nodes, v ≠ a := fun v hv he => ha (he ▸ hv)
  have hac : ps.count a = 0 := List.count_eq_zero.2 fun hx => ha (hp a hx)
  obtain ⟨c, hc, h2⟩ := h.stuck
  refine ⟨⟨h.sorted, ?_, ?_, ?_, ⟨c, by simp [hc], ?_⟩, ?_, ?_⟩, ⟨fun v hv => by simp [hv], [], by simp⟩⟩
  · rw [List.nodup_append]
    exact ⟨h.nodup, by simp, fun v hv w hw => by rw [List.mem_singleton.1 hw]; exact hne v hv⟩
  · intro v hv w hw
    simp only [linkSuccs_eq] at hw
    rcases List.mem_append.1 hv with hv | hv
    · simp only [upd_ne _ _ (hne v hv)] at hw
      rcases List.mem_append.1 hw with hw | hw
      · exact List.mem_append_left _ (h.closed v hv w hw)
      · rw [(List.mem_replicate.1 hw).2]; simp
    · obtain rfl := List.mem_singleton.1 hv
      simp [hac] at hw
  · intro v hv
    simp only [linkSuccs_eq]
    rcases List.mem_append.1 hv with hv | hv
    · simp only [upd_ne _ _ (hne v hv)]
      exact h.state v hv
    · obtain rfl := List.mem_singleton.1 hv
      simp
  · simp only [linkSuccs_eq, upd_ne _ _ (hne c hc)]
    exact h2
  · exact fun d hd => List.mem_append_left _ (h.decMem d hd)
  · intro i hi
    simp only [linkSuccs_eq, upd_ne _ _ (hne _ (h.decMem _ (List.getElem_mem hi)))]
    exact h.decTopo i hi

theorem Stuck.addPredecessor {g g' : Graph} (h : g.Stuck) {n p : Nat} (he : g.addPredecessor n p = .ok g') :
    g'.Stuck ∧ Grown g g' := by
  simp only [Graph.addPredecessor, Res.bind_eq_ok, Res.ok.injEq, guardThrow_eq_ok, guardUB_eq_ok] at he
  obtain ⟨_, ⟨hn, hp, _, _⟩, _, _, _, _, rfl⟩ := he
  have hpr : ∀ v, (upd (upd g.mem p { g.mem p with succs := (g.mem p).succs ++ [n] }) n
      { (upd g.mem p { g.mem p with succs := (g.mem p).succs ++ [n] }) n with
        preds := ((upd g.mem p { g.mem p with succs := (g.mem p).succs ++ [n] }) n).preds ++ [p] } v)
      = { g.mem v with
          preds := if v = n then (g.mem v).preds ++ [p] else (g.mem v).preds
          succs := if v = p then (g.mem v).succs ++ [n] else (g.mem v).succs } := by
    intro v
    by_cases h1 : v = n
    · subst h1
      by_cases h2 : v = p
      · subst h2; simp
      · rw [upd_same, upd_ne _ _ h2]; simp [h2]
    · rw [upd_ne _ _ h1]
      by_cases h2 : v = p
      · subst h2; simp [h1]
      · rw [upd_ne _ _ h2]; simp [h1, h2]
  obtain ⟨c, hc, h2⟩ := h.stuck
  refine ⟨⟨h.sorted, h.nodup, ?_, ?_, ⟨c, hc, ?_⟩, h.decMem, ?_⟩, ⟨fun v hv => hv, [], by simp⟩⟩
  · intro v hv w hw
    simp only [hpr] at hw
    split_ifs at hw
    · rcases List.mem_append.1 hw with hw | hw
      · exact h.closed v hv w hw
      · rw [List.mem_singleton.1 hw]; exact hn
    · exact h.closed v hv w hw
  · intro v hv
    simp only [hpr]
    exact h.state v hv
  · simp only [hpr]
    exact h2
  · intro i hi
    simp only [hpr]
    exact h.decTopo i hi

end Graph

namespace PyModel

/-- The model is not locked, and sorting has been refused. -/
structure Jammed (m : PyModel) : Prop where
  stuck : m.g.Stuck
  count : m.lockCount = 0

theorem Jammed.unlocked {m : PyModel} (h : m.Jammed) : m.isLocked = false := by simp [isLocked, h.count]

/-- Locking and removing symbols are refused. -/
theorem Jammed.refused {m : PyModel} (h : m.Jammed) {op : ModelOp} (ho : op = .lock ∨ op = .removeUnused) :
    ∃ m', m.attempt op = .ok (m', true) ∧ m'.Jammed ∧ m'.lockCount = m.lockCount ∧ Graph.SameButOrder m.g m'.g := by
  have ht := h.stuck.refuses
  obtain ⟨g', hg, hs, hsame⟩ := h.stuck.after
  have hst : m.step op = .throw := by
    rcases ho with rfl | rfl
    · simp [step, ht]
    · simp [step, Graph.removeUnused, ht, h.unlocked, guardThrow]
  refine ⟨⟨g', m.lockCount⟩, ?_, ⟨hs, h.count⟩, rfl, hsame⟩
  simp [attempt, hst, h.unlocked, ho, hg]

theorem Jammed.attempt {m : PyModel} (h : m.Jammed) {op : ModelOp} {r : PyModel × Bool} (hr : m.attempt op = .ok r) :
    r.1.Jammed ∧ Graph.Grown m.g r.1.g := by
  by_cases ho : op = .lock ∨ op = .removeUnused
  · obtain ⟨m', hm, hj, _, hs⟩ := h.refused ho
    rw [hm, Res.ok.injEq] at hr
    subst hr
    exact ⟨hj, ⟨fun v hv => by rw [hs.nodes]; exact hv, [], by rw [hs.decisions]; simp⟩⟩
  · simp only [PyModel.attempt] at hr
    cases hst : m.step op with
    | ub => simp [hst] at hr
    | throw =>
      simp only [hst, ho, and_false, if_false, Res.ok.injEq] at hr
      subst hr
      exact ⟨h, Graph.Grown.refl _⟩
    | ok m' =>
      simp only [hst, Res.ok.injEq] at hr
      subst hr
      cases op with
      | decision a =>
        simp only [step, Res.bind_eq_ok, Res.ok.injEq] at hst
        obtain ⟨g, hg, rfl⟩ := hst
        obtain ⟨h1, h2⟩ := h.stuck.emplaceDecision hg
        exact ⟨⟨h1, h.count⟩, h2⟩
      | node a ps b =>
        simp only [step, Res.bind_eq_ok, Res.ok.injEq] at hst
        obtain ⟨g, hg, rfl⟩ := hst
        obtain ⟨h1, h2⟩ := h.stuck.emplaceNode hg
        exact ⟨⟨h1, h.count⟩, h2⟩
      | addOperand n p =>
        simp only [step, Res.bind_eq_ok, Res.ok.injEq] at hst
        obtain ⟨g, hg, rfl⟩ := hst
        obtain ⟨h1, h2⟩ := h.stuck.addPredecessor hg
        exact ⟨⟨h1, h.count⟩, h2⟩
      | minimize o =>
        simp only [step, Graph.setObjective, Res.bind_eq_ok, Res.ok.injEq] at hst
        obtain ⟨g, ⟨_, _, _, _, rfl⟩, rfl⟩ := hst
        exact ⟨⟨⟨h.stuck.sorted, h.stuck.nodup, h.stuck.closed, h.stuck.state, h.stuck.stuck, h.stuck.decMem, h.stuck.decTopo⟩,
          h.count⟩, ⟨fun _ hv => hv, [], by simp⟩⟩
      | addConstraint c =>
        simp only [step, Graph.addConstraint, Res.bind_eq_ok, Res.ok.injEq] at hst
        obtain ⟨g, ⟨_, _, _, _, _, _, rfl⟩, rfl⟩ := hst
        exact ⟨⟨⟨h.stuck.sorted, h.stuck.nodup, h.stuck.closed, h.stuck.state, h.stuck.stuck, h.stuck.decMem, h.stuck.decTopo⟩,
          h.count⟩, ⟨fun _ hv => hv, [], by simp⟩⟩
      | reference v b =>
        simp only [step, Res.ok.injEq] at hst
        subst hst
        have hm : ∀ w, (upd m.g.mem v { m.g.mem v with listened := b } w).topo = (m.g.mem w).topo ∧
            (upd m.g.mem v { m.g.mem v with listened := b } w).succs = (m.g.mem w).succs := by
          intro w
          by_cases hw : w = v
          · subst hw; simp
          · simp [upd_ne _ _ hw]
        obtain ⟨c, hc, h2⟩ := h.stuck.stuck
        refine ⟨⟨⟨h.stuck.sorted, h.stuck.nodup, fun u hu w hw => ?_, fun u hu => ?_, ⟨c, hc, (hm c).1.trans h2⟩, h.stuck.decMem,
          fun i hi => (hm _).1.trans (h.stuck.decTopo i hi)⟩, h.count⟩, ⟨fun _ hv => hv, [], by simp⟩⟩
        · simp only [(hm u).2] at hw
          exact h.stuck.closed u hu w hw
        · simp only [(hm u).1]
          exact h.stuck.state u hu
      | lock => simp at ho
      | unlock =>
        simp only [step, h.count] at hst
        simp at hst
        subst hst
        exact ⟨h, Graph.Grown.refl _⟩
      | removeUnused => simp at ho

theorem Jammed.attempts : ∀ (ops : List ModelOp) {m : PyModel} {r : PyModel × List Bool}, m.Jammed → m.attempts ops = .ok r →
    r.1.Jammed ∧ Graph.Grown m.g r.1.g := by
  intro ops
  induction ops with
  | nil =>
    intro m r h hr
    simp only [PyModel.attempts, Res.ok.injEq] at hr
    subst hr
    exact ⟨h, Graph.Grown.refl _⟩
  | cons op ops ih =>
    intro m r h hr
    simp only [PyModel.attempts, Res.bind_eq_ok, Res.ok.injEq] at hr
    obtain ⟨q, hq, p, hp, rfl⟩ := hr
    obtain ⟨h1, h2⟩ := h.attempt hq
    obtain ⟨h3, h4⟩ := ih h1 hp
    exact ⟨h3, h2.trans h4⟩

/-- Without refused sorts, histories are those of `perform`. -/
theorem attempt_perform {m : PyModel} {op : ModelOp} {m' : PyModel} (h : m.perform op = .ok m') :
    ∃ b, m.attempt op = .ok (m', b) := by
  unfold perform at h
  unfold PyModel.attempt
  cases hs : m.step op with
  | ok m1 => rw [hs] at h; simp only [Res.ok.injEq] at h; subst h; exact ⟨_, rfl⟩
  | ub => rw [hs] at h; cases h
  | throw =>
    rw [hs] at h
    simp only at h ⊢
    split_ifs at h with hc
    rw [if_neg hc]
    simp only [Res.ok.injEq] at h
    subst h
    exact ⟨_, rfl⟩

/-- The first refusal. -/
theorem Inv.refused {m : PyModel} (h : m.Inv) {op : ModelOp} (ht : m.step op = .throw)
    (ho : m.isLocked = false ∧ (op = .lock ∨ op = .removeUnused)) :
    ∃ m', m.attempt op = .ok (m', true) ∧ m'.Jammed ∧ m'.lockCount = m.lockCount ∧ Graph.SameButOrder m.g m'.g := by
  have hc : m.lockCount = 0 := by
    have h1 := h.nonneg
    have h2 := ho.1
    simp [isLocked] at h2
    omega
  have hsort : m.g.topologicalSort = .throw := by
    cases hs : m.g.topologicalSort with
    | throw => rfl
    | ok g =>
      exfalso
      rcases ho.2 with rfl | rfl
      · simp [step, hs] at ht
      · simp [step, Graph.removeUnused, hs, ho.1, guardThrow] at ht
    | ub =>
      exfalso
      rcases ho.2 with rfl | rfl
      · simp [step, hs] at ht
      · simp [step, Graph.removeUnused, hs, ho.1, guardThrow] at ht
  obtain ⟨g', hg, hs, hsame⟩ := h.wf.after hsort
  refine ⟨⟨g', m.lockCount⟩, ?_, ⟨hs, hc⟩, rfl, hsame⟩
  simp only [PyModel.attempt, ht]
  rw [if_pos ho, hg]
  rfl

theorem attempts_append : ∀ (a b : List ModelOp) (m : PyModel), m.attempts (a ++ b) =
    (do
      let r ← m.attempts a
      let q ← r.1.attempts b
      .ok (q.1, r.2 ++ q.2)) := by
  intro a b
  induction a with
  | nil =>
    intro m
    simp only [List.nil_append, PyModel.attempts, Res.ok_bind]
    cases m.attempts b <;> rfl
  | cons op a ih =>
    intro m
    simp only [List.cons_append, PyModel.attempts]
    cases m.attempt op with
    | ok r =>
      simp only [Res.ok_bind, ih]
      cases r.1.attempts a with
      | ok q =>
        simp only [Res.ok_bind]
        cases q.1.attempts b <;> rfl
      | throw => rfl
      | ub => rfl
    | throw => rfl
    | ub => rfl

theorem perform_attempt {m m' : PyModel} {op : ModelOp} {b : Bool} (hl : ¬ (m.isLocked = false ∧ (op = .lock ∨ op = .removeUnused)))
    (h : m.attempt op = .ok (m', b)) : m.perform op = .ok m' := by
  unfold perform
  unfold PyModel.attempt at h
  cases hs : m.step op with
  | ok m1 => rw [hs] at h; simp only [Res.ok.injEq, Prod.mk.injEq] at h; rw [h.1]
  | ub => rw [hs] at h; cases h
  | throw =>
    rw [hs] at h
    simp only [if_neg hl, Res.ok.injEq, Prod.mk.injEq] at h ⊢
    exact h.1

theorem attempts_run : ∀ (ops : List ModelOp) {m : PyModel} {r : PyModel × List Bool}, m.Inv → m.attempts ops = .ok r →
    m.run ops = .ok r.1 ∨ r.1.Jammed := by
  intro ops
  induction ops with
  | nil =>
    intro m r h hr
    simp only [PyModel.attempts, Res.ok.injEq] at hr
    subst hr
    exact .inl rfl
  | cons op ops ih =>
    intro m r h hr
    simp only [PyModel.attempts, Res.bind_eq_ok, Res.ok.injEq] at hr
    obtain ⟨q, hq, p, hp, rfl⟩ := hr
    cases hpf : m.perform op with
    | ok m' =>
      obtain ⟨b, hb⟩ := attempt_perform hpf
      rw [hb, Res.ok.injEq] at hq
      subst hq
      refine (ih (r := p) (perform_inv h hpf).1 hp).imp (fun h => ?_) id
      simp only [run, List.foldlM_cons, hpf, Res.ok_bind]
      exact h
    | ub =>
      exfalso
      unfold perform at hpf
      unfold PyModel.attempt at hq
      cases hs : m.step op with
      | ok m1 => rw [hs] at hpf; cases hpf
      | ub => rw [hs] at hq; cases hq
      | throw => rw [hs] at hpf; simp only at hpf; split_ifs at hpf
    | throw =>
      unfold perform at hpf
      cases hs : m.step op with
      | ok m1 => rw [hs] at hpf; cases hpf
      | ub => rw [hs] at hpf; cases hpf
      | throw =>
        rw [hs] at hpf
        simp only at hpf
        split_ifs at hpf with hc
        obtain ⟨m', hm, hj, _⟩ := h.refused hs hc
        rw [hm, Res.ok.injEq] at hq
        subst hq
        exact .inr (hj.attempts ops hp).1

/-- After any history with caught exceptions, either no sort has been refused, or the model is jammed. -/
theorem attempts_inv (ops : List ModelOp) {m : PyModel} {r : PyModel × List Bool} (h : m.Inv) (hr : m.attempts ops = .ok r) :
    r.1.Inv ∨ r.1.Jammed :=
  (attempts_run ops h hr).imp (fun h' => (run_inv h h').1) id

end PyModel
end Verif
