import Verif.Lemmas.GraphRemove
import Verif.Model.PyModel

set_option linter.unusedSectionVars false
set_option linter.unusedSimpArgs false
set_option linter.unusedVariables false

/-!
# C17, C18, C20: locking, ordering and pruning models

All statements range over the models reached by arbitrary histories of operations from the empty
model.
-/

namespace Verif

/-- How many locks are in force after a history: a lock adds one, an unlock takes one away, if any. -/
def lockDepth (ops : List ModelOp) : Nat :=
  ops.foldl (fun n op => match op with | .lock => n + 1 | .unlock => n - 1 | _ => n) 0

namespace PyModel

open Graph

/-- The invariant of all histories. -/
structure Inv (m : PyModel) : Prop where
  wf : m.g.WF
  nonneg : 0 ≤ m.lockCount
  sorted : m.g.sorted = true ↔ 0 < m.lockCount

theorem inv_new : new.Inv := ⟨WF_empty, by simp [new], by simp [new, Graph.empty]⟩

/-- What an operation does to the number of locks. -/
def lockEffect : ModelOp → Int → Int
  | .lock, n => n + 1
  | .unlock, n => max 0 (n - 1)
  | _, n => n

/-- What one operation does, on any model with the invariant. -/
theorem step_inv {m m' : PyModel} (h : m.Inv) {op : ModelOp} (hs : m.step op = .ok m') :
    m'.Inv ∧ (∃ t, m'.g.decisions = m.g.decisions ++ t) ∧
      m'.lockCount = lockEffect op m.lockCount := by
  have hun : m.g.sorted = false → ¬ 0 < m.lockCount := fun hf hx => by
    rw [h.sorted.2 hx] at hf; simp at hf
  cases op with
  | decision a =>
    simp only [step, Res.bind_eq_ok, Res.ok.injEq] at hs
    obtain ⟨g, hg, rfl⟩ := hs
    have hg0 := hg
    simp only [emplaceDecision, guardThrow, guardUB, Res.bind_eq_ok] at hg
    obtain ⟨_, h1, _, h2, _⟩ := hg
    split_ifs at h1 h2 with hf ha
    obtain ⟨g', e, w, hso, _, hd, _⟩ := emplaceDecision_spec h.wf hf ha
    rw [hg0] at e; cases e
    exact ⟨⟨w, h.nonneg, by have := hun hf; simp [hso]; omega⟩, ⟨[a], hd⟩, rfl⟩
  | node a preds rem =>
    simp only [step, Res.bind_eq_ok, Res.ok.injEq] at hs
    obtain ⟨g, hg, rfl⟩ := hs
    have hg0 := hg
    simp only [emplaceNode, guardThrow, guardUB, Res.bind_eq_ok] at hg
    obtain ⟨_, h1, _, h2, _⟩ := hg
    split_ifs at h1 h2 with hf ha
    obtain ⟨g', e, w, hso, _, hd, _⟩ := emplaceNode_spec h.wf hf ha.1 ha.2 rem
    rw [hg0] at e; cases e
    exact ⟨⟨w, h.nonneg, by have := hun hf; simp [hso]; omega⟩, ⟨[], by simp [hd]⟩, rfl⟩
  | addOperand n p =>
    simp only [step, Res.bind_eq_ok, Res.ok.injEq] at hs
    obtain ⟨g, hg, rfl⟩ := hs
    have hg0 := hg
    simp only [addPredecessor, guardThrow, guardUB, Res.bind_eq_ok] at hg
    obtain ⟨_, h1, _, h2, _, h3, _⟩ := hg
    split_ifs at h1 h2 h3 with ha hb hc
    by_cases hf : m.g.sorted = false
    · obtain ⟨g', e, w, hso, _, hd, _⟩ := addPredecessor_spec h.wf hf ha.1 ha.2.1 ha.2.2.1 ha.2.2.2
      rw [hg0] at e; cases e
      exact ⟨⟨w, h.nonneg, by have := hun hf; simp [hso]; omega⟩, ⟨[], by simp [hd]⟩, rfl⟩
    · exfalso
      have hf : m.g.sorted = true := by simpa using hf
      obtain ⟨q, hq⟩ := List.exists_mem_of_ne_nil _ ha.2.2.2
      have hqn := h.wf.predMem n ha.1 q hq
      have he := (h.wf.topological hf).edge q hqn n ((h.wf.mem_link hqn ha.1).2 hq)
      have := ((h.wf.topological hf).range q hqn).1
      simp only [topoOf] at *
      omega
  | minimize o =>
    simp only [step, Res.bind_eq_ok, Res.ok.injEq] at hs
    obtain ⟨g, hg, rfl⟩ := hs
    simp only [setObjective, guardThrow, guardUB, Res.bind_eq_ok] at hg
    obtain ⟨_, h1, _, h2, h3⟩ := hg
    split_ifs at h1 h2 with ha
    cases h3
    exact ⟨⟨h.wf.of_same (fun _ => ⟨rfl, rfl, rfl⟩) rfl rfl rfl ha h.wf.conMem, h.nonneg, h.sorted⟩,
      ⟨[], by simp⟩, rfl⟩
  | addConstraint c =>
    simp only [step, Res.bind_eq_ok, Res.ok.injEq] at hs
    obtain ⟨g, hg, rfl⟩ := hs
    simp only [Graph.addConstraint, guardThrow, guardUB, Res.bind_eq_ok] at hg
    obtain ⟨_, h1, _, h2, _, h2', h3⟩ := hg
    split_ifs at h1 h2 with ha
    cases h3
    refine ⟨⟨h.wf.of_same (fun _ => ⟨rfl, rfl, rfl⟩) rfl rfl rfl h.wf.objMem ?_, h.nonneg, h.sorted⟩,
      ⟨[], by simp⟩, rfl⟩
    intro v hv
    rcases List.mem_append.1 hv with hv | hv
    · exact h.wf.conMem v hv
    · simp at hv; exact hv ▸ ha
  | reference v b =>
    simp only [step, Res.ok.injEq] at hs
    subst hs
    refine ⟨⟨h.wf.of_same (fun w => ?_) rfl rfl rfl h.wf.objMem h.wf.conMem, h.nonneg, h.sorted⟩,
      ⟨[], by simp⟩, rfl⟩
    by_cases hw : w = v
    · subst hw; simp
    · simp [upd_ne _ _ hw]
  | lock =>
    simp only [step, Res.bind_eq_ok, Res.ok.injEq] at hs
    obtain ⟨g, hg, rfl⟩ := hs
    have hn := h.nonneg
    by_cases hf : m.g.sorted = false
    · rcases h.wf.sort_spec hf with ⟨g', e, w, hso, _, _, hd, _⟩ | ⟨e, _⟩
      · rw [hg] at e; cases e
        exact ⟨⟨w, by simp only; omega, by simp [hso]; omega⟩, ⟨[], by simp [hd]⟩, rfl⟩
      · rw [hg] at e; cases e
    · have hf : m.g.sorted = true := by simpa using hf
      simp only [topologicalSort, hf, if_true, Res.ok.injEq] at hg
      subst hg
      exact ⟨⟨h.wf, by simp only; omega, by simp [hf]; omega⟩, ⟨[], by simp⟩, rfl⟩
  | unlock =>
    have hn := h.nonneg
    simp only [step] at hs
    by_cases h1 : m.lockCount < 1
    · rw [if_pos h1] at hs; cases hs
      exact ⟨h, ⟨[], by simp⟩, by simp only [lockEffect]; omega⟩
    · rw [if_neg h1] at hs
      by_cases h2 : m.lockCount - 1 < 1
      · rw [if_pos h2] at hs; cases hs
        obtain ⟨w, hso, _, _, hd, _⟩ := reset_spec h.wf
        exact ⟨⟨w, by simp only; omega, by simp [hso]; omega⟩, ⟨[], by simp [hd]⟩, by simp only [lockEffect]; omega⟩
      · rw [if_neg h2] at hs; cases hs
        refine ⟨⟨h.wf, by simp only; omega, ?_⟩, ⟨[], by simp⟩, by simp only [lockEffect]; omega⟩
        simp only
        rw [h.sorted]; omega
  | removeUnused =>
    simp only [step, Res.bind_eq_ok, Res.ok.injEq, guardThrow] at hs
    obtain ⟨_, h1, r, hr, rfl⟩ := hs
    split_ifs at h1 with hl
    have hl' : ¬ 0 < m.lockCount := by simpa [isLocked] using hl
    have hf : m.g.sorted = false := by
      by_contra hc
      exact hl' (h.sorted.1 (by simpa using hc))
    rcases h.wf.sort_spec hf with ⟨g1, e, w, hso, _, _, hd, _⟩ | ⟨e, _⟩
    · obtain ⟨g', e2, w', hso', _, _, _, hd', _⟩ := removeUnused_sorted w hso false
      have : m.g.removeUnused false = g1.removeUnused false := by
        simp only [removeUnused, e, Res.ok_bind]
        rw [show g1.topologicalSort = .ok g1 by simp [topologicalSort, hso]]
        simp only [Res.ok_bind]
      rw [this, e2] at hr
      cases hr
      exact ⟨⟨w', h.nonneg, by simp [hso']; omega⟩, ⟨[], by simp [hd', hd]⟩, rfl⟩
    · simp [removeUnused, e] at hr

theorem perform_inv {m m' : PyModel} (h : m.Inv) {op : ModelOp} (hs : m.perform op = .ok m') :
    m'.Inv ∧ (∃ t, m'.g.decisions = m.g.decisions ++ t) ∧
      m'.lockCount = lockEffect op m.lockCount := by
  unfold perform at hs
  cases hst : m.step op with
  | ok m1 =>
    rw [hst] at hs; cases hs
    exact step_inv h hst
  | ub => rw [hst] at hs; cases hs
  | throw =>
    rw [hst] at hs
    simp only at hs
    split_ifs at hs with hc
    cases hs
    refine ⟨h, ⟨[], by simp⟩, ?_⟩
    cases op <;> try rfl
    · exfalso
      have hlk : ¬ m.isLocked = false := fun hx => hc ⟨hx, Or.inl rfl⟩
      have hso : m.g.sorted = true := h.sorted.2 (by simpa [isLocked] using hlk)
      simp [step, topologicalSort, hso] at hst
    · simp only [step] at hst
      split_ifs at hst

theorem run_append (m : PyModel) (a b : List ModelOp) :
    m.run (a ++ b) = (m.run a >>= fun m' => m'.run b) := by
  simp [run, List.foldlM_append]

theorem run_inv {m m' : PyModel} (h : m.Inv) {ops : List ModelOp} (hs : m.run ops = .ok m') :
    m'.Inv ∧ (∃ t, m'.g.decisions = m.g.decisions ++ t) ∧
      m'.lockCount = (ops.foldl (fun (n : Nat) op =>
        match op with | .lock => n + 1 | .unlock => n - 1 | _ => n) m.lockCount.toNat : Nat) := by
  induction ops generalizing m with
  | nil =>
    simp [run] at hs; subst hs
    exact ⟨h, ⟨[], by simp⟩, by have := h.nonneg; simp; omega⟩
  | cons op ops ih =>
    simp only [run, List.foldlM_cons, Res.bind_eq_ok] at hs
    obtain ⟨m1, h1, h2⟩ := hs
    obtain ⟨hi, ⟨t, ht⟩, hc⟩ := perform_inv h h1
    obtain ⟨hi', ⟨t', ht'⟩, hc'⟩ := ih hi h2
    refine ⟨hi', ⟨t ++ t', by rw [ht', ht, List.append_assoc]⟩, ?_⟩
    rw [hc', List.foldl_cons]
    congr 2
    have := h.nonneg
    cases op <;> simp only [lockEffect] at hc ⊢ <;> omega

/-- After any history the model is well-formed. -/
theorem reachable {ops : List ModelOp} {m : PyModel} (hs : new.run ops = .ok m) : m.Inv :=
  (run_inv inv_new hs).1

end PyModel

open Graph PyModel

/-- C17.  Locking any model without a cycle succeeds.  Every symbol then has an index of its own in
`0 .. n-1`, decision number `i` has index `i`, every symbol comes after its predecessors (edges lead to
larger indices), and listing the symbols gives them in index order.  Symbols, edges, decisions,
objective and constraints are as before. -/
theorem C17_lock_sorts {ops : List ModelOp} {m : PyModel} (hr : PyModel.new.run ops = .ok m)
    (hacyclic : ¬ HasCycle (fun v => (m.g.mem v).succs) m.g.nodes) :
    ∃ m', m.step .lock = .ok m' ∧
      IsTopological (fun v => (m'.g.mem v).succs) m'.g.nodes m'.g.decisions
        (fun v => (m'.g.mem v).topo) ∧
      (∀ v ∈ m'.g.nodes, ∀ p ∈ (m'.g.mem v).preds, (m'.g.mem p).topo < (m'.g.mem v).topo) ∧
      (∀ i (h : i < m'.g.nodes.length), (m'.g.mem m'.g.nodes[i]).topo = i) ∧
      m'.g.nodes.Perm m.g.nodes ∧
      (∀ v, (m'.g.mem v).preds = (m.g.mem v).preds ∧ (m'.g.mem v).succs = (m.g.mem v).succs) ∧
      m'.g.decisions = m.g.decisions ∧ m'.g.objective = m.g.objective ∧
      m'.g.constraints = m.g.constraints := by
  have hi := reachable hr
  have hpred : ∀ g : Graph, g.WF → g.sorted = true → ∀ v ∈ g.nodes, ∀ p ∈ (g.mem v).preds,
      (g.mem p).topo < (g.mem v).topo := by
    intro g w hso v hv p hp
    have hpn := w.predMem v hv p hp
    exact (w.topological hso).edge p hpn v ((w.mem_link hpn hv).2 hp)
  by_cases hf : m.g.sorted = false
  · rcases hi.wf.sort_spec hf with ⟨g', e, w, hso, hperm, hsame, hd, ho, hc, _⟩ | ⟨_, hcyc⟩
    · exact ⟨⟨g', m.lockCount + 1⟩, by simp [step, e], w.topological hso, hpred g' w hso,
        w.positions hso, hperm, fun v => ⟨(hsame v).1, (hsame v).2.1⟩, hd, ho, hc⟩
    · exact absurd hcyc hacyclic
  · have hf : m.g.sorted = true := by simpa using hf
    exact ⟨⟨m.g, m.lockCount + 1⟩, by simp [step, topologicalSort, hf], hi.wf.topological hf,
      hpred m.g hi.wf hf, hi.wf.positions hf, List.Perm.refl _, fun v => ⟨rfl, rfl⟩, rfl, rfl, rfl⟩

/-- C17.  Locking a model with a cycle is refused. -/
theorem C17_cycle_rejected {ops : List ModelOp} {m : PyModel} (hr : PyModel.new.run ops = .ok m)
    (hcyclic : HasCycle (fun v => (m.g.mem v).succs) m.g.nodes) : m.step .lock = .throw := by
  have hi := reachable hr
  by_cases hf : m.g.sorted = false
  · rcases hi.wf.sort_spec hf with ⟨_, _, _, _, _, _, _, _, _, hac⟩ | ⟨e, _⟩
    · exact absurd hcyclic hac
    · simp [step, e]
  · exfalso
    have hf : m.g.sorted = true := by simpa using hf
    have w := hi.wf
    obtain ⟨v, hv, hr⟩ := hcyclic
    have : ∀ u, ReachesPlus (fun v => (m.g.mem v).succs) v u → u ∈ m.g.nodes ∧
        (m.g.mem v).topo < (m.g.mem u).topo := by
      intro u hu
      induction hu with
      | single hb => exact ⟨w.succMem v hv _ hb, (w.topological hf).edge v hv _ hb⟩
      | tail _ hb ih =>
        exact ⟨w.succMem _ ih.1 _ hb, by
          have := (w.topological hf).edge _ ih.1 _ hb
          simp only [topoOf] at this
          omega⟩
    have := (this v hr).2
    omega

/-- C18.  A model is locked exactly while more locks than (effective) unlocks have been issued; and it
is exactly then that its symbols carry an order. -/
theorem C18_lock_count {ops : List ModelOp} {m : PyModel} (hr : PyModel.new.run ops = .ok m) :
    (m.isLocked = true ↔ 0 < lockDepth ops) ∧ (m.g.sorted = true ↔ 0 < lockDepth ops) := by
  obtain ⟨hi, _, hc⟩ := run_inv inv_new hr
  have hc : m.lockCount = (lockDepth ops : Int) := hc
  rw [hi.sorted, hc]
  simp [isLocked, hc]

/-- C18.  While a model is locked no symbol can be added or removed, and no operand can be added to a
symbol: creating symbols and removing unused ones throw. -/
theorem C18_locked_frozen {ops : List ModelOp} {m : PyModel} (hr : PyModel.new.run ops = .ok m)
    (hl : 0 < lockDepth ops) :
    (∀ a, m.step (.decision a) = .throw) ∧ (∀ a ps r, m.step (.node a ps r) = .throw) ∧
    m.step .removeUnused = .throw ∧ (∀ n p m', m.step (.addOperand n p) ≠ .ok m') := by
  obtain ⟨hlk, hso⟩ := C18_lock_count hr
  have hi := reachable hr
  have hs := hso.2 hl
  refine ⟨fun a => ?_, fun a ps r => ?_, ?_, fun n p m' hm => ?_⟩
  · simp [step, emplaceDecision, hs, guardThrow]
  · simp [step, emplaceNode, hs, guardThrow]
  · simp [step, hlk.2 hl, guardThrow]
  · simp only [step, Res.bind_eq_ok] at hm
    obtain ⟨g, hg, _⟩ := hm
    simp only [addPredecessor, guardThrow, guardUB, Res.bind_eq_ok] at hg
    obtain ⟨_, h1, _, h2, _, h3, _⟩ := hg
    split_ifs at h1 h2 h3 with ha hb hc
    obtain ⟨q, hq⟩ := List.exists_mem_of_ne_nil _ ha.2.2.2
    have hqn := hi.wf.predMem n ha.1 q hq
    have he := (hi.wf.topological hs).edge q hqn n ((hi.wf.mem_link hqn ha.1).2 hq)
    have := ((hi.wf.topological hs).range q hqn).1
    simp only [topoOf] at *
    omega

/-- C18.  Whatever is done, as long as more locks than unlocks are in force, the symbols and their
edges stay the same. -/
theorem C18_locked_same {ops : List ModelOp} {m m' : PyModel} (hr : PyModel.new.run ops = .ok m)
    (hl : 0 < lockDepth ops) {op : ModelOp} (hop : m.perform op = .ok m') :
    m'.g.nodes = m.g.nodes ∧ m'.g.decisions = m.g.decisions ∧
    ∀ v, (m'.g.mem v).preds = (m.g.mem v).preds ∧ (m'.g.mem v).succs = (m.g.mem v).succs := by
  obtain ⟨hlk, hso⟩ := C18_lock_count hr
  obtain ⟨f1, f2, f3, f4⟩ := C18_locked_frozen hr hl
  have hi := reachable hr
  have hs := hso.2 hl
  unfold perform at hop
  have hlk' := hlk.2 hl
  cases op with
  | decision a => simp [f1, hlk'] at hop; subst hop; simp
  | node a ps r => simp [f2, hlk'] at hop; subst hop; simp
  | addOperand n p =>
    cases hx : m.step (.addOperand n p) with
    | ok m1 => exact absurd hx (f4 n p m1)
    | ub => simp [hx] at hop
    | throw => simp [hx, hlk'] at hop; subst hop; simp
  | minimize o =>
    cases hx : m.step (.minimize o) with
    | ub => simp [hx] at hop
    | throw => simp [hx, hlk'] at hop; subst hop; simp
    | ok m1 =>
      simp [hx] at hop; subst hop
      simp only [step, Res.bind_eq_ok, Res.ok.injEq] at hx
      obtain ⟨g, hg, rfl⟩ := hx
      simp only [setObjective, Res.bind_eq_ok, Res.ok.injEq] at hg
      obtain ⟨_, _, _, _, rfl⟩ := hg
      simp
  | addConstraint c =>
    cases hx : m.step (.addConstraint c) with
    | ub => simp [hx] at hop
    | throw => simp [hx, hlk'] at hop; subst hop; simp
    | ok m1 =>
      simp [hx] at hop; subst hop
      simp only [step, Res.bind_eq_ok, Res.ok.injEq] at hx
      obtain ⟨g, hg, rfl⟩ := hx
      simp only [Graph.addConstraint, Res.bind_eq_ok, Res.ok.injEq] at hg
      obtain ⟨_, _, _, _, _, _, rfl⟩ := hg
      simp
  | reference v b =>
    simp [step] at hop; subst hop
    refine ⟨rfl, rfl, fun w => ?_⟩
    by_cases hw : w = v
    · subst hw; simp
    · simp [upd_ne _ _ hw]
  | lock => simp [step, topologicalSort, hs] at hop; subst hop; simp
  | unlock =>
    obtain ⟨_, _, hp, hn, hd, _⟩ := reset_spec hi.wf
    simp only [step] at hop
    split_ifs at hop <;> simp at hop <;> subst hop <;> simp_all
  | removeUnused => simp [f3, hlk'] at hop; subst hop; simp

/-- C18.  Decisions keep their place and their index for life: whatever happens later, decision number
`i` is still decision number `i` and has index `i`. -/
theorem C18_decision_index {ops later : List ModelOp} {m m' : PyModel}
    (hr : PyModel.new.run ops = .ok m) (hl : PyModel.new.run (ops ++ later) = .ok m')
    (i : Nat) (hi : i < m.g.decisions.length) :
    ∃ h' : i < m'.g.decisions.length, m'.g.decisions[i] = m.g.decisions[i] ∧
      (m.g.mem m.g.decisions[i]).topo = i ∧ (m'.g.mem m'.g.decisions[i]).topo = i := by
  rw [run_append, hr, Res.ok_bind] at hl
  have h1 := reachable hr
  obtain ⟨h2, ⟨t, ht⟩, _⟩ := run_inv h1 hl
  have hlt : i < m'.g.decisions.length := by rw [ht]; simp; omega
  refine ⟨hlt, ?_, h1.wf.decTopo i hi, h2.wf.decTopo i hlt⟩
  simp only [ht, List.getElem_append_left hi]

/-- C18 fails in one respect: `x += y` on a symbol with a variable number of operands is not refused in
a locked model when `y` precedes `x` in the order.  It gets past all exceptions and runs into the
assertion of `add_predecessor`, which release builds do not check. -/
theorem C18_locked_inplace_fails : ∃ ops m n p, PyModel.new.run ops = .ok m ∧ 0 < lockDepth ops ∧
    n ∈ m.g.nodes ∧ p ∈ m.g.nodes ∧ m.step (.addOperand n p) = .ub := by
  have h : (match PyModel.new.run [.decision 0, .decision 1, .node 2 [0] true, .lock] with
    | .ok m => decide (2 ∈ m.g.nodes ∧ 1 ∈ m.g.nodes) && (match m.step (.addOperand 2 1) with
      | .ub => true | _ => false)
    | _ => false) = true := by decide +kernel
  revert h
  cases hr : PyModel.new.run [.decision 0, .decision 1, .node 2 [0] true, .lock] with
  | ok m =>
    simp only [Bool.and_eq_true, decide_eq_true_eq]
    rintro ⟨h1, h2⟩
    refine ⟨_, m, 2, 1, hr, by decide, h1.1, h1.2, ?_⟩
    revert h2
    cases m.step (.addOperand 2 1) <;> simp
  | ub => simp
  | throw => simp

/-- C20.  Removing unused symbols from any model without a cycle keeps exactly the needed symbols:
decisions, symbols that are never removable, constraints, the objective, symbols the user still refers
to, and everything these depend on.  It returns the number of symbols removed; surviving symbols keep
their operands, and their users are the surviving ones of their former users, in the same order. -/
theorem C20_remove_unused {ops : List ModelOp} {m : PyModel} (hr : PyModel.new.run ops = .ok m)
    (hl : lockDepth ops = 0) (hacyclic : ¬ HasCycle (fun v => (m.g.mem v).succs) m.g.nodes)
    (ignoreReferences : Bool) :
    ∃ g' k, m.g.removeUnused ignoreReferences = .ok (g', k) ∧
      (∀ v, v ∈ g'.nodes ↔ v ∈ m.g.nodes ∧ Needed (fun v => (m.g.mem v).preds)
        (fun v => v ∈ m.g.nodes ∧ (v ∈ m.g.decisions ∨ (m.g.mem v).removable = false ∨
          v ∈ m.g.constraints ∨ m.g.objective = some v ∨
          (ignoreReferences = false ∧ (m.g.mem v).listened = true))) v) ∧
      g'.nodes.Nodup ∧ g'.nodes.length + k = m.g.nodes.length ∧
      (∀ v ∈ g'.nodes, (g'.mem v).preds = (m.g.mem v).preds ∧
        (g'.mem v).succs = (m.g.mem v).succs.filter (fun w => decide (w ∈ g'.nodes))) ∧
      g'.decisions = m.g.decisions ∧ g'.objective = m.g.objective ∧
      g'.constraints = m.g.constraints ∧
      (∀ i (h : i < m.g.decisions.length), (g'.mem m.g.decisions[i]).topo = i) := by
  have hi := reachable hr
  have hf : m.g.sorted = false := by
    by_contra hc
    have := (C18_lock_count hr).2.1 (by simpa using hc)
    omega
  rcases hi.wf.sort_spec hf with ⟨g1, e, w, hso, hperm, hsame, hd, ho, hc, _⟩ | ⟨_, hcyc⟩
  · obtain ⟨g', e2, w', _, hsurv, ⟨p, hp⟩, hfields, hd', ho', hc'⟩ :=
      removeUnused_sorted w hso ignoreReferences
    have : m.g.removeUnused ignoreReferences = g1.removeUnused ignoreReferences := by
      simp only [removeUnused, e, Res.ok_bind]
      rw [show g1.topologicalSort = .ok g1 by simp [topologicalSort, hso]]
      simp only [Res.ok_bind]
    have hpe : g1.predsOf = fun v => (m.g.mem v).preds := funext fun v => (hsame v).1
    have hre : g1.Root ignoreReferences = (fun v => v ∈ m.g.nodes ∧ (v ∈ m.g.decisions ∨
        (m.g.mem v).removable = false ∨ v ∈ m.g.constraints ∨ m.g.objective = some v ∨
          (ignoreReferences = false ∧ (m.g.mem v).listened = true))) := by
      funext v
      unfold Root
      rw [hd, ho, hc, (hsame v).2.2.1, (hsame v).2.2.2, hperm.mem_iff]
    refine ⟨g', _, this.trans e2, ?_, w'.nodup, ?_, ?_, hd'.trans hd, ho'.trans ho, hc'.trans hc, ?_⟩
    · intro v
      rw [hsurv v, hpe, hre, hperm.mem_iff]
    · have h1 : g'.nodes.length ≤ g1.nodes.length := by rw [hp]; exact List.length_filter_le _ _
      have h2 := hperm.length_eq
      omega
    · intro v hv
      obtain ⟨a, b, _⟩ := hfields v hv
      exact ⟨a.trans (hsame v).1, by rw [b, (hsame v).2.1]⟩
    · intro i h
      have hdd := hd'.trans hd
      have := w'.decTopo i (by rw [hdd]; exact h)
      simpa [hdd, topoOf] using this
  · exact absurd hcyc hacyclic

/-- Some numbering in which symbols come after their predecessors. -/
def Graph.Ranked (g : Graph) : Prop :=
  ∃ r : Nat → Nat, ∀ v ∈ g.nodes, ∀ p ∈ (g.mem v).preds, r p < r v

theorem le_sum_of_mem' {l : List Nat} {x : Nat} (h : x ∈ l) : x ≤ l.sum := by
  induction l with
  | nil => simp at h
  | cons a l ih =>
    simp only [List.sum_cons]
    rcases List.mem_cons.1 h with rfl | h
    · omega
    · have := ih h; omega

theorem ranked_step {m m' : PyModel} (h : m.Inv) (hk : m.g.Ranked) {op : ModelOp}
    (hop : ∀ n p, op ≠ .addOperand n p) (hs : m.step op = .ok m') : m'.g.Ranked := by
  obtain ⟨r, hk⟩ := hk
  cases op with
  | decision a =>
    simp only [step, Res.bind_eq_ok, Res.ok.injEq] at hs
    obtain ⟨g, hg, rfl⟩ := hs
    have hg0 := hg
    simp only [emplaceDecision, guardThrow, guardUB, Res.bind_eq_ok] at hg
    obtain ⟨_, h1, _, h2, _⟩ := hg
    split_ifs at h1 h2 with hf ha
    obtain ⟨g', e, _, _, hn, _, _, _, hpa, hpo⟩ := emplaceDecision_spec h.wf hf ha
    rw [hg0] at e; cases e
    refine ⟨r, fun v hv p hp => ?_⟩
    simp only [hn, List.mem_append, List.mem_singleton] at hv
    rcases hv with hv | rfl
    · simp only [hpo v hv] at hp; exact hk v hv p hp
    · simp [hpa] at hp
  | node a preds rem =>
    simp only [step, Res.bind_eq_ok, Res.ok.injEq] at hs
    obtain ⟨g, hg, rfl⟩ := hs
    have hg0 := hg
    simp only [emplaceNode, guardThrow, guardUB, Res.bind_eq_ok] at hg
    obtain ⟨_, h1, _, h2, _⟩ := hg
    split_ifs at h1 h2 with hf ha
    obtain ⟨g', e, _, _, hn, _, _, _, hpa, hpo⟩ := emplaceNode_spec h.wf hf ha.1 ha.2 rem
    rw [hg0] at e; cases e
    refine ⟨upd r a ((preds.map r).sum + 1), fun v hv p hp => ?_⟩
    simp only [hn, List.mem_append, List.mem_singleton] at hv
    rcases hv with hv | rfl
    · simp only [hpo v hv] at hp
      have h1 : v ≠ a := fun he => ha.1 (he ▸ hv)
      have h2 : p ≠ a := fun he => ha.1 (he ▸ h.wf.predMem v hv p hp)
      rw [upd_ne _ _ h1, upd_ne _ _ h2]
      exact hk v hv p hp
    · simp only [hpa] at hp
      have h2 : p ≠ v := fun he => ha.1 (he ▸ ha.2 p hp)
      rw [upd_ne _ _ h2, upd_same]
      have := le_sum_of_mem' (List.mem_map_of_mem (f := r) hp)
      omega
  | addOperand n p => exact absurd rfl (hop n p)
  | minimize o =>
    simp only [step, Res.bind_eq_ok, Res.ok.injEq] at hs
    obtain ⟨g, hg, rfl⟩ := hs
    simp only [setObjective, Res.bind_eq_ok, Res.ok.injEq] at hg
    obtain ⟨_, _, _, _, rfl⟩ := hg
    exact ⟨r, hk⟩
  | addConstraint c =>
    simp only [step, Res.bind_eq_ok, Res.ok.injEq] at hs
    obtain ⟨g, hg, rfl⟩ := hs
    simp only [Graph.addConstraint, Res.bind_eq_ok, Res.ok.injEq] at hg
    obtain ⟨_, _, _, _, _, _, rfl⟩ := hg
    exact ⟨r, hk⟩
  | reference v b =>
    simp only [step, Res.ok.injEq] at hs
    subst hs
    refine ⟨r, fun w hw p hp => hk w hw p ?_⟩
    by_cases hwv : w = v
    · subst hwv; simpa using hp
    · simpa [upd_ne _ _ hwv] using hp
  | lock =>
    simp only [step, Res.bind_eq_ok, Res.ok.injEq] at hs
    obtain ⟨g, hg, rfl⟩ := hs
    by_cases hf : m.g.sorted = false
    · rcases h.wf.sort_spec hf with ⟨g', e, _, _, hperm, hsame, _⟩ | ⟨e, _⟩
      · rw [hg] at e; cases e
        exact ⟨r, fun v hv p hp => hk v (hperm.mem_iff.1 hv) p ((hsame v).1 ▸ hp)⟩
      · rw [hg] at e; cases e
    · have hf : m.g.sorted = true := by simpa using hf
      simp only [topologicalSort, hf, if_true, Res.ok.injEq] at hg
      subst hg
      exact ⟨r, hk⟩
  | unlock =>
    obtain ⟨_, _, hp, hn, _⟩ := reset_spec h.wf
    simp only [step] at hs
    split_ifs at hs <;> simp at hs <;> subst hs
    · exact ⟨r, hk⟩
    · exact ⟨r, fun v hv p hpv => hk v (hn ▸ hv) p ((hp v).1 ▸ hpv)⟩
    · exact ⟨r, hk⟩
  | removeUnused =>
    simp only [step, Res.bind_eq_ok, Res.ok.injEq, guardThrow] at hs
    obtain ⟨_, h1, q, hr, rfl⟩ := hs
    split_ifs at h1 with hl
    have hl' : ¬ 0 < m.lockCount := by simpa [isLocked] using hl
    have hf : m.g.sorted = false := by
      by_contra hc
      exact hl' (h.sorted.1 (by simpa using hc))
    rcases h.wf.sort_spec hf with ⟨g1, e, w, hso, hperm, hsame, _⟩ | ⟨e, _⟩
    · obtain ⟨g', e2, _, _, hsurv, _, hfields, _⟩ := removeUnused_sorted w hso false
      have : m.g.removeUnused false = g1.removeUnused false := by
        simp only [removeUnused, e, Res.ok_bind]
        rw [show g1.topologicalSort = .ok g1 by simp [topologicalSort, hso]]
        simp only [Res.ok_bind]
      rw [this, e2] at hr
      cases hr
      refine ⟨r, fun v hv p hp => ?_⟩
      simp only at hv hp
      rw [(hfields v hv).1, (hsame v).1] at hp
      exact hk v (hperm.mem_iff.1 ((hsurv v).1 hv).1) p hp
    · simp [removeUnused, e] at hr

theorem ranked_acyclic {g : Graph} (w : g.WF) (hk : g.Ranked) :
    ¬ HasCycle (fun v => (g.mem v).succs) g.nodes := by
  obtain ⟨r, hk⟩ := hk
  rintro ⟨v, hv, hr⟩
  have : ∀ u, ReachesPlus (fun v => (g.mem v).succs) v u → u ∈ g.nodes ∧ r v < r u := by
    intro u hu
    induction hu with
    | single hb =>
      have hu := w.succMem v hv _ hb
      exact ⟨hu, hk _ hu v ((w.mem_link hv hu).1 hb)⟩
    | tail _ hb ih =>
      have hu := w.succMem _ ih.1 _ hb
      exact ⟨hu, by have := hk _ hu _ ((w.mem_link ih.1 hu).1 hb); omega⟩
  have := (this v hr).2
  omega

/-- C17.  A cycle needs an in-place addition (`x += y`): every model built without one can be
locked. -/
theorem C17_no_cycle {ops : List ModelOp} {m : PyModel} (hr : PyModel.new.run ops = .ok m)
    (hops : ∀ op ∈ ops, ∀ n p, op ≠ .addOperand n p) :
    ¬ HasCycle (fun v => (m.g.mem v).succs) m.g.nodes := by
  have key : ∀ (ops : List ModelOp) (m0 : PyModel), m0.Inv → m0.g.Ranked →
      (∀ op ∈ ops, ∀ n p, op ≠ .addOperand n p) → m0.run ops = .ok m → m.g.Ranked := by
    intro ops
    induction ops with
    | nil => intro m0 _ hk _ hs; simp [run] at hs; exact hs ▸ hk
    | cons op ops ih =>
      intro m0 hi hk ho hs
      simp only [run, List.foldlM_cons, Res.bind_eq_ok] at hs
      obtain ⟨m1, h1, h2⟩ := hs
      refine ih m1 (perform_inv hi h1).1 ?_ (fun o h => ho o (List.mem_cons_of_mem _ h)) h2
      unfold perform at h1
      cases hst : m0.step op with
      | ok m2 =>
        rw [hst] at h1; cases h1
        exact ranked_step hi hk (ho op List.mem_cons_self) hst
      | ub => rw [hst] at h1; cases h1
      | throw =>
        rw [hst] at h1
        simp only at h1
        split_ifs at h1
        cases h1; exact hk
  exact ranked_acyclic (reachable hr).wf
    (key ops _ inv_new ⟨fun _ => 0, by simp [PyModel.new, Graph.empty]⟩ hops hr)

/-! Examples. -/

/-- Two decisions `0`, `1`; `2` and `3` use both, `4` uses `2` twice; `3` is a constraint. -/
def exampleOps : List ModelOp :=
  [.decision 0, .node 2 [0] true, .decision 1, .node 3 [0, 2, 1] true, .node 4 [2, 2] true,
    .addConstraint 3]

example : (match PyModel.new.run exampleOps with
    | .ok m => (match m.step .lock with
      | .ok m' => decide (m'.g.nodes = [0, 1, 2, 3, 4] ∨ m'.g.nodes = [0, 1, 2, 4, 3])
      | _ => false)
    | _ => false) = true := by decide +kernel

example : (match PyModel.new.run exampleOps with
    | .ok m => (match m.g.removeUnused false with
      | .ok (g, k) => decide (g.nodes = [0, 1, 2, 3] ∧ k = 1 ∧ (g.mem 2).succs = [3])
      | _ => false)
    | _ => false) = true := by decide +kernel

/-- A cycle made by an in-place addition is refused. -/
example : (match PyModel.new.run [.decision 0, .node 2 [0] true, .node 3 [2] true, .addOperand 2 3] with
    | .ok m => (match m.step .lock with | .throw => true | _ => false)
    | _ => false) = true := by decide +kernel

example : lockDepth [.unlock, .lock, .lock, .unlock] = 1 := by decide

end Verif
