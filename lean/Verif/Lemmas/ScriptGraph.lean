import Verif.Lemmas.Script
import Verif.Props.Graph
import Verif.Lemmas.StableSort

set_option linter.unusedSectionVars false
set_option linter.unusedSimpArgs false
set_option linter.unusedVariables false

/-! Helper lemmas: the graph of a generated model. -/

namespace Verif
namespace Script

open Graph PyModel

variable {full : Prop} {P : Nat → Prop} {s : Script}

/-- All symbols are in order, also those to which operands were added in place. -/
structure Complete (full : Prop) (P : Nat → Prop) (s : Script) : Prop where
  good : Good full P s
  plain : ∀ i < s.length, ¬ P i → (s.row i).decision = false
  ops : ∀ i < s.length, ¬ P i → ∀ p ∈ (s.row i).ops, P p ∧ p < s.length
  first : ∀ i < s.length, ¬ P i → (s.row i).ops.filter (· < i) ≠ []
  split : ∀ i < s.length, ¬ P i → (s.row i).ops = (s.row i).ops.filter (· < i) ++ (s.row i).ops.filter (i ≤ ·)
  law : ∀ i < s.length, ¬ P i → (s.row i).Keeps full
  accepts : ∀ A vals, Admits P s A → Runs P s A vals → ∀ i < s.length, ¬ P i → (s.row i).node.ok ((s.row i).ops.map vals)

theorem Good.complete (h : Good full (fun _ => True) s) : Complete full (fun _ => True) s :=
  ⟨h, fun _ _ h => absurd trivial h, fun _ _ h => absurd trivial h, fun _ _ h => absurd trivial h,
    fun _ _ h => absurd trivial h, fun _ _ h => absurd trivial h, fun _ _ _ _ _ _ h => absurd trivial h⟩

namespace Complete

theorem lt (h : Complete full P s) {i : Nat} (hi : i < s.length) : ∀ p ∈ (s.row i).ops, p < s.length := by
  intro p hp
  by_cases hP : P i
  · exact lt_trans (h.good.before i hi hP p hp).2 hi
  · exact (h.ops i hi hP p hp).2

theorem keeps (h : Complete full P s) {i : Nat} (hi : i < s.length) : (s.row i).Keeps full := by
  by_cases hP : P i
  · exact h.good.law i hi hP
  · exact h.law i hi hP

theorem early (h : Complete full P s) {i : Nat} (hi : i < s.length) :
    (s.row i).ops = (s.row i).ops.filter (· < i) ++ (s.row i).ops.filter (i ≤ ·) := by
  by_cases hP : P i
  · have h1 : (s.row i).ops.filter (· < i) = (s.row i).ops := List.filter_eq_self.2 fun p hp => by
      simpa using (h.good.before i hi hP p hp).2
    have h2 : (s.row i).ops.filter (i ≤ ·) = [] := List.filter_eq_nil_iff.2 fun p hp => by
      simpa using (h.good.before i hi hP p hp).2
    rw [h1, h2, List.append_nil]
  · exact h.split i hi hP

theorem late (h : Complete full P s) {i : Nat} (hi : i < s.length) (hl : (s.row i).ops.filter (i ≤ ·) ≠ []) :
    (s.row i).decision = false ∧ (s.row i).ops.filter (· < i) ≠ [] := by
  by_cases hP : P i
  · exact absurd (List.filter_eq_nil_iff.2 fun p hp => by
      simpa using (h.good.before i hi hP p hp).2) hl
  · exact ⟨h.plain i hi hP, h.first i hi hP⟩

end Complete

/-- What the graph needs of the symbols: which symbols their operands are. -/
structure Shaped (s : Script) : Prop where
  alone : ∀ i < s.length, (s.row i).decision = true → (s.row i).ops = []
  lt : ∀ i < s.length, ∀ p ∈ (s.row i).ops, p < s.length
  early : ∀ i < s.length, (s.row i).ops = (s.row i).ops.filter (· < i) ++ (s.row i).ops.filter (i ≤ ·)
  late : ∀ i < s.length, (s.row i).ops.filter (i ≤ ·) ≠ [] →
    (s.row i).decision = false ∧ (s.row i).ops.filter (· < i) ≠ []
  ranked : ∃ rank : Nat → Nat, ∀ i < s.length, ∀ p ∈ (s.row i).ops, rank p < rank i

theorem Complete.shaped (h : Complete full P s) : Shaped s :=
  ⟨fun _ hi hd => ((h.keeps hi).1 hd).1, fun _ hi => h.lt hi, fun _ hi => h.early hi, fun _ hi => h.late hi, by
    classical
    refine ⟨fun i => if P i then i else s.length, fun v hv p hp => ?_⟩
    by_cases hPv : P v
    · obtain ⟨hPp, hlt⟩ := h.good.before v hv hPv p hp
      simp [hPv, hPp, hlt]
    · obtain ⟨hPp, hlt⟩ := h.ops v hv hPv p hp
      simp [hPv, hPp, hlt]⟩

/-- All operands are earlier symbols. -/
theorem Shaped.of_before (h : ∀ i < s.length, ∀ p ∈ (s.row i).ops, p < i)
    (hd : ∀ i < s.length, (s.row i).decision = true → (s.row i).ops = []) : Shaped s := by
  have h1 : ∀ i < s.length, (s.row i).ops.filter (· < i) = (s.row i).ops := fun i hi =>
    List.filter_eq_self.2 fun p hp => by simpa using h i hi p hp
  have h2 : ∀ i < s.length, (s.row i).ops.filter (i ≤ ·) = [] := fun i hi =>
    List.filter_eq_nil_iff.2 fun p hp => by simpa using h i hi p hp
  exact ⟨hd, fun i hi p hp => lt_trans (h i hi p hp) hi, fun i hi => by rw [h1 i hi, h2 i hi, List.append_nil],
    fun i hi hl => absurd (h2 i hi) hl, id, h⟩

/-- The operation that makes symbol `i`. -/
def makeOp (s : Script) (i : Nat) : ModelOp :=
  if (s.row i).decision then .decision i
  else .node i ((s.row i).ops.filter (· < i)) (s.row i).built.removable

/-- The first `k` symbols are there. -/
structure Placed (s : Script) (k : Nat) (later : List (Nat × Nat)) (m : PyModel) : Prop where
  inv : m.Inv
  free : m.lockCount = 0
  nodes : m.g.nodes = List.range k
  preds : ∀ i < k, (m.g.mem i).preds = (s.row i).ops.filter (· < i) ++ (later.filter (·.1 = i)).map Prod.snd
  decisions : ∀ i < k, i ∈ m.g.decisions ↔ (s.row i).decision = true
  order : m.g.decisions = (List.range k).filter fun i => (s.row i).decision
  objective : m.g.objective = none
  constraints : m.g.constraints = []

theorem Placed.unsorted {k : Nat} {later : List (Nat × Nat)} {m : PyModel} (h : Placed s k later m) : m.g.sorted = false := by
  by_contra hc
  have := h.inv.sorted.1 (by simpa using hc)
  rw [h.free] at this
  omega

theorem perform_ok {m m' : PyModel} {op : ModelOp} (h : m.step op = .ok m') : m.perform op = .ok m' := by
  unfold perform; rw [h]

theorem placed_symbols (h : Shaped s) : ∀ k ≤ s.length,
    ∃ m, PyModel.new.run ((List.range k).map s.makeOp) = .ok m ∧ Placed s k [] m := by
  intro k
  induction k with
  | zero =>
    intro _
    exact ⟨PyModel.new, rfl, inv_new, rfl, rfl, by simp, by simp, rfl, rfl, rfl⟩
  | succ k ih =>
    intro hk
    obtain ⟨m, e, hm⟩ := ih (by omega)
    have hkn : k ∉ m.g.nodes := by rw [hm.nodes]; simp
    have run_eq : ∀ m', m.step (s.makeOp k) = .ok m' →
        PyModel.new.run ((List.range (k + 1)).map s.makeOp) = .ok m' := by
      intro m' h'
      unfold run at e ⊢
      rw [List.range_succ, List.map_append, List.foldlM_append, e, Res.ok_bind]
      simp only [List.map_cons, List.map_nil, List.foldlM_cons, List.foldlM_nil, perform_ok h', Res.ok_bind]
      rfl
    by_cases hd : (s.row k).decision = true
    · obtain ⟨g', eg, w, hs, hn, hdec, ho, hc, hp, hpo⟩ := emplaceDecision_spec hm.inv.wf hm.unsorted hkn
      have hst : m.step (s.makeOp k) = .ok ⟨g', m.lockCount⟩ := by
        unfold makeOp
        rw [if_pos hd]
        simp only [step, eg, Res.ok_bind]
      refine ⟨_, run_eq _ hst, (step_inv hm.inv hst).1, hm.free, ?_, ?_, ?_, ?_, by rw [ho]; exact hm.objective,
        by rw [hc]; exact hm.constraints⟩
      · simp only [hn, hm.nodes, List.range_succ]
      · intro i hi
        rcases Nat.lt_or_ge i k with h' | h'
        · simp only [hpo i (by rw [hm.nodes]; simpa using h')]
          exact hm.preds i h'
        · obtain rfl : i = k := by omega
          simp only [hp, h.alone _ (by omega) hd]
          rfl
      · intro i hi
        simp only [hdec, List.mem_append, List.mem_singleton]
        rcases Nat.lt_or_ge i k with h' | h'
        · rw [← hm.decisions i h']
          constructor
          · rintro (h'' | h'')
            · exact h''
            · omega
          · exact Or.inl
        · obtain rfl : i = k := by omega
          simp [hd]
      · simp only [hdec, hm.order, List.range_succ, List.filter_append]
        simp [hd]
    · have hd' : (s.row k).decision = false := by simpa using hd
      obtain ⟨g', eg, w, hs, hn, hdec, ho, hc, hp, hpo⟩ := emplaceNode_spec hm.inv.wf hm.unsorted hkn
        (preds := (s.row k).ops.filter (· < k)) (by
          intro p hp
          rw [hm.nodes]
          have := (List.mem_filter.1 hp).2
          simpa using this) (s.row k).built.removable
      have hst : m.step (s.makeOp k) = .ok ⟨g', m.lockCount⟩ := by
        unfold makeOp
        rw [if_neg hd]
        simp only [step, eg, Res.ok_bind]
      refine ⟨_, run_eq _ hst, (step_inv hm.inv hst).1, hm.free, ?_, ?_, ?_, ?_, by rw [ho]; exact hm.objective,
        by rw [hc]; exact hm.constraints⟩
      · simp only [hn, hm.nodes, List.range_succ]
      · intro i hi
        rcases Nat.lt_or_ge i k with h' | h'
        · simp only [hpo i (by rw [hm.nodes]; simpa using h')]
          exact hm.preds i h'
        · obtain rfl : i = k := by omega
          simp only [hp]
          simp
      · intro i hi
        simp only [hdec]
        rcases Nat.lt_or_ge i k with h' | h'
        · exact hm.decisions i h'
        · obtain rfl : i = k := by omega
          rw [hd']
          simp only [Bool.false_eq_true, iff_false]
          intro hx
          exact hkn (hm.inv.wf.decMem _ hx)
      · simp only [hdec, hm.order, List.range_succ, List.filter_append]
        simp [hd']

theorem addPredecessor_preds {g g' : Graph} {n p : Nat} (e : g.addPredecessor n p = .ok g') (i : Nat) :
    (g'.mem i).preds = if i = n then (g.mem i).preds ++ [p] else (g.mem i).preds := by
  unfold addPredecessor at e
  simp only [Res.bind_eq_ok, Res.ok.injEq] at e
  obtain ⟨_, _, _, _, _, _, rfl⟩ := e
  by_cases hi : i = n
  · subst hi
    by_cases hp : i = p
    · subst hp; simp [upd]
    · simp [upd, hp]
  · by_cases hp : i = p
    · subst hp; simp [upd, hi]
    · simp [upd, hi, hp]

theorem placed_later (h : Shaped s) : ∀ (todo done : List (Nat × Nat)) (m : PyModel),
    (∀ q ∈ todo, q.1 < s.length ∧ q.2 < s.length ∧ (s.row q.1).decision = false ∧ (s.row q.1).ops.filter (· < q.1) ≠ []) →
    Placed s s.length done m →
    ∃ m', m.run (todo.map fun q => .addOperand q.1 q.2) = .ok m' ∧ Placed s s.length (done ++ todo) m' := by
  intro todo
  induction todo with
  | nil => intro done m _ hm; exact ⟨m, rfl, by simpa using hm⟩
  | cons q todo ih =>
    intro done m hq hm
    obtain ⟨h1, h2, h3, h4⟩ := hq q (by simp)
    have hn : q.1 ∉ m.g.decisions := by
      rw [hm.decisions q.1 h1, h3]; simp
    have hpr : (m.g.mem q.1).preds ≠ [] := by
      rw [hm.preds q.1 h1]
      simp [h4]
    obtain ⟨g', eg, w, hs, hnn, hdec, ho, hc⟩ := addPredecessor_spec hm.inv.wf hm.unsorted
      (by rw [hm.nodes]; simpa using h1) (by rw [hm.nodes]; simpa using h2) hn hpr
    have hst : m.step (.addOperand q.1 q.2) = .ok ⟨g', m.lockCount⟩ := by
      simp only [step, eg, Res.ok_bind]
    obtain ⟨m', e', hm'⟩ := ih (done ++ [q]) ⟨g', m.lockCount⟩ (fun r hr => hq r (by simp [hr]))
      ⟨(step_inv hm.inv hst).1, hm.free, by rw [← hm.nodes]; exact hnn, by
        intro i hi
        rw [List.filter_append, List.map_append, ← List.append_assoc, ← hm.preds i hi]
        rw [addPredecessor_preds eg]
        by_cases hiq : i = q.1
        · subst hiq
          simp
        · simp [hiq, Ne.symm hiq], by
        intro i hi
        simp only [hdec]
        exact hm.decisions i hi, by rw [hdec]; exact hm.order, by rw [ho]; exact hm.objective, by rw [hc]; exact hm.constraints⟩
    refine ⟨m', ?_, by simpa using hm'⟩
    unfold run at e' ⊢
    simp only [List.map_cons, List.foldlM_cons, perform_ok hst, Res.ok_bind]
    exact e'

/-- The symbols, with all their operands. -/
structure Whole (s : Script) (m : PyModel) : Prop where
  inv : m.Inv
  nodes : ∀ i, i ∈ m.g.nodes ↔ i < s.length
  preds : ∀ i < s.length, (m.g.mem i).preds = (s.row i).ops
  decisions : ∀ i < s.length, i ∈ m.g.decisions ↔ (s.row i).decision = true
  sorted : m.g.sorted = true
  /-- the decisions come in the order in which they were made -/
  order : m.g.decisions = (List.range s.length).filter fun i => (s.row i).decision
  /-- so do symbols that are made from decisions alone -/
  stable : ∀ P : Nat → Bool, (∀ i < s.length, P i = true → (s.row i).decision = false ∧ ∀ p ∈ (s.row i).ops, (s.row p).decision = true) →
    m.g.nodes.filter P = (List.range s.length).filter P

theorem filter_late : ∀ (n i : Nat) (f : Nat → List Nat), i < n →
    (((List.range n).flatMap fun j => (f j).map fun p => (j, p)).filter (·.1 = i)).map Prod.snd = f i := by
  intro n
  induction n with
  | zero => intro i f h; omega
  | succ n ih =>
    intro i f h
    rw [List.range_succ, List.flatMap_append, List.filter_append, List.map_append]
    rcases Nat.lt_or_ge i n with h' | h'
    · rw [ih i f h']
      have : (((f n).map fun p => (n, p)).filter (·.1 = i)) = [] := by
        rw [List.filter_eq_nil_iff]
        intro q hq
        obtain ⟨p, _, rfl⟩ := List.mem_map.1 hq
        simp; omega
      simp [this]
    · obtain rfl : i = n := by omega
      have h1 : (((List.range i).flatMap fun j => (f j).map fun p => (j, p)).filter (·.1 = i)) = [] := by
        rw [List.filter_eq_nil_iff]
        intro q hq
        obtain ⟨j, hj, hq⟩ := List.mem_flatMap.1 hq
        obtain ⟨p, _, rfl⟩ := List.mem_map.1 hq
        simp at hj ⊢; omega
      have h2 : (((f i).map fun p => (i, p)).filter (·.1 = i)) = (f i).map fun p => (i, p) := by
        rw [List.filter_eq_self]
        intro q hq
        obtain ⟨p, _, rfl⟩ := List.mem_map.1 hq
        simp
      rw [h1]
      simp only [List.flatMap_cons, List.flatMap_nil, List.append_nil, h2, List.map_nil, List.nil_append, List.map_map]
      exact List.map_id _

theorem runs_append {m : PyModel} (a b : List ModelOp) : m.run (a ++ b) = (m.run a >>= fun m' => m'.run b) := by
  unfold run
  exact List.foldlM_append

/-- Objective and constraints. -/
theorem run_targets {n : Nat} : ∀ (cs done : List Nat) (m : PyModel), (∀ c ∈ cs, c ∈ m.g.nodes) → m.Inv → m.g.constraints = done →
    ∃ m', m.run (cs.map .addConstraint) = .ok m' ∧ m'.Inv ∧ m'.g.nodes = m.g.nodes ∧ m'.g.mem = m.g.mem ∧
      m'.g.decisions = m.g.decisions ∧ m'.g.objective = m.g.objective ∧ m'.g.constraints = done ++ cs ∧
      m'.lockCount = m.lockCount := by
  intro cs
  induction cs with
  | nil => intro done m _ hi hd; exact ⟨m, rfl, hi, rfl, rfl, rfl, rfl, by simp [hd], rfl⟩
  | cons c cs ih =>
    intro done m hc hi hd
    have hst : m.step (.addConstraint c) = .ok ⟨{ m.g with constraints := m.g.constraints ++ [c] }, m.lockCount⟩ := by
      simp only [step, Graph.addConstraint]
      rw [guardUB_true (hc c (by simp)), guardThrow_true trivial]
      rfl
    obtain ⟨m', e, h1, h2, h3, h4, h5, h6, h7⟩ := ih (done ++ [c])
      ⟨{ m.g with constraints := m.g.constraints ++ [c] }, m.lockCount⟩ (fun d hd => hc d (by simp [hd])) (step_inv hi hst).1
      (by simp [hd])
    refine ⟨m', ?_, h1, h2, h3, h4, h5, by simpa using h6, h7⟩
    unfold run at e ⊢
    simp only [List.map_cons, List.foldlM_cons, perform_ok hst, Res.ok_bind]
    exact e

end Script

namespace Generated

open Graph PyModel Script

variable {full : Prop} {P : Nat → Prop}

/-- The graph of a generated model. -/
theorem built_shaped {M : Generated} (h : Shaped M.rows) (ho : ∀ o ∈ M.objective, o < M.rows.length)
    (hc : ∀ c ∈ M.constraints, c < M.rows.length) :
    ∃ m, PyModel.new.run M.ops = .ok m ∧ 0 < lockDepth M.ops ∧ Whole M.rows m ∧ m.g.objective = M.objective ∧
      m.g.constraints = M.constraints := by
  obtain ⟨m1, e1, h1⟩ := placed_symbols h M.rows.length (le_refl _)
  have hlate : ∀ q ∈ (List.range M.rows.length).flatMap (fun i =>
      ((M.rows.row i).ops.filter (i ≤ ·)).map fun p => (i, p)),
      q.1 < M.rows.length ∧ q.2 < M.rows.length ∧ (M.rows.row q.1).decision = false ∧
        (M.rows.row q.1).ops.filter (· < q.1) ≠ [] := by
    intro q hq
    obtain ⟨i, hi, hq⟩ := List.mem_flatMap.1 hq
    obtain ⟨p, hp, rfl⟩ := List.mem_map.1 hq
    have hi : i < M.rows.length := by simpa using hi
    obtain ⟨h1, h2⟩ := h.late i hi (List.ne_nil_of_mem hp)
    exact ⟨hi, h.lt i hi p (List.mem_filter.1 hp).1, h1, h2⟩
  obtain ⟨m2, e2, h2⟩ := placed_later h _ [] m1 hlate h1
  have hpreds : ∀ i < M.rows.length, (m2.g.mem i).preds = (M.rows.row i).ops := by
    intro i hi
    rw [h2.preds i hi, List.nil_append, filter_late _ _ (fun j => (M.rows.row j).ops.filter (j ≤ ·)) hi]
    exact (h.early i hi).symm
  -- objective
  obtain ⟨m3, e3, h3, n3, p3, d3, o3, c3, l3⟩ : ∃ m3, m2.run (M.objective.toList.map .minimize) = .ok m3 ∧ m3.Inv ∧
      m3.g.nodes = m2.g.nodes ∧ m3.g.mem = m2.g.mem ∧ m3.g.decisions = m2.g.decisions ∧ m3.g.objective = M.objective ∧
      m3.g.constraints = [] ∧ m3.lockCount = 0 := by
    cases hob : M.objective with
    | none => exact ⟨m2, rfl, h2.inv, rfl, rfl, rfl, h2.objective, h2.constraints, h2.free⟩
    | some o =>
      have hst : m2.step (.minimize o) = .ok ⟨{ m2.g with objective := some o }, m2.lockCount⟩ := by
        simp only [step, Graph.setObjective]
        rw [guardUB_true (by
          intro v hv
          obtain rfl : o = v := by simpa using hv
          rw [h2.nodes]
          simpa using ho o (by rw [hob]; rfl)), guardThrow_true (by simp)]
        rfl
      refine ⟨_, ?_, (step_inv h2.inv hst).1, rfl, rfl, rfl, rfl, h2.constraints, h2.free⟩
      show m2.run [.minimize o] = _
      unfold run
      simp only [List.foldlM_cons, List.foldlM_nil, perform_ok hst, Res.ok_bind]
      rfl
  obtain ⟨m4, e4, h4, n4, p4, d4, o4, c4, l4⟩ := run_targets (n := 0) M.constraints [] m3 (by
    intro c hcm
    rw [n3, h2.nodes]
    simpa using hc c hcm) h3 c3
  have hrun4 : PyModel.new.run ((List.range M.rows.length).map M.rows.makeOp ++
      (((List.range M.rows.length).flatMap fun i =>
        ((M.rows.row i).ops.filter (i ≤ ·)).map fun p => (i, p)).map (fun q => .addOperand q.1 q.2) ++
      (M.objective.toList.map .minimize ++ M.constraints.map .addConstraint))) = .ok m4 := by
    rw [runs_append, e1, Res.ok_bind, runs_append, e2, Res.ok_bind, runs_append, e3, Res.ok_bind, e4]
  have hnodes : m4.g.nodes = List.range M.rows.length := by rw [n4, n3, h2.nodes]
  have hmem : m4.g.mem = m2.g.mem := by rw [p4, p3]
  have hrank : m4.g.Ranked := by
    obtain ⟨rank, hr⟩ := h.ranked
    refine ⟨rank, fun v hv p hp => ?_⟩
    have hv : v < M.rows.length := by rw [hnodes] at hv; simpa using hv
    rw [hmem, hpreds v hv] at hp
    exact hr v hv p hp
  obtain ⟨m5, e5, htop, _, _, hperm, hsame, hd5, ho5, hc5⟩ := C17_lock_sorts hrun4 (ranked_acyclic h4.wf hrank)
  have hrun : PyModel.new.run M.ops = .ok m5 := by
    have : M.ops = ((List.range M.rows.length).map M.rows.makeOp ++
      (((List.range M.rows.length).flatMap fun i =>
        ((M.rows.row i).ops.filter (i ≤ ·)).map fun p => (i, p)).map (fun q => .addOperand q.1 q.2) ++
      (M.objective.toList.map .minimize ++ M.constraints.map .addConstraint))) ++ [.lock] := by
      unfold Generated.ops
      simp only [List.append_assoc]
      rfl
    rw [this, runs_append, hrun4, Res.ok_bind]
    unfold run
    simp only [List.foldlM_cons, List.foldlM_nil, perform_ok e5, Res.ok_bind]
    rfl
  have hun : m4.g.sorted = false := by
    by_contra hc
    have := h4.sorted.1 (by simpa using hc)
    rw [l4, l3] at this
    omega
  have hsort : m4.g.topologicalSort = .ok m5.g := by
    simp only [step] at e5
    obtain ⟨g, hg, e5⟩ := Res.bind_eq_ok.1 e5
    obtain rfl := Res.ok.inj e5
    exact hg
  have hsorted : m5.g.sorted = true := (step_inv h4 e5).1.sorted.2 (by
    have : m5.lockCount = m4.lockCount + 1 := (step_inv h4 e5).2.2
    rw [this, l4, l3]; decide)
  have hl5 : m5.lockCount = m4.lockCount + 1 := (step_inv h4 e5).2.2
  refine ⟨m5, hrun, ?_, ⟨(step_inv h4 e5).1, ?_, ?_, ?_, ?_, ?_, ?_⟩, by rw [ho5, o4, o3], by rw [hc5, c4]; rfl⟩
  · rw [← (C18_lock_count hrun).1]
    simp [isLocked, hl5, l4, l3]
  · intro i
    rw [hperm.mem_iff, hnodes]
    simp
  · intro i hi
    rw [(hsame i).1, hmem]
    exact hpreds i hi
  · intro i hi
    rw [hd5, d4, d3]
    exact h2.decisions i hi
  · exact hsorted
  · rw [hd5, d4, d3]
    exact h2.order
  · intro P hP
    rw [← hnodes]
    refine sort_filter h4.wf hun hsort P fun u hu hPu => ?_
    have hu : u < M.rows.length := by rw [hnodes] at hu; simpa using hu
    obtain ⟨g1, g2⟩ := hP u hu hPu
    have hdm : ∀ i < M.rows.length, i ∈ m4.g.decisions ↔ (M.rows.row i).decision = true := fun i hi => by
      rw [d4, d3]; exact h2.decisions i hi
    refine ⟨fun hc => ?_, fun p hp => ?_⟩
    · rw [hdm u hu, g1] at hc; cases hc
    · have hp : p ∈ (m4.g.mem u).preds := hp
      rw [hmem, hpreds u hu] at hp
      rw [hdm p (h.lt u hu p hp)]
      exact g2 p hp

theorem built {M : Generated} (h : Complete full P M.rows) (ho : ∀ o ∈ M.objective, o < M.rows.length)
    (hc : ∀ c ∈ M.constraints, c < M.rows.length) :
    ∃ m, PyModel.new.run M.ops = .ok m ∧ 0 < lockDepth M.ops ∧ Whole M.rows m ∧ m.g.objective = M.objective ∧
      m.g.constraints = M.constraints :=
  built_shaped h.shaped ho hc

end Generated
end Verif
