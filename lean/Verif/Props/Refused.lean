import Verif.Lemmas.Jammed
import Verif.Lemmas.SharedIndex

/-!
# C75: refused operations leave the model as it was
-/

namespace Verif

open PyModel Graph

/-- C75.  Histories in which all exceptions are caught, also those of sorting a cyclic model, agree with the histories of C17 and C18 as
long as no sort is refused. -/
theorem C75_histories : ∀ (ops : List ModelOp) {m m' : PyModel}, m.run ops = .ok m' → ∃ bs, m.attempts ops = .ok (m', bs) := by
  intro ops
  induction ops with
  | nil =>
    intro m m' h
    simp only [run, List.foldlM_nil] at h
    exact ⟨[], by rw [PyModel.attempts]; exact congrArg (fun m => Res.ok (m, [])) (Res.ok.inj h)⟩
  | cons op ops ih =>
    intro m m' h
    simp only [run, List.foldlM_cons, Res.bind_eq_ok] at h
    obtain ⟨m1, h1, h2⟩ := h
    obtain ⟨b, hb⟩ := attempt_perform h1
    obtain ⟨bs, hbs⟩ := ih h2
    exact ⟨b :: bs, by rw [PyModel.attempts, hb, Res.ok_bind, hbs]; rfl⟩

/-- C75.  An operation that raises an exception leaves the locks, the symbols, their order, their operands, the decisions and their
indices, the objective and the constraints as they were.  Missing: the indices of other symbols, see C75_index_fails. -/
theorem C75_refused_partial {ops : List ModelOp} {bs : List Bool} {m m' : PyModel} (hr : PyModel.new.attempts ops = .ok (m, bs))
    {op : ModelOp} (h : m.attempt op = .ok (m', true)) : m'.lockCount = m.lockCount ∧ SameButOrder m.g m'.g := by
  have hinv := attempts_inv ops inv_new hr
  have hcase : m.step op = .throw := by
    unfold PyModel.attempt at h
    cases hs : m.step op with
    | throw => rfl
    | ok m1 => rw [hs] at h; simp at h
    | ub => rw [hs] at h; cases h
  by_cases hc : m.isLocked = false ∧ (op = .lock ∨ op = .removeUnused)
  · rcases hinv with hi | hj
    · obtain ⟨m2, h2, _, hl, hs⟩ := hi.refused hcase hc
      rw [h2, Res.ok.injEq, Prod.mk.injEq] at h
      rw [← h.1]
      exact ⟨hl, hs⟩
    · obtain ⟨m2, h2, _, hl, hs⟩ := hj.refused hc.2
      rw [h2, Res.ok.injEq, Prod.mk.injEq] at h
      rw [← h.1]
      exact ⟨hl, hs⟩
  · simp only [PyModel.attempt, hcase, if_neg hc, Res.ok.injEq, Prod.mk.injEq, and_true] at h
    subst h
    exact ⟨rfl, rfl, rfl, rfl, rfl, rfl, fun v => ⟨_, rfl⟩, fun _ _ => rfl⟩

/-- C75.  Once locking, or removing unused symbols, has been refused in an unlocked model, then, whatever is done later, the model stays
unlocked, symbols are not removed, decisions keep their indices, and locking and removing unused symbols are refused again. -/
theorem C75_stays_refused {ops later : List ModelOp} {bs cs : List Bool} {m m1 m2 : PyModel}
    (hr : PyModel.new.attempts ops = .ok (m, bs)) (hl : m.isLocked = false) {op : ModelOp} (ho : op = .lock ∨ op = .removeUnused)
    (h : m.attempt op = .ok (m1, true)) (h2 : m1.attempts later = .ok (m2, cs)) :
    m2.isLocked = false ∧ (∀ v ∈ m.g.nodes, v ∈ m2.g.nodes) ∧ (∃ t, m2.g.decisions = m.g.decisions ++ t) ∧
      (∀ i (hi : i < m2.g.decisions.length), (m2.g.mem m2.g.decisions[i]).topo = i) ∧
      (∃ m3, m2.attempt .lock = .ok (m3, true)) ∧ ∃ m3, m2.attempt .removeUnused = .ok (m3, true) := by
  have hsame := (C75_refused_partial hr h).2
  have hj1 : m1.Jammed := by
    have hcase : m.step op = .throw := by
      unfold PyModel.attempt at h
      cases hs : m.step op with
      | throw => rfl
      | ok m1 => rw [hs] at h; simp at h
      | ub => rw [hs] at h; cases h
    rcases attempts_inv ops inv_new hr with hi | hj
    · obtain ⟨m2, h2, hj, _⟩ := hi.refused hcase ⟨hl, ho⟩
      rw [h2, Res.ok.injEq, Prod.mk.injEq] at h
      rw [← h.1]
      exact hj
    · exact (hj.attempt h).1
  obtain ⟨hj2, hg⟩ := hj1.attempts later h2
  obtain ⟨m3, h3, _⟩ := hj2.refused (op := .lock) (.inl rfl)
  obtain ⟨m4, h4, _⟩ := hj2.refused (op := .removeUnused) (.inr rfl)
  obtain ⟨t, ht⟩ := hg.decisions
  exact ⟨hj2.unlocked, fun v hv => hg.nodes v (by rw [hsame.nodes]; exact hv), ⟨t, by rw [ht, hsame.decisions]⟩,
    hj2.stuck.decTopo, ⟨m3, h3⟩, ⟨m4, h4⟩⟩

/-- C75 fails for the indices of other symbols: `x = model.integer()`, `y` a sum of several symbols, `z = -x`, `y += y`, and
`model.lock()` raises.  The model is not locked, but `z` has an index now, so that its state is not refused (_model.pyx 1437-1439).  Two
decisions later, another symbol has the same index: their states share one place (graph.cpp 115-135). -/
theorem C75_index_fails : ∃ ops bs m, PyModel.new.attempts ops = .ok (m, bs) ∧ m.isLocked = false ∧
    ∃ z ∈ m.g.nodes, z ∉ m.g.decisions ∧ 0 ≤ (m.g.mem z).topo ∧
      ∃ d ∈ m.g.decisions, (m.g.mem d).topo = (m.g.mem z).topo := by
  have h : (match PyModel.new.attempts [.decision 0, .node 1 [0, 0] true, .node 2 [0] true, .addOperand 1 1, .lock, .decision 3,
      .decision 4] with
    | .ok r => decide (r.1.isLocked = false ∧ 2 ∈ r.1.g.nodes ∧ 2 ∉ r.1.g.decisions ∧ 0 ≤ (r.1.g.mem 2).topo ∧
        4 ∈ r.1.g.decisions ∧ (r.1.g.mem 4).topo = (r.1.g.mem 2).topo)
    | _ => false) = true := by decide +kernel
  revert h
  cases hr : PyModel.new.attempts [.decision 0, .node 1 [0, 0] true, .node 2 [0] true, .addOperand 1 1, .lock, .decision 3,
      .decision 4] with
  | ok r =>
    intro h
    obtain ⟨h1, h2, h3, h4, h5, h6⟩ := of_decide_eq_true h
    exact ⟨_, r.2, r.1, hr, h1, 2, h2, h3, h4, 4, h5, h6⟩
  | throw => simp
  | ub => simp

/-- C75 fails for states: in such a model, `d.set_state(0, x)` of the later decision succeeds, and then `z.state(0)` reads the data of
`d` as if they were those of `z`, which is undefined behaviour.  This holds for all kinds of symbols and all values. -/
theorem C75_state_fails : ∃ ops bs m, PyModel.new.attempts ops = .ok (m, bs) ∧ m.isLocked = false ∧
    ∃ z ∈ m.g.nodes, ∃ d ∈ m.g.decisions, ∀ (V D : Type) (sem : Nat → NodeSem V D) (dflt : Nat → V) (x : V) (s : (sem d).σ),
      (sem d).init [x] = .ok s →
        ∃ s', Session.step dflt (⟨m, [[]]⟩ : Session sem) (.set d 0 x) = .ok (s', .done) ∧ s'.m = m ∧
          Session.step dflt s' (.read z 0) = .ub := by
  have h : (match PyModel.new.attempts [.decision 0, .node 1 [0, 0] true, .node 2 [0] true, .addOperand 1 1, .lock, .decision 3,
      .decision 4] with
    | .ok r => decide (r.1.isLocked = false ∧ 2 ∈ r.1.g.nodes ∧ 4 ∈ r.1.g.decisions ∧ (r.1.g.mem 2).topo = ((2 : Nat) : Int) ∧
        (r.1.g.mem 4).topo = ((2 : Nat) : Int) ∧ (r.1.g.mem 4).succs = [])
    | _ => false) = true := by decide +kernel
  revert h
  cases hr : PyModel.new.attempts [.decision 0, .node 1 [0, 0] true, .node 2 [0] true, .addOperand 1 1, .lock, .decision 3,
      .decision 4] with
  | ok r =>
    intro h
    obtain ⟨h1, h2, h3, h4, h5, h6⟩ := of_decide_eq_true h
    exact ⟨_, r.2, r.1, hr, h1, 2, h2, 4, h3, fun V D sem dflt x s hx => read_of_shared dflt h4 h5 (by decide) h6 hx⟩
  | throw => simp
  | ub => simp

/-- C75 fails for `+=`: a symbol that got an index in the refused lock cannot be extended any more (an assertion fails in debug builds),
although the model is not locked. -/
theorem C75_extend_fails : ∃ ops bs m n p, PyModel.new.attempts ops = .ok (m, bs) ∧ m.isLocked = false ∧
    n ∈ m.g.nodes ∧ p ∈ m.g.nodes ∧ (m.g.mem n).preds ≠ [] ∧ m.attempt (.addOperand n p) = .ub := by
  have h : (match PyModel.new.attempts [.decision 0, .node 1 [0, 0] true, .node 2 [0, 0] true, .addOperand 1 1, .lock] with
    | .ok r => decide (r.1.isLocked = false ∧ 2 ∈ r.1.g.nodes ∧ 0 ∈ r.1.g.nodes ∧ (r.1.g.mem 2).preds ≠ []) &&
        (match r.1.attempt (.addOperand 2 0) with | .ub => true | _ => false)
    | _ => false) = true := by decide +kernel
  revert h
  cases hr : PyModel.new.attempts [.decision 0, .node 1 [0, 0] true, .node 2 [0, 0] true, .addOperand 1 1, .lock] with
  | ok r =>
    simp only [Bool.and_eq_true]
    rintro ⟨h, hu⟩
    obtain ⟨h1, h2, h3, h4⟩ := of_decide_eq_true h
    refine ⟨_, r.2, r.1, 2, 0, hr, h1, h2, h3, h4, ?_⟩
    revert hu
    cases r.1.attempt (.addOperand 2 0) with
    | ub => exact fun _ => rfl
    | ok _ => simp
    | throw => simp
  | throw => simp
  | ub => simp

/-- A history with two refused locks, a refused removal, and symbols created in between. -/
example : (match PyModel.new.attempts [.decision 0, .node 1 [0, 0] true, .addOperand 1 1, .lock, .decision 2, .node 3 [1, 2] true,
      .removeUnused, .lock, .unlock, .minimize 0] with
    | .ok r => decide (r.2 = [false, false, false, true, false, false, true, true, false, false] ∧ r.1.g.nodes = [0, 1, 2, 3] ∧
        r.1.isLocked = false)
    | _ => false) = true := by decide +kernel

end Verif
