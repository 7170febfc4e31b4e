import Verif.Model.Escape
import Verif.Props.Refused
import Verif.Props.BasicIndexing

/-!
# C75 and C30 from Python: exceptions that nobody catches
-/

namespace Verif

open PyModel Graph

namespace PyModel

theorem removeUnused_of_sort {m : PyModel} {g : Graph} (h : m.g.topologicalSort = .ok g) :
    ∃ r, m.g.removeUnused false = .ok r := by
  unfold Graph.removeUnused
  rw [h]
  exact ⟨_, rfl⟩

/-- What Python sees of an operation, from what happens in C++. -/
theorem stepPython_spec (m : PyModel) (op : ModelOp) :
    m.stepPython op = if op = .lock ∨ (m.isLocked = false ∧ op = .removeUnused) then (m.step op).escape else m.step op := by
  cases op with
  | lock =>
    simp only [stepPython, step]
    cases m.g.topologicalSort <;> simp [Res.escape]
  | removeUnused =>
    cases hl : m.isLocked with
    | true => simp [stepPython, step, hl, guardThrow]
    | false =>
      simp only [stepPython, step, hl]
      cases m.g.removeUnused false <;> simp [Res.escape, guardThrow]
  | _ => simp [stepPython]

theorem lock_locked {m : PyModel} (h : m.Inv) (hl : m.isLocked = true) : m.step .lock = .ok ⟨m.g, m.lockCount + 1⟩ := by
  have hs : m.g.sorted = true := by
    rw [h.sorted]
    simpa [isLocked] using hl
  simp [step, topologicalSort, hs]

/-- As long as the program is not terminated, it does not matter whether the missing `except+` are there. -/
theorem attemptPython_ok {m m' : PyModel} (hi : m.Inv) {op : ModelOp} {b : Bool} (h : m.attemptPython op = .ok (m', b)) :
    m.attempt op = .ok (m', b) ∧ m.perform op = .ok m' ∧ (b = true → m' = m) := by
  unfold attemptPython at h
  unfold attempt perform
  by_cases hc : m.isLocked = false ∧ (op = .lock ∨ op = .removeUnused)
  · rw [stepPython_spec, if_pos (by rcases hc.2 with e | e; exacts [.inl e, .inr ⟨hc.1, e⟩])] at h
    cases hs : m.step op with
    | ok m1 =>
      rw [hs] at h
      simp only [Res.escape, Res.ok.injEq, Prod.mk.injEq] at h
      obtain ⟨rfl, rfl⟩ := h
      simp
    | throw => rw [hs] at h; cases h
    | ub => rw [hs] at h; cases h
  · have hst : m.stepPython op = m.step op := by
      rw [stepPython_spec]
      split_ifs with hd
      · rcases hd with rfl | hd
        · rw [lock_locked hi (by simpa using hc)]
          rfl
        · exact absurd ⟨hd.1, .inr hd.2⟩ hc
      · rfl
    rw [hst] at h
    cases hs : m.step op with
    | ok m1 =>
      rw [hs] at h
      simp only [Res.ok.injEq, Prod.mk.injEq] at h
      obtain ⟨rfl, rfl⟩ := h
      simp
    | throw =>
      rw [hs] at h
      simp only [Res.ok.injEq, Prod.mk.injEq] at h
      obtain ⟨rfl, rfl⟩ := h
      simp only [if_neg hc]
      simp
    | ub => rw [hs] at h; cases h

theorem attemptsPython_ok : ∀ (ops : List ModelOp) {m m' : PyModel} {bs : List Bool}, m.Inv → m.attemptsPython ops = .ok (m', bs) →
    m.attempts ops = .ok (m', bs) ∧ m.run ops = .ok m' := by
  intro ops
  induction ops with
  | nil =>
    intro m m' bs _ h
    rw [attemptsPython, Res.ok.injEq, Prod.mk.injEq] at h
    obtain ⟨rfl, rfl⟩ := h
    exact ⟨rfl, rfl⟩
  | cons op ops ih =>
    intro m m' bs hi h
    simp only [attemptsPython, Res.bind_eq_ok] at h
    obtain ⟨⟨m1, b⟩, h1, ⟨m2, bs2⟩, h2, h3⟩ := h
    rw [Res.ok.injEq, Prod.mk.injEq] at h3
    obtain ⟨rfl, rfl⟩ := h3
    obtain ⟨ha, hp, _⟩ := attemptPython_ok hi h1
    obtain ⟨hb, hr⟩ := ih (perform_inv hi hp).1 h2
    refine ⟨?_, ?_⟩
    · rw [PyModel.attempts, ha, Res.ok_bind, hb]
      rfl
    · simp only [run, List.foldlM_cons, hp, Res.ok_bind]
      exact hr

end PyModel

/-- C75.  Seen from Python, an operation that raises leaves the model exactly as it was, and a history of a Python program that goes on is
one of C17, C18 and of C75_histories, with the same result and the same exceptions.  Missing: sorting a model with a cycle, which
terminates the program (C75_terminates_fails). -/
theorem C75_python_partial {ops : List ModelOp} {bs : List Bool} {m : PyModel} (hr : PyModel.new.attemptsPython ops = .ok (m, bs)) :
    PyModel.new.run ops = .ok m ∧ PyModel.new.attempts ops = .ok (m, bs) ∧
      ∀ {op : ModelOp} {m' : PyModel}, m.attemptPython op = .ok (m', true) → m' = m ∧ m.attempt op = .ok (m, true) := by
  obtain ⟨ha, hrun⟩ := attemptsPython_ok ops inv_new hr
  refine ⟨hrun, ha, fun h => ?_⟩
  obtain ⟨h1, _, h2⟩ := attemptPython_ok (reachable hrun) h
  obtain rfl := h2 rfl
  exact ⟨rfl, h1⟩

/-- C75.  `lock()` terminates the program exactly if the model has a cycle, and `remove_unused_symbols()` exactly if the model is not
locked and has a cycle. -/
theorem C75_terminates {ops : List ModelOp} {bs : List Bool} {m : PyModel} (hr : PyModel.new.attemptsPython ops = .ok (m, bs)) :
    (m.attemptPython .lock = .ub ↔ HasCycle (fun v => (m.g.mem v).succs) m.g.nodes) ∧
      (m.attemptPython .removeUnused = .ub ↔ m.isLocked = false ∧ HasCycle (fun v => (m.g.mem v).succs) m.g.nodes) := by
  have hrun := (attemptsPython_ok ops inv_new hr).2
  have hi := reachable hrun
  have hsort : (∃ g, m.g.topologicalSort = .ok g) ∧ ¬ HasCycle (fun v => (m.g.mem v).succs) m.g.nodes ∨
      m.g.topologicalSort = .throw ∧ HasCycle (fun v => (m.g.mem v).succs) m.g.nodes := by
    by_cases hc : HasCycle (fun v => (m.g.mem v).succs) m.g.nodes
    · right
      have := C17_cycle_rejected hrun hc
      refine ⟨?_, hc⟩
      cases hs : m.g.topologicalSort with
      | throw => rfl
      | ok g => simp [step, hs] at this
      | ub => simp [step, hs] at this
    · left
      obtain ⟨m', h, _⟩ := C17_lock_sorts hrun hc
      refine ⟨?_, hc⟩
      cases hs : m.g.topologicalSort with
      | ok g => exact ⟨g, rfl⟩
      | throw => simp [step, hs] at h
      | ub => simp [step, hs] at h
  rcases hsort with ⟨⟨g, hg⟩, hn⟩ | ⟨ht, hc⟩
  · obtain ⟨r, hrm⟩ := removeUnused_of_sort hg
    refine ⟨⟨fun h => ?_, fun h => absurd h hn⟩, ⟨fun h => ?_, fun h => absurd h.2 hn⟩⟩
    · simp [attemptPython, stepPython, hg, Res.escape] at h
    · cases hl : m.isLocked <;> simp [attemptPython, stepPython, hrm, Res.escape, hl, guardThrow] at h
  · have hrm : m.g.removeUnused false = .throw := by
      unfold Graph.removeUnused
      rw [ht]
      rfl
    refine ⟨⟨fun _ => hc, fun _ => ?_⟩, ⟨fun h => ⟨?_, hc⟩, fun h => ?_⟩⟩
    · simp [attemptPython, stepPython, ht, Res.escape]
    · cases hl : m.isLocked with
      | false => rfl
      | true => simp [attemptPython, stepPython, hl, guardThrow] at h
    · simp [attemptPython, stepPython, hrm, Res.escape, h.1, guardThrow]

/-- C75.  A program that does not extend symbols in place (`x += y`) is never terminated by `lock()` or `remove_unused_symbols()`. -/
theorem C75_no_extension {ops : List ModelOp} {bs : List Bool} {m : PyModel} (hr : PyModel.new.attemptsPython ops = .ok (m, bs))
    (hops : ∀ op ∈ ops, ∀ n p, op ≠ .addOperand n p) :
    m.attemptPython .lock ≠ .ub ∧ m.attemptPython .removeUnused ≠ .ub := by
  have hn := C17_no_cycle (attemptsPython_ok ops inv_new hr).2 hops
  obtain ⟨h1, h2⟩ := C75_terminates hr
  exact ⟨fun h => hn (h1.1 h), fun h => hn (h2.1 h).2⟩

/-- C75 fails for cycles: `x = model.integer()`, `y` a sum of several symbols, `y += y`, `model.lock()`.  The exception is not raised in
Python but terminates the program (graph.pxd 64), and so does that of `model.remove_unused_symbols()` (graph.pxd 66). -/
theorem C75_terminates_fails : ∃ ops bs m, PyModel.new.attemptsPython ops = .ok (m, bs) ∧ m.isLocked = false ∧
    m.step .lock = .throw ∧ m.attemptPython .lock = .ub ∧
    m.step .removeUnused = .throw ∧ m.attemptPython .removeUnused = .ub := by
  have h : (match PyModel.new.attemptsPython [.decision 0, .node 1 [0, 0] true, .addOperand 1 1] with
    | .ok r => decide (r.1.isLocked = false) && (match r.1.step .lock with | .throw => true | _ => false) &&
        (match r.1.step .removeUnused with | .throw => true | _ => false)
    | _ => false) = true := by decide +kernel
  revert h
  cases hr : PyModel.new.attemptsPython [.decision 0, .node 1 [0, 0] true, .addOperand 1 1] with
  | ok r =>
    simp only [Bool.and_eq_true, decide_eq_true_eq]
    rintro ⟨⟨hl, h1⟩, h2⟩
    have e1 : r.1.step .lock = .throw := by
      revert h1
      cases r.1.step .lock <;> simp
    have e2 : r.1.step .removeUnused = .throw := by
      revert h2
      cases r.1.step .removeUnused <;> simp
    refine ⟨_, r.2, r.1, hr, hl, e1, ?_, e2, ?_⟩
    · simp [attemptPython, stepPython_spec, hl, e1, Res.escape]
    · simp [attemptPython, stepPython_spec, hl, e2, Res.escape]
  | throw => simp
  | ub => simp

/-- A history with exceptions that a Python program can catch. -/
example : (match PyModel.new.attemptsPython [.decision 0, .node 1 [0, 0] true, .lock, .node 2 [0] true, .removeUnused, .unlock,
      .addOperand 1 0, .lock] with
    | .ok r => decide (r.2 = [false, false, false, true, true, false, false, false] ∧ r.1.g.nodes = [0, 1])
    | _ => false) = true := by decide +kernel

theorem BasicIndex.makeAllPython_spec : ∀ idx : List BasicIndex,
    ((∀ a b, BasicIndex.slice a b (some 0) ∉ idx) → ∃ ss, BasicIndex.makeAllPython idx = .ok ss ∧ BasicIndex.makeAll idx = .ok ss) ∧
      ((∃ a b, BasicIndex.slice a b (some 0) ∈ idx) → BasicIndex.makeAllPython idx = .ub ∧ BasicIndex.makeAll idx = .throw)
  | [] => ⟨fun _ => ⟨[], rfl, rfl⟩, fun ⟨_, _, h⟩ => by simp at h⟩
  | i :: idx => by
    obtain ⟨h1, h2⟩ := makeAllPython_spec idx
    have hi : (∃ a b, i = .slice a b (some 0)) ∧ i.make = .throw ∨ (∀ a b, i ≠ .slice a b (some 0)) ∧ ∃ s, i.make = .ok s := by
      cases i with
      | «at» i => exact .inr ⟨by simp, _, rfl⟩
      | slice a b c =>
        by_cases hc : c = some 0
        · subst hc
          exact .inl ⟨⟨a, b, rfl⟩, rfl⟩
        · refine .inr ⟨by simp [hc], ?_⟩
          have : c.getD 1 ≠ 0 := by
            cases c with
            | none => simp
            | some c => simpa using hc
          exact ⟨_, by simp [BasicIndex.make, Slice.make, this]; rfl⟩
    rcases hi with ⟨⟨a, b, rfl⟩, ht⟩ | ⟨hn, s, hs⟩
    · refine ⟨fun h => absurd List.mem_cons_self (h a b), fun _ => ?_⟩
      simp [BasicIndex.makeAllPython, BasicIndex.makeAll, BasicIndex.makePython, ht, Res.escape]
    · refine ⟨fun h => ?_, fun ⟨a, b, h⟩ => ?_⟩
      · obtain ⟨ss, e1, e2⟩ := h1 fun a b hm => h a b (List.mem_cons_of_mem _ hm)
        exact ⟨s :: ss, by simp [BasicIndex.makeAllPython, BasicIndex.makePython, hs, Res.escape, e1],
          by simp [BasicIndex.makeAll, hs, e2]⟩
      · rcases List.mem_cons.1 h with h | h
        · exact absurd h.symm (hn a b)
        · obtain ⟨e1, e2⟩ := h2 ⟨a, b, h⟩
          simp [BasicIndex.makeAllPython, BasicIndex.makeAll, BasicIndex.makePython, hs, Res.escape, e1, e2]

/-- C30.  From Python: an index tuple without a zero step does what C30_accepts and C30_view say. -/
theorem C30_python_partial (shape : List Int) (idx : List BasicIndex) (h : ∀ a b, BasicIndex.slice a b (some 0) ∉ idx) :
    basicParsePython shape idx = basicParse shape idx := by
  obtain ⟨ss, e1, e2⟩ := (BasicIndex.makeAllPython_spec idx).1 h
  simp [basicParsePython, basicParse, e1, e2]

/-- C30 fails for a zero step: `x[::0]` does not raise an exception, as in NumPy, but terminates the program.  So does every index tuple
with a zero step, for every array. -/
theorem C30_zero_step_fails (shape : List Int) (idx : List BasicIndex) (h : ∃ a b, BasicIndex.slice a b (some 0) ∈ idx) :
    basicParsePython shape idx = .ub ∧ basicParse shape idx = .throw := by
  obtain ⟨e1, e2⟩ := (BasicIndex.makeAllPython_spec idx).2 h
  simp [basicParsePython, basicParse, e1, e2]

example : basicParsePython [5, 3] [.slice none none none, .slice (some 1) none (some 0)] = .ub :=
  (C30_zero_step_fails _ _ ⟨some 1, none, by simp⟩).1

example : basicParsePython [5, 3] [.slice (some 1) none (some 2), .at (-1)] = .ok ⟨[2], [48], 5, none⟩ := by decide +kernel

end Verif
