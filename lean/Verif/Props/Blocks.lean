import Verif.Lemmas.Blocks

/-!
# C74: `with model.lock():` protects the model inside and leaves it as it was
-/

namespace Verif

open PyModel PyCode

/-- C74.  Whatever code does, with blocks, exceptions and handlers: every model it sees is the result of some sequence of calls.
What is proved about all sequences of calls (C17, C18, C75) thus holds at every statement. -/
theorem C74_history (c : PyCode) {w : Scope} {r : Ran} (h : c.exec w = .ok r) :
    (∃ ops bs, w.model.attempts ops = .ok (r.after.model, bs)) ∧
      ∀ s ∈ r.seen, ∃ ops bs, w.model.attempts ops = .ok (s.model, bs) :=
  exec_follows c h

/-- C74.  In code that does not call `unlock()` itself, every context manager that is kept and has not been entered holds a lock of
its own, at every statement. -/
theorem C74_contexts {c : PyCode} {r : Ran} (hc : c.LeavesUnlocking) (h : c.exec ⟨.new, []⟩ = .ok r) :
    ∀ s ∈ r.seen, s.contexts.Nodup ∧ (s.contexts.length : Int) ≤ s.model.lockCount := by
  have h0 : Held 0 ⟨PyModel.new, []⟩ := ⟨List.nodup_nil, by simp [PyModel.new]⟩
  intro s hs
  have := (exec_held c hc h ⟨[], [], rfl⟩ h0).2 s hs
  exact ⟨this.nodup, by simpa using this.count⟩

/-- C74.  If the model has a cycle, so that `lock()` raises, then the body is not executed and the exception leaves the block.  Locks,
symbols, operands, objective and constraints are as before (but see C75_index_fails).  This is how it would be with an `except+` in graph.pxd
64; as it is, the program is terminated (C75_terminates_fails). -/
theorem C74_refused {ops : List ModelOp} {bs : List Bool} {w : Scope} {body : PyCode} {r : Ran}
    (hw : PyModel.new.attempts ops = .ok (w.model, bs)) (hl : w.model.step .lock = .throw)
    (h : (PyCode.withLock body).exec w = .ok r) :
    r.raised = true ∧ r.seen = [w, r.after] ∧ r.after.contexts = w.contexts ∧ r.after.model.lockCount = w.model.lockCount ∧
      Graph.SameButOrder w.model.g r.after.model.g := by
  simp only [exec, Res.bind_eq_ok] at h
  obtain ⟨q, hm, h⟩ := h
  have hq : q.2 = true := raised_of_throw hl hm
  simp only [hq, if_true, Res.ok.injEq] at h
  subst h
  obtain ⟨h1, h2⟩ := C75_refused_partial hw (m' := q.1) (by rw [hm, ← hq])
  exact ⟨rfl, rfl, rfl, h1, h2⟩

/-- C74.  In a `with model.lock():` block whose body does not call `unlock()` itself, at every statement, also in handlers and in
blocks inside, with or without exceptions: the model is locked, its symbols and their operands are the ones from before the block,
no symbol can be added or removed, and the state of every symbol can be asked for.  An exception of the body leaves the block, and
without one the block does not raise.  `w` is any scope as in `C74_contexts`.  Missing: bodies with `x += y` on a symbol with a variable
number of operands, which C++ does not refuse (C74_inplace_fails; no such execution gives `ok`). -/
theorem C74_protected_partial {ops : List ModelOp} {bs : List Bool} {w : Scope} {body : PyCode} {r : Ran} {m1 : PyModel}
    (hw : PyModel.new.attempts ops = .ok (w.model, bs)) (hd : w.contexts.Nodup)
    (hk : (w.contexts.length : Int) ≤ w.model.lockCount) (hb : body.LeavesUnlocking) (hl : w.model.step .lock = .ok m1)
    (h : (PyCode.withLock body).exec w = .ok r) :
    ∃ inner, body.exec { w with model := m1 } = .ok inner ∧ r.raised = inner.raised ∧
      r.seen = w :: inner.seen ++ [r.after] ∧
      m1.g.nodes.Perm w.model.g.nodes ∧ m1.g.decisions = w.model.g.decisions ∧
      (∀ v, (m1.g.mem v).preds = (w.model.g.mem v).preds ∧ (m1.g.mem v).succs = (w.model.g.mem v).succs) ∧
      ∀ s ∈ inner.seen, s.model.isLocked = true ∧ SameSymbols m1 s.model ∧
        (∀ a, (PyCode.call (.decision a)).exec s = .ok ⟨s, true, [s, s]⟩) ∧
        (∀ a ps b, (PyCode.call (.node a ps b)).exec s = .ok ⟨s, true, [s, s]⟩) ∧
        (PyCode.call .removeUnused).exec s = .ok ⟨s, true, [s, s]⟩ ∧
        (∀ v, (PyCode.read v).exec s = .ok ⟨s, false, [s]⟩) := by
  have hr : Reached w.model := ⟨ops, bs, hw⟩
  have hm : w.model.attempt .lock = .ok (m1, false) := by simp only [PyModel.attempt, hl]
  simp only [exec, hm, Res.ok_bind, Bool.false_eq_true, if_false, Res.bind_eq_ok, Res.ok.injEq] at h
  obtain ⟨x, hx, m', hm', rfl⟩ := h
  have e : Reached m1 := hr.perform hm
  have hc : m1.lockCount = w.model.lockCount + 1 := count_lock hm rfl
  have h1 : Held (0 + 1) { w with model := m1 } := ⟨hd, by push_cast; simp only [hc]; omega⟩
  obtain ⟨ops0, hw0⟩ : ∃ ops, PyModel.new.run ops = .ok w.model := by
    rcases attempts_run ops inv_new hw with h | h
    · exact ⟨ops, h⟩
    · have := h.stuck.refuses
      simp [step, this] at hl
  have hsort : m1.g.nodes.Perm w.model.g.nodes ∧ m1.g.decisions = w.model.g.decisions ∧
      ∀ v, (m1.g.mem v).preds = (w.model.g.mem v).preds ∧ (m1.g.mem v).succs = (w.model.g.mem v).succs := by
    have hcyc : ¬ HasCycle (fun v => (w.model.g.mem v).succs) w.model.g.nodes := by
      intro hcy
      rw [C17_cycle_rejected hw0 hcy] at hl
      cases hl
    obtain ⟨m2, h2, _, _, _, hp, hq, hdec, _⟩ := C17_lock_sorts hw0 hcyc
    rw [hl, Res.ok.injEq] at h2
    subst h2
    exact ⟨hp, hdec, hq⟩
  refine ⟨x, hx, by simp [unlock_quiet hm'], rfl, hsort.1, hsort.2.1, hsort.2.2, fun s hsx => ?_⟩
  have hh := (exec_held body hb hx e h1).2 s hsx
  have hpos : 0 < s.model.lockCount := by
    have := hh.count
    push_cast at this
    omega
  have hlk : s.model.isLocked = true := by simpa [isLocked] using hpos
  obtain ⟨ops', ho⟩ := (e.follows ((exec_follows body hx).2 s hsx)).run hpos
  obtain ⟨f1, f2, f3, _⟩ := C18_locked_frozen ho ((C18_lock_count ho).1.1 hlk)
  refine ⟨hlk, (exec_same body hb hx e h1).2 s hsx, fun a => ?_, fun a ps b => ?_, ?_, fun v => ?_⟩
  · simp [exec, PyModel.attempt, f1, hlk]
  · simp [exec, PyModel.attempt, f2, hlk]
  · simp [exec, PyModel.attempt, f3, hlk]
  · simp [exec, hlk]

/-- C74.  Code that locks with blocks only leaves as many locks as there were, also when an exception leaves it: the model is locked
afterwards if and only if it was before.  The next theorem says what this means. -/
theorem C74_restores {ops : List ModelOp} {bs : List Bool} {w : Scope} {c : PyCode} {r : Ran}
    (hw : PyModel.new.attempts ops = .ok (w.model, bs)) (hc : c.OnlyBlocks) (h : c.exec w = .ok r) :
    r.after.model.lockCount = w.model.lockCount ∧ r.after.model.isLocked = w.model.isLocked ∧ r.after.contexts = w.contexts := by
  obtain ⟨h1, h2⟩ := exec_count c hc h ⟨ops, bs, hw⟩
  exact ⟨h1, by simp [isLocked, h1], h2⟩

/-- C74.  Afterwards, no symbol can be created if and only if the model was locked before, and it is then, and only then, that the state
of a symbol that is no decision can be asked for.  For histories and code without refused locks (see C75_index_fails for the others). -/
theorem C74_after {ops : List ModelOp} {w : Scope} {c : PyCode} {r : Ran} (hw : PyModel.new.run ops = .ok w.model)
    (hc : c.OnlyBlocks) (h : c.exec w = .ok r) {ops' : List ModelOp} (hr' : PyModel.new.run ops' = .ok r.after.model) :
    (∀ a, a ∉ r.after.model.g.nodes → (r.after.model.step (.decision a) = .throw ↔ w.model.isLocked = true)) ∧
      ∀ v ∈ r.after.model.g.nodes, v ∉ r.after.model.g.decisions →
        (PyCode.read v).exec r.after = .ok ⟨r.after, !w.model.isLocked, [r.after]⟩ := by
  obtain ⟨bs, hb⟩ := C75_histories ops hw
  obtain ⟨_, hl, _⟩ := C74_restores hb hc h
  have hi := reachable hr'
  refine ⟨fun a ha => ?_, fun v hv hd => ?_⟩
  · rw [← hl]
    cases hk : r.after.model.isLocked with
    | true =>
      have hs : r.after.model.g.sorted = true := hi.sorted.2 (by simpa [isLocked] using hk)
      simp [step, Graph.emplaceDecision, hs, guardThrow]
    | false =>
      have hs : r.after.model.g.sorted = false := by
        rw [← Bool.not_eq_true]
        intro hs
        have := hi.sorted.1 hs
        simp [isLocked] at hk
        omega
      simp [step, Graph.emplaceDecision, hs, guardThrow, guardUB, ha]
  · rw [← hl]
    cases hk : r.after.model.isLocked with
    | true => simp [exec, hk]
    | false =>
      have hs : r.after.model.g.sorted = false := by
        rw [← Bool.not_eq_true]
        intro hs
        have := hi.sorted.1 hs
        simp [isLocked] at hk
        omega
      have := hi.wf.unsorted hs v hv hd
      simp only [Graph.topoOf] at this
      simp [exec, hk, this]

/-- C74.  A block whose body locks with blocks only leaves the symbols, the decisions and the operands as they were.  Missing: as in
C74_protected_partial. -/
theorem C74_block_partial {ops : List ModelOp} {bs : List Bool} {w : Scope} {body : PyCode} {r : Ran}
    (hw : PyModel.new.attempts ops = .ok (w.model, bs)) (hd : w.contexts.Nodup)
    (hk : (w.contexts.length : Int) ≤ w.model.lockCount) (hb : body.OnlyBlocks) (h : (PyCode.withLock body).exec w = .ok r) :
    r.after.model.g.nodes.Perm w.model.g.nodes ∧ r.after.model.g.decisions = w.model.g.decisions ∧
      ∀ v, (r.after.model.g.mem v).preds = (w.model.g.mem v).preds ∧ (r.after.model.g.mem v).succs = (w.model.g.mem v).succs := by
  cases hl : w.model.step .lock with
  | throw =>
    obtain ⟨_, _, _, _, hs⟩ := C74_refused hw hl h
    refine ⟨by rw [hs.nodes], hs.decisions, fun v => ?_⟩
    obtain ⟨i, hi⟩ := hs.mem v
    rw [hi]
    exact ⟨rfl, rfl⟩
  | ub => simp [exec, PyModel.attempt, hl] at h
  | ok m1 =>
    obtain ⟨inner, hx, _, _, p1, p2, p3, _⟩ := C74_protected_partial hw hd hk hb.leaves hl h
    have hr : Reached w.model := ⟨ops, bs, hw⟩
    have hm : w.model.attempt .lock = .ok (m1, false) := by simp only [PyModel.attempt, hl]
    have e : Reached m1 := hr.perform hm
    have hc : m1.lockCount = w.model.lockCount + 1 := count_lock hm rfl
    have h1 : Held (0 + 1) { w with model := m1 } := ⟨hd, by push_cast; simp only [hc]; omega⟩
    have hin := (exec_same body hb.leaves hx e h1).1
    simp only [exec, hm, Res.ok_bind, Bool.false_eq_true, if_false, hx, Res.bind_eq_ok, Res.ok.injEq] at h
    obtain ⟨m', hm', rfl⟩ := h
    have hh := (exec_held body hb.leaves hx e h1).1
    have l := hin.trans (same_of_locked (e.follows (exec_follows body hx).1) (by have := hh.count; push_cast at this; omega) hm')
    refine ⟨?_, l.decisions.trans p2, fun v => ⟨(l.preds v).trans (p3 v).1, (l.succs v).trans (p3 v).2⟩⟩
    rw [show m'.1.g.nodes = m1.g.nodes from l.nodes]
    exact p1

/-- C74 fails for bodies that call `unlock()`: in a block in a model with one decision, a second decision is created. -/
theorem C74_unlock_fails : ∃ body r, (PyCode.seq (.call (.decision 0)) (.withLock body)).exec ⟨.new, []⟩ = .ok r ∧
    r.raised = false ∧ r.after.model.g.nodes.length = 2 ∧ r.after.model.isLocked = false := by
  refine ⟨.seq (.call .unlock) (.call (.decision 1)), ?_⟩
  have h : (match (PyCode.seq (.call (.decision 0)) (.withLock (.seq (.call .unlock) (.call (.decision 1))))).exec ⟨.new, []⟩ with
    | .ok r => decide (r.raised = false ∧ r.after.model.g.nodes.length = 2 ∧ r.after.model.isLocked = false)
    | _ => false) = true := by decide +kernel
  revert h
  cases (PyCode.seq (.call (.decision 0)) (.withLock (.seq (.call .unlock) (.call (.decision 1))))).exec ⟨.new, []⟩ with
  | ok r => exact fun h => ⟨r, rfl, of_decide_eq_true h⟩
  | throw => simp
  | ub => simp

/-- C74 fails for code that calls `lock()` and `unlock()`: an exception between the two leaves the model locked. -/
theorem C74_exception_fails : ∃ r,
    (PyCode.attempt (.seq (.call .lock) (.seq .raise (.call .unlock))) .pass).exec ⟨.new, []⟩ = .ok r ∧
    r.raised = false ∧ r.after.model.isLocked = true := by
  have h : (match (PyCode.attempt (.seq (.call .lock) (.seq .raise (.call .unlock))) .pass).exec ⟨.new, []⟩ with
    | .ok r => decide (r.raised = false ∧ r.after.model.isLocked = true)
    | _ => false) = true := by decide +kernel
  revert h
  cases (PyCode.attempt (.seq (.call .lock) (.seq .raise (.call .unlock))) .pass).exec ⟨.new, []⟩ with
  | ok r => exact fun h => ⟨r, rfl, of_decide_eq_true h⟩
  | throw => simp
  | ub => simp

/-- C74 fails for `x += y` in a block, where `x` has a variable number of operands: it is not refused, and what it does is
undefined. -/
theorem C74_inplace_fails : ∃ body : PyCode, body.LeavesUnlocking ∧
    (PyCode.seq (.call (.decision 0)) (.seq (.call (.decision 1)) (.seq (.call (.node 2 [0] true)) (.withLock body)))).exec
      ⟨.new, []⟩ = .ub := by
  refine ⟨.call (.addOperand 2 1), by simp [LeavesUnlocking], ?_⟩
  have h : (match (PyCode.seq (.call (.decision 0)) (.seq (.call (.decision 1)) (.seq (.call (.node 2 [0] true))
      (.withLock (.call (.addOperand 2 1)))))).exec ⟨.new, []⟩ with
    | .ub => true
    | _ => false) = true := by decide +kernel
  revert h
  cases (PyCode.seq (.call (.decision 0)) (.seq (.call (.decision 1)) (.seq (.call (.node 2 [0] true))
      (.withLock (.call (.addOperand 2 1)))))).exec ⟨.new, []⟩ with
  | ok r => simp
  | throw => simp
  | ub => exact fun _ => rfl

namespace BlocksExample

/-- A model with a decision and a symbol computed from it, and a kept context manager. -/
def before : PyCode := .seq (.call (.decision 0)) (.seq (.call (.node 1 [0] true)) (.keep 7))

/-- A body with a block inside that enters the kept context manager, tries to add a symbol, and is left by an exception. -/
def body : PyCode := .seq (.attempt (.withLock (.withKept 7 (.seq (.read 1) (.call (.decision 2))))) (.read 1)) (.seq (.read 1) .raise)

def whole : PyCode := .seq before (.seq (.attempt (.withLock body) .pass) (.read 1))

/-- Everything is executed; the last statement raises, since the model is not locked any more. -/
example : (match whole.exec ⟨.new, []⟩ with
    | .ok r => decide (r.raised = true ∧ r.after.model.isLocked = false ∧ r.after.model.g.nodes = [0, 1] ∧ r.seen.length = 20 ∧
        r.after.contexts = [])
    | _ => false) = true := by decide +kernel

example : whole.LeavesUnlocking := by simp [whole, before, body, LeavesUnlocking]

example : (PyCode.withLock (.attempt (.withLock .raise) (.call (.decision 3)))).OnlyBlocks := by
  simp [OnlyBlocks]

end BlocksExample
end Verif
