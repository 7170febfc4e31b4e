import Verif.Spec.Blocks
import Verif.Props.Refused

/-!
# Lemmas about blocks
-/

namespace Verif
namespace PyCode

open PyModel

/-- A model that some history leads to. -/
def Reached (m : PyModel) : Prop := ∃ ops bs, PyModel.new.attempts ops = .ok (m, bs)

/-- Some sequence of operations. -/
def Follows (m m' : PyModel) : Prop := ∃ ops bs, m.attempts ops = .ok (m', bs)

theorem Follows.refl (m : PyModel) : Follows m m := ⟨[], [], rfl⟩

theorem Follows.trans {a b c : PyModel} (h : Follows a b) (k : Follows b c) : Follows a c := by
  obtain ⟨x, xs, hx⟩ := h
  obtain ⟨y, ys, hy⟩ := k
  exact ⟨x ++ y, xs ++ ys, by rw [attempts_append, hx, Res.ok_bind]; simp only [hy]; rfl⟩

theorem Follows.one {m : PyModel} {q : PyModel × Bool} {op : ModelOp} (h : m.attempt op = .ok q) : Follows m q.1 :=
  ⟨[op], [q.2], by simp only [PyModel.attempts, h, Res.ok_bind]⟩

theorem Reached.follows {m m' : PyModel} (h : Reached m) (k : Follows m m') : Reached m' := by
  obtain ⟨x, xs, hx⟩ := h
  obtain ⟨y, ys, hy⟩ := k
  exact ⟨x ++ y, xs ++ ys, by rw [attempts_append, hx, Res.ok_bind]; simp only [hy]; rfl⟩

theorem Reached.perform {m : PyModel} (h : Reached m) {q : PyModel × Bool} {op : ModelOp} (hp : m.attempt op = .ok q) :
    Reached q.1 := h.follows (Follows.one hp)

theorem Reached.inv {m : PyModel} (h : Reached m) : m.Inv ∨ m.Jammed := by
  obtain ⟨ops, bs, ho⟩ := h
  exact attempts_inv ops inv_new ho

theorem Reached.nonneg {m : PyModel} (h : Reached m) : 0 ≤ m.lockCount := by
  rcases h.inv with hi | hj
  · exact hi.nonneg
  · exact hj.count.ge

/-- A locked model has a history without refused sorts. -/
theorem Reached.run {m : PyModel} (h : Reached m) (hl : 0 < m.lockCount) : ∃ ops, PyModel.new.run ops = .ok m := by
  obtain ⟨ops, bs, ho⟩ := h
  rcases attempts_run ops inv_new ho with h | h
  · exact ⟨ops, h⟩
  · exact absurd h.count hl.ne'

theorem _root_.Verif.SameSymbols.rfl' (m : PyModel) : SameSymbols m m := ⟨rfl, rfl, fun _ => rfl, fun _ => rfl⟩

theorem _root_.Verif.SameSymbols.trans {a b c : PyModel} (h : SameSymbols a b) (k : SameSymbols b c) : SameSymbols a c :=
  ⟨k.nodes.trans h.nodes, k.decisions.trans h.decisions, fun v => (k.preds v).trans (h.preds v),
    fun v => (k.succs v).trans (h.succs v)⟩

theorem same_of_locked {m : PyModel} {q : PyModel × Bool} (h : Reached m) (hl : 0 < m.lockCount) {op : ModelOp}
    (hp : m.attempt op = .ok q) : SameSymbols m q.1 := by
  obtain ⟨ops, ho⟩ := h.run hl
  have hlk : m.isLocked = true := by simpa [isLocked] using hl
  have hd := (C18_lock_count ho).1.1 hlk
  obtain ⟨h1, h2, h3⟩ := C18_locked_same ho hd (perform_attempt (b := q.2) (by simp [hlk]) hp)
  exact ⟨h1, h2, fun v => (h3 v).1, fun v => (h3 v).2⟩

theorem count_same {m : PyModel} {q : PyModel × Bool} (h : Reached m) {op : ModelOp} (hp : m.attempt op = .ok q)
    (h1 : op ≠ .unlock) (h2 : op ≠ .lock) : q.1.lockCount = m.lockCount := by
  rcases h.inv with hi | hj
  · by_cases hc : m.isLocked = false ∧ (op = .lock ∨ op = .removeUnused)
    · cases hs : m.step op with
      | throw =>
        obtain ⟨m', hm, _, hl, _⟩ := hi.refused hs hc
        rw [hm, Res.ok.injEq] at hp
        rw [← hp]
        exact hl
      | ok m1 =>
        have := (perform_inv hi (op := op) (m' := m1) (by simp [PyModel.perform, hs])).2.2
        simp only [PyModel.attempt, hs, Res.ok.injEq] at hp
        rw [← hp, this]
        cases op <;> simp_all [lockEffect]
      | ub => simp [PyModel.attempt, hs] at hp
    · rw [(perform_inv hi (perform_attempt (b := q.2) hc hp)).2.2]
      cases op <;> simp_all [lockEffect]
  · rw [hj.count, (hj.attempt hp).1.count]

theorem raised_of_throw {m : PyModel} {q : PyModel × Bool} {op : ModelOp} (hs : m.step op = .throw)
    (hp : m.attempt op = .ok q) : q.2 = true := by
  unfold PyModel.attempt at hp
  rw [hs] at hp
  dsimp only at hp
  by_cases hc : m.isLocked = false ∧ (op = .lock ∨ op = .removeUnused)
  · rw [if_pos hc, Res.bind_eq_ok] at hp
    obtain ⟨_, _, hp⟩ := hp
    rw [← Res.ok.inj hp]
  · rw [if_neg hc] at hp
    rw [← Res.ok.inj hp]

theorem count_lock {m : PyModel} {q : PyModel × Bool} (hp : m.attempt .lock = .ok q) (hq : q.2 = false) :
    q.1.lockCount = m.lockCount + 1 := by
  cases hs : m.step .lock with
  | ok m1 =>
    unfold PyModel.attempt at hp
    rw [hs] at hp
    simp only [Res.ok.injEq] at hp
    rw [← hp]
    simp only [step, Res.bind_eq_ok, Res.ok.injEq] at hs
    obtain ⟨g, _, rfl⟩ := hs
    rfl
  | ub => simp [PyModel.attempt, hs] at hp
  | throw =>
    have := raised_of_throw hs hp
    rw [hq] at this
    cases this

theorem count_refused {m : PyModel} {q : PyModel × Bool} (h : Reached m) {op : ModelOp} (hp : m.attempt op = .ok q)
    (hq : q.2 = true) : q.1.lockCount = m.lockCount := by
  obtain ⟨ops, bs, ho⟩ := h
  exact (C75_refused_partial ho (m' := q.1) (by rw [hp, ← hq])).1

theorem count_le {m : PyModel} {q : PyModel × Bool} (h : Reached m) {op : ModelOp} (hp : m.attempt op = .ok q)
    (h1 : op ≠ .unlock) : m.lockCount ≤ q.1.lockCount := by
  by_cases h2 : op = .lock
  · subst h2
    cases hq : q.2 with
    | true => exact (count_refused h hp hq).ge
    | false => rw [count_lock hp hq]; omega
  · exact (count_same h hp h1 h2).ge

theorem count_unlock {m : PyModel} {q : PyModel × Bool} (hl : 0 < m.lockCount) (hp : m.attempt .unlock = .ok q) :
    q.1.lockCount = m.lockCount - 1 ∧ q.2 = false := by
  have h1 : ¬ m.lockCount < 1 := by omega
  simp only [PyModel.attempt, step, if_neg h1] at hp
  split_ifs at hp <;> simp only [Res.ok.injEq] at hp <;> rw [← hp] <;> exact ⟨rfl, rfl⟩

theorem unlock_quiet {m : PyModel} {q : PyModel × Bool} (hp : m.attempt .unlock = .ok q) : q.2 = false := by
  simp only [PyModel.attempt, step] at hp
  split_ifs at hp <;> simp only [Res.ok.injEq] at hp <;> rw [← hp]

/-- All scopes that are seen are reached by operations of the model, and so is the last one. -/
theorem exec_follows : ∀ (c : PyCode) {w : Scope} {r : Ran}, c.exec w = .ok r →
    Follows w.model r.after.model ∧ ∀ s ∈ r.seen, Follows w.model s.model := by
  intro c
  induction c with
  | pass =>
    intro w r h
    simp only [exec, Res.ok.injEq] at h
    subst h
    simp [Follows.refl]
  | call op =>
    intro w r h
    simp only [exec, Res.bind_eq_ok, Res.ok.injEq] at h
    obtain ⟨q, hm, rfl⟩ := h
    have := Follows.one hm
    simp [Follows.refl, this]
  | read v =>
    intro w r h
    simp only [exec, Res.ok.injEq] at h
    subst h
    simp [Follows.refl]
  | raise =>
    intro w r h
    simp only [exec, Res.ok.injEq] at h
    subst h
    simp [Follows.refl]
  | seq a b iha ihb =>
    intro w r h
    simp only [exec, Res.bind_eq_ok] at h
    obtain ⟨x, hx, h⟩ := h
    obtain ⟨x1, x2⟩ := iha hx
    cases hr : x.raised
    · simp only [hr, Bool.false_eq_true, if_false, Res.bind_eq_ok, Res.ok.injEq] at h
      obtain ⟨y, hy, rfl⟩ := h
      obtain ⟨y1, y2⟩ := ihb hy
      refine ⟨x1.trans y1, fun s hs => ?_⟩
      rcases List.mem_append.1 hs with hs | hs
      · exact x2 s hs
      · exact x1.trans (y2 s hs)
    · simp only [hr, if_true, Res.ok.injEq] at h
      subst h
      exact ⟨x1, x2⟩
  | attempt a b iha ihb =>
    intro w r h
    simp only [exec, Res.bind_eq_ok] at h
    obtain ⟨x, hx, h⟩ := h
    obtain ⟨x1, x2⟩ := iha hx
    cases hr : x.raised
    · simp only [hr, Bool.false_eq_true, if_false, Res.ok.injEq] at h
      subst h
      exact ⟨x1, x2⟩
    · simp only [hr, if_true, Res.bind_eq_ok, Res.ok.injEq] at h
      obtain ⟨y, hy, rfl⟩ := h
      obtain ⟨y1, y2⟩ := ihb hy
      refine ⟨x1.trans y1, fun s hs => ?_⟩
      rcases List.mem_append.1 hs with hs | hs
      · exact x2 s hs
      · exact x1.trans (y2 s hs)
  | withLock a iha =>
    intro w r h
    simp only [exec, Res.bind_eq_ok] at h
    obtain ⟨q, hm, h⟩ := h
    have e := Follows.one hm
    cases hq : q.2 with
    | true =>
      simp only [hq, if_true, Res.ok.injEq] at h
      subst h
      simp [Follows.refl, e]
    | false =>
    simp only [hq, Bool.false_eq_true, if_false, Res.bind_eq_ok, Res.ok.injEq] at h
    obtain ⟨x, hx, m', hm', rfl⟩ := h
    obtain ⟨x1, x2⟩ := iha hx
    have l := (e.trans x1).trans (Follows.one hm')
    refine ⟨l, fun s hs => ?_⟩
    simp only [List.cons_append, List.mem_cons, List.mem_append, List.not_mem_nil, or_false] at hs
    rcases hs with rfl | hs | rfl
    · exact Follows.refl _
    · exact e.trans (x2 s hs)
    · exact l
  | keep c =>
    intro w r h
    simp only [exec, Res.bind_eq_ok] at h
    obtain ⟨q, hm, h⟩ := h
    have := Follows.one hm
    split_ifs at h <;> (simp only [Res.ok.injEq] at h; subst h; simp [Follows.refl, this])
  | withKept c a iha =>
    intro w r h
    simp only [exec] at h
    split_ifs at h with hc
    · simp only [Res.bind_eq_ok, Res.ok.injEq] at h
      obtain ⟨x, hx, m', hm', rfl⟩ := h
      obtain ⟨x1, x2⟩ := iha hx
      have l := x1.trans (Follows.one hm')
      refine ⟨l, fun s hs => ?_⟩
      simp only [List.cons_append, List.mem_cons, List.mem_append, List.not_mem_nil, or_false] at hs
      rcases hs with rfl | hs | rfl
      · exact Follows.refl _
      · exact x2 s hs
      · exact l
    · simp only [Res.ok.injEq] at h
      subst h
      simp [Follows.refl]

/-- Every context manager that has not been entered holds a lock, besides `open` blocks. -/
structure Held (k : Nat) (w : Scope) : Prop where
  nodup : w.contexts.Nodup
  count : (w.contexts.length : Int) + k ≤ w.model.lockCount

theorem exec_held : ∀ (c : PyCode) {k : Nat} {w : Scope} {r : Ran}, c.LeavesUnlocking → c.exec w = .ok r → Reached w.model →
    Held k w → Held k r.after ∧ ∀ s ∈ r.seen, Held k s := by
  intro c
  induction c with
  | pass =>
    intro k w r _ h _ hh
    simp only [exec, Res.ok.injEq] at h
    subst h
    simp [hh]
  | call op =>
    intro k w r hn h hr hh
    simp only [exec, Res.bind_eq_ok, Res.ok.injEq] at h
    obtain ⟨q, hm, rfl⟩ := h
    have hle := count_le hr hm hn
    have : Held k { w with model := q.1 } := ⟨hh.nodup, hh.count.trans hle⟩
    simp [hh, this]
  | read v =>
    intro k w r _ h _ hh
    simp only [exec, Res.ok.injEq] at h
    subst h
    simp [hh]
  | raise =>
    intro k w r _ h _ hh
    simp only [exec, Res.ok.injEq] at h
    subst h
    simp [hh]
  | seq a b iha ihb =>
    intro k w r hn h hr hh
    simp only [exec, Res.bind_eq_ok] at h
    obtain ⟨x, hx, h⟩ := h
    obtain ⟨x1, x2⟩ := iha hn.1 hx hr hh
    cases hra : x.raised
    · simp only [hra, Bool.false_eq_true, if_false, Res.bind_eq_ok, Res.ok.injEq] at h
      obtain ⟨y, hy, rfl⟩ := h
      obtain ⟨y1, y2⟩ := ihb hn.2 hy (hr.follows (exec_follows a hx).1) x1
      refine ⟨y1, fun s hs => ?_⟩
      rcases List.mem_append.1 hs with hs | hs
      · exact x2 s hs
      · exact y2 s hs
    · simp only [hra, if_true, Res.ok.injEq] at h
      subst h
      exact ⟨x1, x2⟩
  | attempt a b iha ihb =>
    intro k w r hn h hr hh
    simp only [exec, Res.bind_eq_ok] at h
    obtain ⟨x, hx, h⟩ := h
    obtain ⟨x1, x2⟩ := iha hn.1 hx hr hh
    cases hra : x.raised
    · simp only [hra, Bool.false_eq_true, if_false, Res.ok.injEq] at h
      subst h
      exact ⟨x1, x2⟩
    · simp only [hra, if_true, Res.bind_eq_ok, Res.ok.injEq] at h
      obtain ⟨y, hy, rfl⟩ := h
      obtain ⟨y1, y2⟩ := ihb hn.2 hy (hr.follows (exec_follows a hx).1) x1
      refine ⟨y1, fun s hs => ?_⟩
      rcases List.mem_append.1 hs with hs | hs
      · exact x2 s hs
      · exact y2 s hs
  | withLock a iha =>
    intro k w r hn h hr hh
    simp only [exec, Res.bind_eq_ok] at h
    obtain ⟨q, hm, h⟩ := h
    have e := hr.perform hm
    cases hq : q.2 with
    | true =>
      simp only [hq, if_true, Res.ok.injEq] at h
      subst h
      have : Held k { w with model := q.1 } := ⟨hh.nodup, hh.count.trans (count_refused hr hm hq).ge⟩
      simp [hh, this]
    | false =>
    simp only [hq, Bool.false_eq_true, if_false, Res.bind_eq_ok, Res.ok.injEq] at h
    obtain ⟨x, hx, m', hm', rfl⟩ := h
    have hc := count_lock hm hq
    have h1 : Held (k + 1) { w with model := q.1 } := ⟨hh.nodup, by have := hh.count; push_cast; simp only [hc]; omega⟩
    obtain ⟨x1, x2⟩ := iha hn hx e h1
    have hrx := e.follows (exec_follows a hx).1
    have hcx := x1.count
    have hu := (count_unlock (by push_cast at hcx; omega) hm').1
    have hl : Held k { x.after with model := m'.1 } := ⟨x1.nodup, by simp only [hu]; push_cast at hcx; omega⟩
    refine ⟨hl, fun s hs => ?_⟩
    simp only [List.cons_append, List.mem_cons, List.mem_append, List.not_mem_nil, or_false] at hs
    rcases hs with rfl | hs | rfl
    · exact hh
    · exact ⟨(x2 s hs).nodup, by have := (x2 s hs).count; push_cast at this; omega⟩
    · exact hl
  | keep c =>
    intro k w r _ h hr hh
    simp only [exec, Res.bind_eq_ok] at h
    obtain ⟨q, hm, h⟩ := h
    cases hq : q.2 with
    | true =>
      simp only [hq, if_true, Res.ok.injEq] at h
      subst h
      have : Held k { w with model := q.1 } := ⟨hh.nodup, hh.count.trans (count_refused hr hm hq).ge⟩
      simp [hh, this]
    | false =>
    simp only [hq, Bool.false_eq_true, if_false, Res.ok.injEq] at h
    subst h
    have hc := count_lock hm hq
    have : Held k ⟨q.1, w.contexts.insert c⟩ := by
      refine ⟨hh.nodup.insert, ?_⟩
      have h1 := hh.count
      have h2 : (w.contexts.insert c).length ≤ w.contexts.length + 1 := by
        by_cases hm : c ∈ w.contexts
        · rw [List.insert_of_mem hm]; omega
        · rw [List.insert_of_not_mem hm]; simp
      simp only [hc]
      omega
    simp [hh, this]
  | withKept c a iha =>
    intro k w r hn h hr hh
    simp only [exec] at h
    split_ifs at h with hc
    · simp only [Res.bind_eq_ok, Res.ok.injEq] at h
      obtain ⟨x, hx, m', hm', rfl⟩ := h
      have hpos := List.length_pos_of_mem hc
      have h1 : Held (k + 1) { w with contexts := w.contexts.erase c } := ⟨hh.nodup.erase _, by
        have := hh.count
        simp only [List.length_erase_of_mem hc]
        push_cast
        omega⟩
      obtain ⟨x1, x2⟩ := iha hn hx hr h1
      have hrx := hr.follows (exec_follows a hx).1
      have hcx := x1.count
      have hu := (count_unlock (by push_cast at hcx; omega) hm').1
      have hl : Held k { x.after with model := m'.1 } := ⟨x1.nodup, by simp only [hu]; push_cast at hcx; omega⟩
      refine ⟨hl, fun s hs => ?_⟩
      simp only [List.cons_append, List.mem_cons, List.mem_append, List.not_mem_nil, or_false] at hs
      rcases hs with rfl | hs | rfl
      · exact hh
      · exact ⟨(x2 s hs).nodup, by have := (x2 s hs).count; push_cast at this; omega⟩
      · exact hl
    · simp only [Res.ok.injEq] at h
      subst h
      simp [hh]

/-- While a lock is in force that the code does not release, the symbols stay the same. -/
theorem exec_same : ∀ (c : PyCode) {k : Nat} {w : Scope} {r : Ran}, c.LeavesUnlocking → c.exec w = .ok r → Reached w.model →
    Held (k + 1) w → SameSymbols w.model r.after.model ∧ ∀ s ∈ r.seen, SameSymbols w.model s.model := by
  intro c
  have pos : ∀ {k : Nat} {w : Scope}, Held (k + 1) w → 0 < w.model.lockCount := by
    intro k w h
    have := h.count
    push_cast at this
    omega
  induction c with
  | pass =>
    intro k w r _ h _ hh
    simp only [exec, Res.ok.injEq] at h
    subst h
    simp [SameSymbols.rfl']
  | call op =>
    intro k w r hn h hr hh
    simp only [exec, Res.bind_eq_ok, Res.ok.injEq] at h
    obtain ⟨q, hm, rfl⟩ := h
    have := same_of_locked hr (pos hh) hm
    simp [SameSymbols.rfl', this]
  | read v =>
    intro k w r _ h _ hh
    simp only [exec, Res.ok.injEq] at h
    subst h
    simp [SameSymbols.rfl']
  | raise =>
    intro k w r _ h _ hh
    simp only [exec, Res.ok.injEq] at h
    subst h
    simp [SameSymbols.rfl']
  | seq a b iha ihb =>
    intro k w r hn h hr hh
    simp only [exec, Res.bind_eq_ok] at h
    obtain ⟨x, hx, h⟩ := h
    obtain ⟨x1, x2⟩ := iha hn.1 hx hr hh
    cases hra : x.raised
    · simp only [hra, Bool.false_eq_true, if_false, Res.bind_eq_ok, Res.ok.injEq] at h
      obtain ⟨y, hy, rfl⟩ := h
      obtain ⟨y1, y2⟩ := ihb hn.2 hy (hr.follows (exec_follows a hx).1) (exec_held a hn.1 hx hr hh).1
      refine ⟨x1.trans y1, fun s hs => ?_⟩
      rcases List.mem_append.1 hs with hs | hs
      · exact x2 s hs
      · exact x1.trans (y2 s hs)
    · simp only [hra, if_true, Res.ok.injEq] at h
      subst h
      exact ⟨x1, x2⟩
  | attempt a b iha ihb =>
    intro k w r hn h hr hh
    simp only [exec, Res.bind_eq_ok] at h
    obtain ⟨x, hx, h⟩ := h
    obtain ⟨x1, x2⟩ := iha hn.1 hx hr hh
    cases hra : x.raised
    · simp only [hra, Bool.false_eq_true, if_false, Res.ok.injEq] at h
      subst h
      exact ⟨x1, x2⟩
    · simp only [hra, if_true, Res.bind_eq_ok, Res.ok.injEq] at h
      obtain ⟨y, hy, rfl⟩ := h
      obtain ⟨y1, y2⟩ := ihb hn.2 hy (hr.follows (exec_follows a hx).1) (exec_held a hn.1 hx hr hh).1
      refine ⟨x1.trans y1, fun s hs => ?_⟩
      rcases List.mem_append.1 hs with hs | hs
      · exact x2 s hs
      · exact x1.trans (y2 s hs)
  | withLock a iha =>
    intro k w r hn h hr hh
    simp only [exec, Res.bind_eq_ok] at h
    obtain ⟨q, hm, h⟩ := h
    have e := hr.perform hm
    cases hq : q.2 with
    | true =>
      simp only [hq, if_true, Res.ok.injEq] at h
      subst h
      have := same_of_locked hr (pos hh) hm
      simp [SameSymbols.rfl', this]
    | false =>
    simp only [hq, Bool.false_eq_true, if_false, Res.bind_eq_ok, Res.ok.injEq] at h
    obtain ⟨x, hx, m', hm', rfl⟩ := h
    have hc := count_lock hm hq
    have h1 : Held (k + 1) { w with model := q.1 } :=
      ⟨hh.nodup, by have := hh.count; push_cast at this ⊢; simp only [hc]; omega⟩
    obtain ⟨x1, x2⟩ := iha hn hx e h1
    have hrx := e.follows (exec_follows a hx).1
    have s0 := same_of_locked hr (pos hh) hm
    have l := (s0.trans x1).trans (same_of_locked hrx (pos (exec_held a hn hx e h1).1) hm')
    refine ⟨l, fun s hs => ?_⟩
    simp only [List.cons_append, List.mem_cons, List.mem_append, List.not_mem_nil, or_false] at hs
    rcases hs with rfl | hs | rfl
    · exact SameSymbols.rfl' _
    · exact s0.trans (x2 s hs)
    · exact l
  | keep c =>
    intro k w r _ h hr hh
    simp only [exec, Res.bind_eq_ok] at h
    obtain ⟨q, hm, h⟩ := h
    have := same_of_locked hr (pos hh) hm
    split_ifs at h <;> (simp only [Res.ok.injEq] at h; subst h; simp [SameSymbols.rfl', this])
  | withKept c a iha =>
    intro k w r hn h hr hh
    simp only [exec] at h
    split_ifs at h with hc
    · simp only [Res.bind_eq_ok, Res.ok.injEq] at h
      obtain ⟨x, hx, m', hm', rfl⟩ := h
      have h1 : Held (k + 1) { w with contexts := w.contexts.erase c } := ⟨hh.nodup.erase _, by
        have := hh.count
        simp only [List.length_erase_of_mem hc]
        push_cast at this ⊢
        omega⟩
      obtain ⟨x1, x2⟩ := iha hn hx hr h1
      have hrx := hr.follows (exec_follows a hx).1
      have l := SameSymbols.trans x1 (same_of_locked hrx (pos (exec_held a hn hx hr h1).1) hm')
      refine ⟨l, fun s hs => ?_⟩
      simp only [List.cons_append, List.mem_cons, List.mem_append, List.not_mem_nil, or_false] at hs
      rcases hs with rfl | hs | rfl
      · exact SameSymbols.rfl' _
      · exact x2 s hs
      · exact l
    · simp only [Res.ok.injEq] at h
      subst h
      simp [SameSymbols.rfl']

theorem OnlyBlocks.leaves : ∀ {c : PyCode}, c.OnlyBlocks → c.LeavesUnlocking := by
  intro c
  induction c with
  | call op => exact fun h => h.1
  | seq a b iha ihb => exact fun h => ⟨iha h.1, ihb h.2⟩
  | attempt a b iha ihb => exact fun h => ⟨iha h.1, ihb h.2⟩
  | withLock a iha => exact fun h => iha h
  | withKept c a _ => exact fun h => h.elim
  | _ => exact fun _ => trivial

theorem exec_count : ∀ (c : PyCode) {w : Scope} {r : Ran}, c.OnlyBlocks → c.exec w = .ok r → Reached w.model →
    r.after.model.lockCount = w.model.lockCount ∧ r.after.contexts = w.contexts := by
  intro c
  induction c with
  | pass => intro w r _ h _; simp only [exec, Res.ok.injEq] at h; subst h; exact ⟨rfl, rfl⟩
  | read v => intro w r _ h _; simp only [exec, Res.ok.injEq] at h; subst h; exact ⟨rfl, rfl⟩
  | raise => intro w r _ h _; simp only [exec, Res.ok.injEq] at h; subst h; exact ⟨rfl, rfl⟩
  | call op =>
    intro w r hn h hr
    simp only [exec, Res.bind_eq_ok, Res.ok.injEq] at h
    obtain ⟨q, hm, rfl⟩ := h
    exact ⟨count_same hr hm hn.1 hn.2, rfl⟩
  | seq a b iha ihb =>
    intro w r hn h hr
    simp only [exec, Res.bind_eq_ok] at h
    obtain ⟨x, hx, h⟩ := h
    have x1 := iha hn.1 hx hr
    cases hra : x.raised
    · simp only [hra, Bool.false_eq_true, if_false, Res.bind_eq_ok, Res.ok.injEq] at h
      obtain ⟨y, hy, rfl⟩ := h
      have y1 := ihb hn.2 hy (hr.follows (exec_follows a hx).1)
      exact ⟨y1.1.trans x1.1, y1.2.trans x1.2⟩
    · simp only [hra, if_true, Res.ok.injEq] at h
      subst h
      exact x1
  | attempt a b iha ihb =>
    intro w r hn h hr
    simp only [exec, Res.bind_eq_ok] at h
    obtain ⟨x, hx, h⟩ := h
    have x1 := iha hn.1 hx hr
    cases hra : x.raised
    · simp only [hra, Bool.false_eq_true, if_false, Res.ok.injEq] at h
      subst h
      exact x1
    · simp only [hra, if_true, Res.bind_eq_ok, Res.ok.injEq] at h
      obtain ⟨y, hy, rfl⟩ := h
      have y1 := ihb hn.2 hy (hr.follows (exec_follows a hx).1)
      exact ⟨y1.1.trans x1.1, y1.2.trans x1.2⟩
  | withLock a iha =>
    intro w r hn h hr
    simp only [exec, Res.bind_eq_ok] at h
    obtain ⟨q, hm, h⟩ := h
    have e := hr.perform hm
    cases hq : q.2 with
    | true =>
      simp only [hq, if_true, Res.ok.injEq] at h
      subst h
      exact ⟨count_refused hr hm hq, rfl⟩
    | false =>
    simp only [hq, Bool.false_eq_true, if_false, Res.bind_eq_ok, Res.ok.injEq] at h
    obtain ⟨x, hx, m', hm', rfl⟩ := h
    have hc := count_lock hm hq
    have x1 := iha hn hx e
    have hrx := e.follows (exec_follows a hx).1
    have h0 := hr.nonneg
    have hu := (count_unlock (by rw [x1.1]; simp only [hc]; omega) hm').1
    refine ⟨?_, x1.2⟩
    simp only [hu, x1.1, hc]
    omega
  | keep c => exact fun h => h.elim
  | withKept c a _ => exact fun h => h.elim

end PyCode
end Verif
