import Verif.Model.Constants
import Verif.Props.Integral
import Mathlib.Tactic.Linarith
import Mathlib.Tactic.SplitIfs
import Mathlib.Tactic.ByContra

set_option linter.unusedSectionVars false
set_option linter.unusedSimpArgs false
set_option linter.unusedVariables false

/-!
# C43: constants describe their own values correctly
-/

namespace Verif

/-- Specification: the answer to a question about the values of a constant. -/
def StatCorrect (values : List Rat) : StatQuery → StatAnswer → Prop
  | .integral, .bool b => b = true ↔ ∀ v ∈ values, IsInt v
  | .min, .num x => if values = [] then x = 0 else x ∈ values ∧ ∀ v ∈ values, x ≤ v
  | .max, .num x => if values = [] then x = 0 else x ∈ values ∧ ∀ v ∈ values, v ≤ x
  | _, _ => False

/-- There is only one correct answer. -/
theorem StatCorrect.unique {values : List Rat} {q : StatQuery} {a b : StatAnswer} (ha : StatCorrect values q a)
    (hb : StatCorrect values q b) : a = b := by
  cases q <;> cases a <;> cases b <;> simp only [StatCorrect] at ha hb
  · rename_i x y
    have : x = true ↔ y = true := ha.trans hb.symm
    rw [Bool.eq_iff_iff.2 this]
  · split_ifs at ha hb
    · rw [ha, hb]
    · rw [le_antisymm (ha.2 _ hb.1) (hb.2 _ ha.1)]
  · split_ifs at ha hb
    · rw [ha, hb]
    · rw [le_antisymm (hb.2 _ ha.1) (ha.2 _ hb.1)]

theorem foldl_least (xs : List Rat) (b : Rat) :
    (xs.foldl (fun m y => if y < m then y else m) b) ∈ b :: xs ∧
      (∀ v ∈ b :: xs, xs.foldl (fun m y => if y < m then y else m) b ≤ v) := by
  induction xs generalizing b with
  | nil => simp
  | cons x xs ih =>
    obtain ⟨h1, h2⟩ := ih (if x < b then x else b)
    rw [List.foldl_cons]
    constructor
    · rcases List.mem_cons.1 h1 with h | h
      · rw [h]; split_ifs <;> simp
      · simp [h]
    · have hb := h2 _ List.mem_cons_self
      intro v hv
      rcases List.mem_cons.1 hv with rfl | hv
      · refine le_trans hb ?_
        split_ifs with h
        · exact h.le
        · exact le_rfl
      rcases List.mem_cons.1 hv with rfl | hv
      · refine le_trans hb ?_
        split_ifs with h
        · exact le_rfl
        · exact not_lt.1 h
      · exact h2 v (by simp [hv])

theorem foldl_greatest (xs : List Rat) (b : Rat) :
    (xs.foldl (fun m y => if m < y then y else m) b) ∈ b :: xs ∧
      (∀ v ∈ b :: xs, v ≤ xs.foldl (fun m y => if m < y then y else m) b) := by
  induction xs generalizing b with
  | nil => simp
  | cons x xs ih =>
    obtain ⟨h1, h2⟩ := ih (if b < x then x else b)
    rw [List.foldl_cons]
    constructor
    · rcases List.mem_cons.1 h1 with h | h
      · rw [h]; split_ifs <;> simp
      · simp [h]
    · have hb := h2 _ List.mem_cons_self
      intro v hv
      rcases List.mem_cons.1 hv with rfl | hv
      · refine le_trans ?_ hb
        split_ifs with h
        · exact h.le
        · exact le_rfl
      rcases List.mem_cons.1 hv with rfl | hv
      · refine le_trans ?_ hb
        split_ifs with h
        · exact le_rfl
        · exact not_lt.1 h
      · exact h2 v (by simp [hv])

/-- The statistics of at least one value are defined and correct. -/
theorem BufferStats.make_spec (x : Rat) (xs : List Rat) : ∃ s, BufferStats.make (x :: xs) = .ok s ∧
    ∀ q, StatCorrect (x :: xs) q (s.answer q) := by
  refine ⟨⟨(x :: xs).all isInteger, _, _⟩, rfl, ?_⟩
  intro q
  cases q with
  | integral =>
    simp only [BufferStats.answer, StatCorrect, List.all_eq_true]
    exact ⟨fun h v hv => isInt_of_isInteger (h v hv), fun h v hv => isInteger_of_isInt (h v hv)⟩
  | min =>
    simp only [BufferStats.answer, StatCorrect]
    rw [if_neg (by simp)]
    exact foldl_least xs x
  | max =>
    simp only [BufferStats.answer, StatCorrect]
    rw [if_neg (by simp)]
    exact foldl_greatest xs x

theorem directAnswer_spec {values : List Rat} {q : StatQuery} {a : StatAnswer}
    (h : directAnswer values q = some a) : StatCorrect values q a := by
  match values, h with
  | [], h => cases q <;> cases h <;> simp [StatCorrect]
  | [x], h =>
    cases q <;> cases h <;> simp [StatCorrect]
    exact C37_isInteger x

/-- The cache, if there is one, holds the statistics of the values. -/
def CacheCorrect (values : List Rat) (c : StatCache) : Prop := ∀ s ∈ c, ∀ q, StatCorrect values q (s.answer q)

theorem statQuery_spec {values : List Rat} {c : StatCache} (hc : CacheCorrect values c) (q : StatQuery) :
    ∃ a c', statQuery values c q = .ok (a, c') ∧ StatCorrect values q a ∧ CacheCorrect values c' := by
  unfold statQuery
  cases hd : directAnswer values q with
  | some a => exact ⟨a, c, rfl, directAnswer_spec hd, hc⟩
  | none =>
    cases c with
    | some s => exact ⟨_, _, rfl, hc s rfl q, hc⟩
    | none =>
      match values, hd with
      | x :: y :: ys, _ =>
        obtain ⟨s, hs, hq⟩ := BufferStats.make_spec x (y :: ys)
        simp only [hs, Res.ok_bind]
        exact ⟨_, _, rfl, hq q, fun t ht => by cases ht; exact hq⟩

/-- C43: however many questions are asked, in whatever order, every answer is the correct one. -/
theorem C43_answers (values : List Rat) (qs : List StatQuery) :
    ∃ as, statQueries values none qs = .ok as ∧ List.Forall₂ (StatCorrect values) qs as := by
  suffices H : ∀ c, CacheCorrect values c →
      ∃ as, statQueries values c qs = .ok as ∧ List.Forall₂ (StatCorrect values) qs as from
    H none (fun s hs => by cases hs)
  induction qs with
  | nil => exact fun c _ => ⟨[], rfl, .nil⟩
  | cons q qs ih =>
    intro c hc
    obtain ⟨a, c', e, ha, hc'⟩ := statQuery_spec hc q
    obtain ⟨as, e', has⟩ := ih c' hc'
    refine ⟨a :: as, ?_, .cons ha has⟩
    simp only [statQueries, e, e', Res.ok_bind]

example : statQueries [3, -1 / 2, 7] none [.max, .integral, .min, .max] =
    .ok [.num 7, .bool false, .num (-1 / 2), .num 7] ∧
    statQueries [] none [.max, .integral, .min] = .ok [.num 0, .bool true, .num 0] := by
  decide +kernel

/-! ## Several threads -/

/-- Whether a thread in this place holds the mutex. -/
def StatPC.holds : StatPC → Bool
  | .check _ | .construct _ | .engage _ | .release _ => true
  | _ => false

/-- What is known of the shared memory when a thread is in this place. -/
def StatPC.Fine (values : List Rat) (contents : Option BufferStats) (engaged : Bool) : StatPC → Prop
  | .start _ | .wait _ => True
  | .check _ => engaged = false → contents = none
  | .construct _ => engaged = false ∧ contents = none
  | .engage _ => engaged = false ∧ contents ≠ none
  | .release _ | .read _ => engaged = true
  | .done q a => ∃ x, a = .ok x ∧ StatCorrect values q x

/-- The invariant of the machine: contents are correct and were built at most once, an engaged cache has
contents, at most one thread holds the mutex. -/
structure StatMachine.Inv (values : List Rat) (m : StatMachine) : Prop where
  correct : CacheCorrect values m.contents
  engaged : m.engaged = true → m.contents ≠ none
  count : m.constructions = if m.contents = none then 0 else 1
  unlocked : m.locked = false → ∀ p ∈ m.threads, p.holds = false
  holder : ∀ (i j : Nat) (p p' : StatPC), m.threads[i]? = some p → m.threads[j]? = some p' → p.holds = true → p'.holds = true → i = j
  fine : ∀ p ∈ m.threads, p.Fine values m.contents m.engaged
  clean : m.locked = false → m.engaged = false → m.contents = none

/-- What a thread that does not hold the mutex relies on is not changed by others. -/
theorem StatPC.Fine.stable {values : List Rat} {c c' : Option BufferStats} {e e' : Bool} {p : StatPC}
    (h : p.Fine values c e) (hp : p.holds = false) (he : e = true → e' = true) : p.Fine values c' e' := by
  cases p <;> simp_all [StatPC.Fine, StatPC.holds]

theorem mem_set_index {l : List StatPC} {t : Nat} {x p : StatPC} (h : p ∈ l.set t x) :
    p = x ∨ ∃ j, j ≠ t ∧ l[j]? = some p := by
  obtain ⟨j, hj⟩ := List.mem_iff_getElem?.1 h
  by_cases e : t = j
  · subst e
    rw [List.getElem?_set_self'] at hj
    cases hl : l[t]? with
    | none => simp [hl] at hj
    | some y => simp [hl] at hj; exact .inl hj.symm
  · rw [List.getElem?_set_ne e] at hj
    exact .inr ⟨j, fun h => e h.symm, hj⟩

theorem getElem?_set_cases {l : List StatPC} {t j : Nat} {x p : StatPC} (h : (l.set t x)[j]? = some p) :
    (j = t ∧ p = x) ∨ (j ≠ t ∧ l[j]? = some p) := by
  by_cases e : t = j
  · subst e
    rw [List.getElem?_set_self'] at h
    cases hl : l[t]? with
    | none => simp [hl] at h
    | some y => simp [hl] at h; exact .inl ⟨rfl, h.symm⟩
  · rw [List.getElem?_set_ne e] at h
    exact .inr ⟨fun h => e h.symm, h⟩

/-- A step of a thread that does not hold the mutex before or after. -/
theorem StatMachine.Inv.idle {values : List Rat} {m : StatMachine} (h : m.Inv values) {t : Nat} {p x : StatPC}
    (hx : x.holds = false) (hf : x.Fine values m.contents m.engaged) :
    StatMachine.Inv values { m with threads := m.threads.set t x } where
  correct := h.correct
  engaged := h.engaged
  count := h.count
  clean := h.clean
  unlocked := fun hl q hq => by
    rcases mem_set_index hq with rfl | ⟨j, -, hj⟩
    · exact hx
    · exact h.unlocked hl q (List.mem_of_getElem? hj)
  holder := fun i j a b hi hj ha hb => by
    rcases getElem?_set_cases hi with ⟨-, rfl⟩ | ⟨-, hi⟩
    · rw [hx] at ha; cases ha
    rcases getElem?_set_cases hj with ⟨-, rfl⟩ | ⟨-, hj⟩
    · rw [hx] at hb; cases hb
    exact h.holder i j a b hi hj ha hb
  fine := fun q hq => by
    rcases mem_set_index hq with rfl | ⟨j, -, hj⟩
    · exact hf
    · exact h.fine q (List.mem_of_getElem? hj)

/-- A step of the thread that holds the mutex, which may change the shared memory. -/
theorem StatMachine.Inv.held {values : List Rat} {m : StatMachine} (h : m.Inv values) {t : Nat} {p x : StatPC}
    (ht : m.threads[t]? = some p) (hp : p.holds = true) {c : Option BufferStats} {e l : Bool} {n : Nat}
    (hc : CacheCorrect values c) (he : e = true → c ≠ none) (hn : n = if c = none then 0 else 1)
    (hee : m.engaged = true → e = true) (hf : x.Fine values c e) (hl : l = false → x.holds = false)
    (hl' : l = false → e = false → c = none) :
    StatMachine.Inv values ⟨c, e, l, n, m.threads.set t x⟩ := by
  have others : ∀ j q, j ≠ t → m.threads[j]? = some q → q.holds = false := by
    intro j q hj hq
    cases hh : q.holds with
    | false => rfl
    | true => exact absurd (h.holder j t q p hq ht hh hp) hj
  exact {
    correct := hc
    engaged := he
    count := hn
    clean := hl'
    unlocked := fun hl0 q hq => by
      rcases mem_set_index hq with rfl | ⟨j, hj0, hj⟩
      · exact hl hl0
      · exact others j q hj0 hj
    holder := fun i j a b hi hj ha hb => by
      rcases getElem?_set_cases hi with ⟨rfl, rfl⟩ | ⟨hi0, hi⟩
      · rcases getElem?_set_cases hj with ⟨rfl, rfl⟩ | ⟨hj0, hj⟩
        · rfl
        · rw [others j b hj0 hj] at hb; cases hb
      · rw [others i a hi0 hi] at ha; cases ha
    fine := fun q hq => by
      rcases mem_set_index hq with rfl | ⟨j, hj0, hj⟩
      · exact hf
      · exact (h.fine q (List.mem_of_getElem? hj)).stable (others j q hj0 hj) hee }

theorem StatMachine.Inv.step {values : List Rat} (hv : values ≠ []) {m : StatMachine} (h : m.Inv values)
    (t : Nat) : (m.step values t).Inv values := by
  unfold StatMachine.step
  cases ht : m.threads[t]? with
  | none => exact h
  | some p =>
    have hp := h.fine p (List.mem_of_getElem? ht)
    cases p with
    | start q =>
      refine h.idle (p := .start q) ?_ ?_
      · split_ifs <;> rfl
      · split_ifs with e
        · exact e
        · trivial
    | wait q =>
      simp only
      split_ifs with hl
      · exact h
      · have hl : m.locked = false := by simpa using hl
        exact {
          correct := h.correct
          engaged := h.engaged
          count := h.count
          clean := fun h0 => by cases h0
          unlocked := fun h0 => by cases h0
          holder := fun i j a b hi hj ha hb => by
            rcases getElem?_set_cases hi with ⟨rfl, rfl⟩ | ⟨hi0, hi⟩
            · rcases getElem?_set_cases hj with ⟨rfl, rfl⟩ | ⟨hj0, hj⟩
              · rfl
              · rw [h.unlocked hl b (List.mem_of_getElem? hj)] at hb; cases hb
            · rw [h.unlocked hl a (List.mem_of_getElem? hi)] at ha; cases ha
          fine := fun q hq => by
            rcases mem_set_index hq with rfl | ⟨j, hj0, hj⟩
            · exact h.clean hl
            · exact h.fine q (List.mem_of_getElem? hj) }
    | check q =>
      have hlock : m.locked ≠ false := fun h0 => by
        have := h.unlocked h0 _ (List.mem_of_getElem? ht); cases this
      refine h.held ht rfl h.correct h.engaged h.count id ?_ (fun h0 => absurd h0 hlock) (fun h0 => absurd h0 hlock)
      split_ifs with e
      · exact e
      · have e : m.engaged = false := by simpa using e
        exact ⟨e, hp e⟩
    | construct q =>
      have hlock : m.locked ≠ false := fun h0 => by
        have := h.unlocked h0 _ (List.mem_of_getElem? ht); cases this
      obtain ⟨e, hc⟩ := hp
      cases values with
      | nil => exact absurd rfl hv
      | cons x xs =>
        obtain ⟨s, hs, hq⟩ := BufferStats.make_spec x xs
        simp only [hs]
        refine h.held ht rfl (fun t ht => by cases ht; exact hq) (fun _ => by simp) ?_ id ⟨e, by simp⟩
          (fun h0 => absurd h0 hlock) (fun h0 => absurd h0 hlock)
        rw [h.count, if_pos hc, if_neg (by simp)]
    | engage q =>
      have hlock : m.locked ≠ false := fun h0 => by
        have := h.unlocked h0 _ (List.mem_of_getElem? ht); cases this
      obtain ⟨e, hc⟩ := hp
      exact h.held ht rfl h.correct (fun _ => hc) h.count (fun _ => rfl) rfl (fun h0 => absurd h0 hlock)
        (fun h0 => absurd h0 hlock)
    | release q =>
      have e : m.engaged = true := hp
      exact h.held ht rfl h.correct h.engaged h.count id e (fun _ => rfl)
        (fun _ h0 => by rw [e] at h0; cases h0)
    | read q =>
      have e : m.engaged = true := hp
      refine h.idle (p := .read q) rfl ?_
      cases hc : m.contents with
      | none => exact absurd hc (h.engaged e)
      | some s => exact ⟨_, rfl, h.correct s (by rw [hc]; rfl) q⟩
    | done q a => exact h

theorem StatMachine.Inv.run {values : List Rat} (hv : values ≠ []) (schedule : List Nat) {m : StatMachine}
    (h : m.Inv values) : (m.run values schedule).Inv values := by
  induction schedule generalizing m with
  | nil => exact h
  | cons t ts ih => exact ih (h.step hv t)

theorem StatMachine.fresh_inv (values : List Rat) (qs : List StatQuery) : (fresh qs).Inv values where
  correct := fun s hs => by cases hs
  engaged := fun h => by cases h
  count := rfl
  clean := fun _ _ => rfl
  unlocked := fun _ p hp => by
    obtain ⟨q, _, rfl⟩ := List.mem_map.1 hp; rfl
  holder := fun i j a b hi hj ha hb => by
    obtain ⟨q, _, rfl⟩ := List.mem_map.1 (List.mem_of_getElem? hi)
    cases ha
  fine := fun p hp => by
    obtain ⟨q, _, rfl⟩ := List.mem_map.1 hp; trivial

/-- C43, several threads asking at once, under every schedule: all answers are correct, and the statistics are
computed at most once.  (Each step is seen by all threads in the same order, see Model/Constants.lean.) -/
theorem C43_threads {values : List Rat} (hv : values ≠ []) (qs : List StatQuery) (schedule : List Nat) :
    (∀ q a, StatPC.done q a ∈ ((StatMachine.fresh qs).run values schedule).threads →
      ∃ x, a = .ok x ∧ StatCorrect values q x) ∧
    ((StatMachine.fresh qs).run values schedule).constructions ≤ 1 := by
  have h := (StatMachine.fresh_inv values qs).run hv schedule
  refine ⟨fun q a ha => h.fine _ ha, ?_⟩
  rw [h.count]
  split_ifs <;> simp

/-- Two threads that both find the cache empty; the second finds it engaged when it gets the mutex. -/
example : ((StatMachine.fresh [.max, .integral]).run [3, 1 / 2, 7] [0, 1, 0, 1, 0, 0, 1, 0, 0, 0, 1, 1, 1, 1]) =
    ⟨some ⟨false, 1 / 2, 7⟩, true, false, 1, [.done .max (.ok (.num 7)), .done .integral (.ok (.bool false))]⟩ := by
  decide +kernel

end Verif
