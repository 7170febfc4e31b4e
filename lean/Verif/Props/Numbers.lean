import Verif.Model.Numbers
import Verif.Lemmas.ArrayState
import Mathlib.Data.Rat.Lemmas
import Mathlib.Algebra.Order.Ring.Rat
import Mathlib.Data.Rat.Cast.Order
import Mathlib.Tactic.NormNum

/-!
# C09: integer and binary symbols
-/

set_option linter.unusedSimpArgs false

namespace Verif

open ArrayState

theorem isValid_iff {c : NumNode} {v : Rat} : c.isValid v = true ↔ InBounds c.lo c.hi v := by
  unfold NumNode.isValid InBounds
  simp only [Bool.and_eq_true, decide_eq_true_eq, beq_iff_eq]
  constructor
  · rintro ⟨⟨h1, h2⟩, h3⟩
    have hv : v = (v.num : Rat) := (Rat.coe_int_num_of_den_eq_one h3).symm
    refine ⟨v.num, hv, ?_, ?_⟩
    · rw [hv] at h1; exact_mod_cast h1
    · rw [hv] at h2; exact_mod_cast h2
  · rintro ⟨k, rfl, h1, h2⟩
    exact ⟨⟨by exact_mod_cast h1, by exact_mod_cast h2⟩, rfl⟩

/-- **C09, initial values**: exactly the value lists of the right length with all values integers
within the bounds are accepted (and shown); all others are rejected without creating a state. -/
theorem C09_init_accepts_iff (c : NumNode) (values : List Rat) :
    (values.length = c.size ∧ (∀ v ∈ values, InBounds c.lo c.hi v) →
      ∃ s, c.init values = .ok s ∧ s.buffer = values) ∧
    (¬ (values.length = c.size ∧ ∀ v ∈ values, InBounds c.lo c.hi v) →
      c.init values = .throw) := by
  unfold NumNode.init guardThrow
  constructor
  · rintro ⟨h1, h2⟩
    rw [if_pos h1, if_pos (fun v hv => isValid_iff.2 (h2 v hv))]
    exact ⟨_, rfl, rfl⟩
  · intro h
    by_cases h1 : values.length = c.size
    · by_cases h2 : ∀ v ∈ values, c.isValid v = true
      · exact absurd ⟨h1, fun v hv => isValid_iff.1 (h2 v hv)⟩ h
      · rw [if_pos h1, if_neg h2]; rfl
    · rw [if_neg h1]; rfl

/-- **C09, default and random initial values** are always accepted for a constructed symbol. -/
theorem C09_init_default {size : Nat} {lo? hi? : Option Int} {c : NumNode}
    (hc : NumNode.make size lo? hi? = .ok c) :
    (∃ s, c.initDefault = .ok s) ∧
    ∀ draws : List Int, draws.length = c.size → (∀ d ∈ draws, c.lo ≤ d ∧ d ≤ c.hi) →
      ∃ s, c.initRandom draws = .ok s := by
  have hle : c.lo ≤ c.hi := by
    simp only [NumNode.make, guardThrow] at hc
    split at hc <;> [skip; simp at hc]
    split at hc <;> [skip; simp at hc]
    simp only [Res.ok_bind, Res.pure_eq, Res.ok.injEq] at hc
    subst hc; simp only; omega
  constructor
  · obtain ⟨s, hs, -⟩ := (C09_init_accepts_iff c (List.replicate c.size c.defaultValue)).1
      ⟨by simp, by
        intro v hv
        simp at hv
        obtain ⟨-, rfl⟩ := hv
        unfold NumNode.defaultValue
        split
        · exact ⟨0, by simp, by omega, by omega⟩
        · exact ⟨c.lo, rfl, by omega, by omega⟩⟩
    exact ⟨s, hs⟩
  · intro draws hl hd
    obtain ⟨s, hs, -⟩ := (C09_init_accepts_iff c (draws.map (fun i : Int => (i : Rat)))).1
      ⟨by simpa using hl, by
        intro v hv
        simp only [List.mem_map] at hv
        obtain ⟨d, hd', rfl⟩ := hv
        exact ⟨d, rfl, hd d hd'⟩⟩
    exact ⟨s, hs⟩

theorem isValid_int {c : NumNode} {v : Int} : c.isValid (v : Rat) = true ↔ c.lo ≤ v ∧ v ≤ c.hi := by
  rw [isValid_iff]
  constructor
  · rintro ⟨k, hk, h⟩
    have : v = k := by exact_mod_cast hk
    subst this; exact h
  · intro h; exact ⟨v, rfl, h⟩

/-- Helper: one operation of an integer symbol. -/
theorem num_run1 (c : NumNode) {s : ArrayState Rat} {com cur : List Rat} (h : Rep s com cur)
    (op : NumOp) :
    match op.effect c.lo c.hi (com, cur) with
    | some (com', cur') => ∃ s', NumNode.caught (fun s => c.run1 s op) s = .ok s' ∧ Rep s' com' cur'
    | none => NumNode.caught (fun s => c.run1 s op) s = .ub := by
  cases op with
  | exchange i j =>
    simp only [NumOp.effect, NumNode.caught, NumNode.run1]
    cases hi : cur[i]? with
    | none => simp [ArrayState.exchange, h.buf, hi]
    | some a =>
      cases hj : cur[j]? with
      | none => simp [ArrayState.exchange, h.buf, hi, hj]
      | some b =>
        obtain ⟨h1, rfl⟩ := List.getElem?_eq_some_iff.1 hi
        obtain ⟨h2, rfl⟩ := List.getElem?_eq_some_iff.1 hj
        obtain ⟨s', hs', hr'⟩ := h.exchange h1 h2
        exact ⟨s', by simp [hs'], hr'⟩
  | setValue i v =>
    simp only [NumOp.effect, NumNode.caught, NumNode.run1, NumNode.setValue]
    by_cases hv : v < c.lo ∨ c.hi < v
    · have : ¬ c.isValid v = true := by rw [isValid_int]; omega
      simp only [hv, if_true, this, Bool.not_eq_true]
      exact ⟨s, by simp, h⟩
    · have : c.isValid v = true := by rw [isValid_int]; omega
      simp only [hv, if_false, this, not_true_eq_false]
      by_cases hi : i < cur.length
      · obtain ⟨s', hs', hr'⟩ := h.set hi (v : Rat)
        simp only [hi, if_true]
        exact ⟨s', by simp [hs'], hr'⟩
      · simp [hi, ArrayState.set, h.buf, List.getElem?_eq_none (Nat.le_of_not_lt hi)]
  | commit => exact ⟨_, rfl, h.commit⟩
  | revert => exact ⟨_, rfl, h.revert⟩

theorem num_effect_inv {lo hi : Int} {p q : List Rat × List Rat} {op : NumOp}
    (h : op.effect lo hi p = some q) (h1 : ∀ v ∈ p.1, InBounds lo hi v)
    (h2 : ∀ v ∈ p.2, InBounds lo hi v) (hl : p.1.length = p.2.length) :
    (∀ v ∈ q.1, InBounds lo hi v) ∧ (∀ v ∈ q.2, InBounds lo hi v) ∧
      q.1.length = p.2.length ∧ q.2.length = p.2.length := by
  obtain ⟨com, cur⟩ := p
  simp only at h1 h2 hl
  cases op with
  | exchange i j =>
    simp only [NumOp.effect] at h
    split at h
    · rename_i a b ha hb
      simp at h; subst h
      refine ⟨h1, ?_, hl, by simp⟩
      intro v hv
      rcases List.mem_or_eq_of_mem_set hv with hv | rfl
      · rcases List.mem_or_eq_of_mem_set hv with hv | rfl
        · exact h2 v hv
        · exact h2 v (List.mem_of_getElem? hb)
      · exact h2 v (List.mem_of_getElem? ha)
    · simp at h
  | setValue i v =>
    simp only [NumOp.effect] at h
    split at h
    · simp at h; subst h; exact ⟨h1, h2, hl, rfl⟩
    · split at h
      · rename_i hv hi
        simp at h; subst h
        refine ⟨h1, ?_, hl, by simp⟩
        intro w hw
        rcases List.mem_or_eq_of_mem_set hw with hw | rfl
        · exact h2 w hw
        · exact ⟨v, rfl, by omega, by omega⟩
      · simp at h
  | commit => simp [NumOp.effect] at h; subst h; exact ⟨h2, h2, rfl, rfl⟩
  | revert => simp [NumOp.effect] at h; subst h; exact ⟨h1, h1, hl, hl⟩

/-- **C09 for integer symbols.** For every accepted initial value list and every history (in which
rejected `set_value` calls may be caught), in-range histories succeed, the values and diff are as
specified, every value is an integer within the bounds and the number of values is unchanged; an
index out of range is undefined. -/
theorem C09_integer_history (c : NumNode) (values : List Rat) {s0 : ArrayState Rat}
    (h0 : c.init values = .ok s0) (ops : List NumOp) :
    match ops.foldlM (NumOp.effect c.lo c.hi) (values, values) with
    | some (com, cur) => ∃ s, c.run s0 ops = .ok s ∧ s.buffer = cur ∧
        Replays com s.updates cur ∧ cur.length = c.size ∧ (∀ v ∈ cur, InBounds c.lo c.hi v)
    | none => c.run s0 ops = .ub := by
  have hv : values.length = c.size ∧ ∀ v ∈ values, InBounds c.lo c.hi v := by
    by_contra hn
    rw [(C09_init_accepts_iff c values).2 hn] at h0; simp at h0
  have hs0 : s0 = ArrayState.mk' values := by
    unfold NumNode.init guardThrow at h0
    rw [if_pos hv.1, if_pos (fun v hv' => isValid_iff.2 (hv.2 v hv'))] at h0
    simpa using h0.symm
  subst hs0
  have key : ∀ (ops : List NumOp) (s : ArrayState Rat) (com cur : List Rat), Rep s com cur →
      (∀ v ∈ com, InBounds c.lo c.hi v) → (∀ v ∈ cur, InBounds c.lo c.hi v) →
      com.length = cur.length → cur.length = c.size →
      match ops.foldlM (NumOp.effect c.lo c.hi) (com, cur) with
      | some (com', cur') => ∃ s', c.run s ops = .ok s' ∧ Rep s' com' cur' ∧
          cur'.length = c.size ∧ (∀ v ∈ cur', InBounds c.lo c.hi v)
      | none => c.run s ops = .ub := by
    intro ops
    induction ops with
    | nil => intro s com cur h h1 h2 hl hl2; exact ⟨s, rfl, h, hl2, h2⟩
    | cons op ops ih =>
      intro s com cur h h1 h2 hl hl2
      have hstep := num_run1 c h op
      simp only [List.foldlM_cons, NumNode.run]
      cases he : op.effect c.lo c.hi (com, cur) with
      | none => simp only [he] at hstep; simp [hstep]
      | some p =>
        obtain ⟨com', cur'⟩ := p
        simp only [he] at hstep
        obtain ⟨s', hs', hr'⟩ := hstep
        obtain ⟨i1, i2, i3, i4⟩ := num_effect_inv he h1 h2 hl
        have := ih s' com' cur' hr' i1 i2 (by simp only at i3 i4; omega) (by simp only at i4; omega)
        simpa [hs', NumNode.run] using this
  have := key ops _ values values (Rep.mk'_ values) hv.2 hv.2 rfl hv.1
  split at this
  · obtain ⟨s, hs, hr, hl, hb⟩ := this
    exact ⟨s, hs, hr.buf, hr.rep, hl, hb⟩
  · exact this

example : ∃ c, NumNode.make 3 (some (-2)) (some 5) = .ok c ∧ ∃ s0, c.init [0, -2, 5] = .ok s0 ∧
    [NumOp.setValue 0 7, .setValue 1 3, .commit, .exchange 0 2].foldlM (NumOp.effect c.lo c.hi)
      ([0, -2, 5], [0, -2, 5]) = some ([0, 3, 5], [5, 3, 0]) := by
  refine ⟨⟨3, -2, 5⟩, by decide, ArrayState.mk' [0, -2, 5], by decide +kernel, by decide +kernel⟩

/-- **C09 for binary symbols**: the same with flip, set and unset. -/
theorem C09_binary_history {size : Nat} {c : NumNode} (hc : NumNode.makeBinary size = .ok c)
    (values : List Rat) {s0 : ArrayState Rat} (h0 : c.init values = .ok s0) (ops : List BinOp) :
    match ops.foldlM BinOp.effect (values, values) with
    | some (com, cur) => ∃ s, c.runBin s0 ops = .ok s ∧ s.buffer = cur ∧
        Replays com s.updates cur ∧ cur.length = size ∧ (∀ v ∈ cur, v = 0 ∨ v = 1)
    | none => c.runBin s0 ops = .ub := by
  have hc' : c = ⟨size, 0, 1⟩ := by
    simp [NumNode.makeBinary, NumNode.make, guardThrow] at hc; exact hc.symm
  subst hc'
  have hv : values.length = size ∧ ∀ v ∈ values, InBounds 0 1 v := by
    by_contra hn
    rw [(C09_init_accepts_iff ⟨size, 0, 1⟩ values).2 hn] at h0; simp at h0
  have hs0 : s0 = ArrayState.mk' values := by
    unfold NumNode.init guardThrow at h0
    rw [if_pos hv.1, if_pos (fun v hv' => isValid_iff.2 (hv.2 v hv'))] at h0
    simpa using h0.symm
  subst hs0
  have bin : ∀ {v : Rat}, InBounds 0 1 v ↔ v = 0 ∨ v = 1 := by
    intro v
    constructor
    · rintro ⟨k, rfl, h1, h2⟩
      have : k = 0 ∨ k = 1 := by omega
      rcases this with rfl | rfl <;> simp
    · rintro (rfl | rfl)
      · exact ⟨0, by simp, by omega, by omega⟩
      · exact ⟨1, by simp, by omega, by omega⟩
  have step : ∀ (op : BinOp) (s : ArrayState Rat) (com cur : List Rat), Rep s com cur →
      (∀ v ∈ com, InBounds 0 1 v) → (∀ v ∈ cur, InBounds 0 1 v) → com.length = cur.length →
      match op.effect (com, cur) with
      | some (com', cur') =>
        ∃ s', NumNode.caught (fun s => (⟨size, 0, 1⟩ : NumNode).runBin1 s op) s = .ok s' ∧
          Rep s' com' cur' ∧ (∀ v ∈ com', InBounds 0 1 v) ∧ (∀ v ∈ cur', InBounds 0 1 v) ∧
          com'.length = cur.length ∧ cur'.length = cur.length
      | none => NumNode.caught (fun s => (⟨size, 0, 1⟩ : NumNode).runBin1 s op) s = .ub := by
    intro op s com cur h h1 h2 hl
    have setlem : ∀ (i : Nat) (x : Rat), x = 0 ∨ x = 1 → i < cur.length →
        ∃ s', s.set i x = .ok s' ∧ Rep s' com (cur.set i x) ∧
          (∀ v ∈ com, InBounds 0 1 v) ∧ (∀ v ∈ cur.set i x, InBounds 0 1 v) ∧
          com.length = cur.length ∧ (cur.set i x).length = cur.length := by
      intro i x hx hi
      obtain ⟨s', hs', hr'⟩ := h.set hi x
      refine ⟨s', hs', hr', h1, ?_, hl, by simp⟩
      intro v hv
      rcases List.mem_or_eq_of_mem_set hv with hv | rfl
      · exact h2 v hv
      · exact bin.2 hx
    have setub : ∀ (i : Nat) (x : Rat), ¬ i < cur.length → s.set i x = .ub := by
      intro i x hi
      simp [ArrayState.set, h.buf, List.getElem?_eq_none (Nat.le_of_not_lt hi)]
    cases op with
    | num op =>
      have hstep := num_run1 ⟨size, 0, 1⟩ h op
      simp only [BinOp.effect, NumNode.runBin1]
      cases he : op.effect 0 1 (com, cur) with
      | none => simp only [he] at hstep; exact hstep
      | some p =>
        obtain ⟨com', cur'⟩ := p
        simp only [he] at hstep
        obtain ⟨s', hs', hr'⟩ := hstep
        obtain ⟨i1, i2, i3, i4⟩ := num_effect_inv he h1 h2 hl
        exact ⟨s', hs', hr', i1, i2, i3, i4⟩
    | flip i =>
      simp only [BinOp.effect, NumNode.runBin1, NumNode.caught]
      by_cases hi : i < cur.length
      · have hg : cur[i]? = some cur[i] := List.getElem?_eq_getElem hi
        simp only [hg, Option.bind_eq_bind, Option.bind_some, ArrayState.get, h.buf, Res.ok_bind]
        rcases bin.1 (h2 _ (List.getElem_mem hi)) with hz | hz
        · obtain ⟨s', hs', hr'⟩ := setlem i 1 (Or.inr rfl) hi
          rw [hz]
          refine ⟨s', by simp [hs'], by simpa using hr'⟩
        · obtain ⟨s', hs', hr'⟩ := setlem i 0 (Or.inl rfl) hi
          rw [hz]
          refine ⟨s', by simp [hs'], by simpa using hr'⟩
      · have hg : cur[i]? = none := List.getElem?_eq_none (Nat.le_of_not_lt hi)
        simp [hg, ArrayState.get, h.buf]
    | setOne i =>
      simp only [BinOp.effect, NumNode.runBin1, NumNode.caught]
      by_cases hi : i < cur.length
      · obtain ⟨s', hs', hr'⟩ := setlem i 1 (Or.inr rfl) hi
        simp only [hi, if_true, hs']
        exact ⟨s', rfl, hr'⟩
      · simp [hi, setub i 1 hi]
    | unset i =>
      simp only [BinOp.effect, NumNode.runBin1, NumNode.caught]
      by_cases hi : i < cur.length
      · obtain ⟨s', hs', hr'⟩ := setlem i 0 (Or.inl rfl) hi
        simp only [hi, if_true, hs']
        exact ⟨s', rfl, hr'⟩
      · simp [hi, setub i 0 hi]
  have key : ∀ (ops : List BinOp) (s : ArrayState Rat) (com cur : List Rat), Rep s com cur →
      (∀ v ∈ com, InBounds 0 1 v) → (∀ v ∈ cur, InBounds 0 1 v) →
      com.length = cur.length → cur.length = size →
      match ops.foldlM BinOp.effect (com, cur) with
      | some (com', cur') => ∃ s', (⟨size, 0, 1⟩ : NumNode).runBin s ops = .ok s' ∧ Rep s' com' cur' ∧
          cur'.length = size ∧ (∀ v ∈ cur', InBounds 0 1 v)
      | none => (⟨size, 0, 1⟩ : NumNode).runBin s ops = .ub := by
    intro ops
    induction ops with
    | nil => intro s com cur h h1 h2 hl hl2; exact ⟨s, rfl, h, hl2, h2⟩
    | cons op ops ih =>
      intro s com cur h h1 h2 hl hl2
      have hstep := step op s com cur h h1 h2 hl
      simp only [List.foldlM_cons, NumNode.runBin]
      cases he : op.effect (com, cur) with
      | none => simp only [he] at hstep; simp [hstep]
      | some p =>
        obtain ⟨com', cur'⟩ := p
        simp only [he] at hstep
        obtain ⟨s', hs', hr', i1, i2, i3, i4⟩ := hstep
        have := ih s' com' cur' hr' i1 i2 (by omega) (by omega)
        simpa [hs', NumNode.runBin] using this
  have := key ops _ values values (Rep.mk'_ values) hv.2 hv.2 rfl hv.1
  split at this
  · obtain ⟨s, hs, hr, hl, hb⟩ := this
    exact ⟨s, hs, hr.buf, hr.rep, hl, fun v hv => bin.1 (hb v hv)⟩
  · exact this

example : ∃ c, NumNode.makeBinary 3 = .ok c ∧ ∃ s0, c.init [0, 1, 0] = .ok s0 ∧
    [BinOp.flip 0, .setOne 2, .num .commit, .flip 1, .num (.setValue 0 2)].foldlM BinOp.effect
      ([0, 1, 0], [0, 1, 0]) = some ([1, 1, 1], [1, 0, 1]) := by
  refine ⟨⟨3, 0, 1⟩, by decide, ArrayState.mk' [0, 1, 0], by decide +kernel, by decide +kernel⟩

/-- **C09, construction**: bounds that are empty or exceed the supported range are rejected; others
are taken as given (with 0 and 2000000000 as defaults). -/
theorem C09_make (size : Nat) (lo? hi? : Option Int) :
    (lo?.getD 0 ≤ hi?.getD 2000000000 ∧ -2000000000 ≤ lo?.getD 0 ∧ hi?.getD 2000000000 ≤ 2000000000 →
      NumNode.make size lo? hi? = .ok ⟨size, lo?.getD 0, hi?.getD 2000000000⟩) ∧
    (¬ (lo?.getD 0 ≤ hi?.getD 2000000000 ∧ -2000000000 ≤ lo?.getD 0 ∧
        hi?.getD 2000000000 ≤ 2000000000) →
      NumNode.make size lo? hi? = .throw) := by
  unfold NumNode.make guardThrow
  constructor
  · rintro ⟨h1, h2, h3⟩
    simp only
    rw [if_pos (by omega), if_pos (by omega)]; rfl
  · intro h
    simp only
    by_cases h1 : ¬ hi?.getD 2000000000 < lo?.getD 0
    · rw [if_pos h1, if_neg (by omega)]; rfl
    · rw [if_neg h1]; rfl

end Verif
