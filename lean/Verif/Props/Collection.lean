import Verif.Lemmas.Collection
import Mathlib.Data.List.InsertIdx
import Mathlib.Data.List.Perm.Basic
import Mathlib.Data.List.Nodup
import Mathlib.Data.Rat.Defs
import Mathlib.Data.Rat.Lemmas
import Mathlib.Algebra.Order.Ring.Rat
import Mathlib.Data.Nat.Cast.Order.Ring
import Mathlib.Tactic.NormNum

/-!
# C05, C06: list and set decision symbols
-/

set_option linter.unusedSimpArgs false
set_option linter.unusedSectionVars false

namespace Verif

open CollState

variable {α : Type _} [DecidableEq α] [Inhabited α]

/-- Helper: one move. -/
theorem coll_run1_refines (c : CollNode) {s : CollState α} {com cur : CollContents α}
    (h : Rep s com cur) (ho : OnlyChanges s) (op : CollOp) :
    match CollOp.effect c.minSize c.maxSize (com, cur) op with
    | some (com', cur') => ∃ s', c.run1 s op = .ok s' ∧ Rep s' com' cur' ∧ OnlyChanges s'
    | none => c.run1 s op = .ub := by
  cases op with
  | exchange i j =>
    simp only [CollOp.effect, CollNode.run1]
    by_cases hij : i = j
    · simp only [hij, if_true]; exact ⟨s, rfl, h, ho⟩
    · simp only [hij, if_false]
      cases hi : cur.elements[i]? with
      | none => simp [CollState.exchange, h.elems, hi]
      | some a =>
        cases hj : cur.elements[j]? with
        | none => simp [CollState.exchange, h.elems, hi, hj]
        | some b =>
          obtain ⟨s', h1, h2⟩ := h.exchange hij hi hj
          exact ⟨s', h1, h2, ho.exchange h1⟩
  | rotate d e =>
    simp only [CollOp.effect, CollNode.run1]
    by_cases hde : e = d
    · simp only [hde, if_true]; exact ⟨s, rfl, h, ho⟩
    · simp only [hde, if_false]
      by_cases hb : e < cur.size ∧ d < cur.size
      · simp only [hb, and_self, if_true]
        have he : e < cur.elements.length := by have := h.curle; omega
        simp only [List.getElem?_eq_getElem he]
        obtain ⟨s', h1, h2⟩ := h.rotate hde hb.1 hb.2 (List.getElem?_eq_getElem he)
        exact ⟨s', h1, h2, ho.rotate h1⟩
      · simp [hb, CollState.rotate, h.size]
  | grow =>
    simp only [CollOp.effect, CollNode.run1, CollNode.dynamic]
    by_cases h1 : c.minSize = c.maxSize
    · simp [h1, guardUB]
    · by_cases h2 : cur.size < c.maxSize
      · by_cases h3 : cur.size < cur.elements.length
        · obtain ⟨s', hs', hr'⟩ := h.grow h3
          simp only [h1, h2, h3, ne_eq, not_false_eq_true, and_self, if_true, guardUB, h.size,
            decide_true, Res.ok_bind, hs']
          refine ⟨s', rfl, hr', ?_⟩
          unfold CollState.grow at hs'
          split at hs'
          · simp at hs'
          · simp at hs'; subst hs'; exact ho
        · have : cur.elements[cur.size]? = none := List.getElem?_eq_none (by omega)
          simp [h1, h2, h3, guardUB, h.size, CollState.grow, h.elems, this]
      · simp [h1, h2, guardUB, h.size]
  | shrink =>
    simp only [CollOp.effect, CollNode.run1, CollNode.dynamic]
    by_cases h1 : c.minSize = c.maxSize
    · simp [h1, guardUB]
    · by_cases h2 : c.minSize < cur.size
      · obtain ⟨s', hs', hr'⟩ := h.shrink (by omega)
        simp only [h1, h2, ne_eq, not_false_eq_true, and_self, if_true, guardUB, h.size,
            decide_true, Res.ok_bind, hs']
        refine ⟨s', rfl, hr', ?_⟩
        unfold CollState.shrink at hs'
        split at hs'
        · simp at hs'
        · split at hs'
          · simp at hs'
          · simp at hs'; subst hs'; exact ho
      · simp [h1, h2, guardUB, h.size]
  | commit => exact ⟨_, rfl, h.commit, by simp [OnlyChanges, CollState.commit]⟩
  | revert => exact ⟨_, rfl, h.revert ho, by simp [OnlyChanges, CollState.revert]⟩

/-- **C06.** For every collection, every initial contents and every history of moves, commits and
reverts: allowed histories succeed; the visible part shown is the one the specification says; the
reported diff is an exact edit script from the committed to the current visible elements; the
reported size and size difference are right.  (Reverting is one of the operations: the
specification says it restores the committed contents.)  A move outside the allowed range is
undefined. -/
theorem C06_collection_history (c : CollNode) (l : List α) (n : Nat) (hn : n ≤ l.length)
    (ops : List CollOp) :
    match ops.foldlM (CollOp.effect c.minSize c.maxSize)
      ((⟨l, n⟩, ⟨l, n⟩) : CollContents α × CollContents α) with
    | some (com, cur) => ∃ s, c.run (CollState.mk' l n) ops = .ok s ∧ s.elements = cur.elements ∧
        s.size = cur.size ∧ s.elements.take s.size = cur.visible ∧
        Replays com.visible s.previous cur.visible ∧
        (s.size : Int) - s.previousSize = (cur.visible.length : Int) - com.visible.length
    | none => c.run (CollState.mk' l n) ops = .ub := by
  have key : ∀ (ops : List CollOp) (s : CollState α) (com cur : CollContents α), Rep s com cur →
      OnlyChanges s →
      match ops.foldlM (CollOp.effect c.minSize c.maxSize) (com, cur) with
      | some (com', cur') => ∃ s', c.run s ops = .ok s' ∧ Rep s' com' cur'
      | none => c.run s ops = .ub := by
    intro ops
    induction ops with
    | nil => intro s com cur h _; exact ⟨s, rfl, h⟩
    | cons op ops ih =>
      intro s com cur h ho
      have h1 := coll_run1_refines c h ho op
      simp only [List.foldlM_cons, CollNode.run]
      cases he : CollOp.effect c.minSize c.maxSize (com, cur) op with
      | none => simp only [he] at h1; simp [h1]
      | some p =>
        obtain ⟨com', cur'⟩ := p
        simp only [he] at h1
        obtain ⟨s', hs', hr', ho'⟩ := h1
        have := ih s' com' cur' hr' ho'
        simpa [hs', CollNode.run] using this
  have := key ops _ ⟨l, n⟩ ⟨l, n⟩ (Rep.mk'_ hn) (by simp [OnlyChanges, mk'])
  cases he : ops.foldlM (CollOp.effect c.minSize c.maxSize)
      ((⟨l, n⟩, ⟨l, n⟩) : CollContents α × CollContents α) with
  | none => simp only [he] at this; exact this
  | some p =>
    simp only [he] at this
    obtain ⟨s, hs, hr⟩ := this
    refine ⟨s, hs, hr.elems, hr.size, by rw [hr.elems, hr.size]; rfl, hr.vis, ?_⟩
    have h1 := hr.comle
    have h2 := hr.curle
    simp only [CollContents.visible, List.length_take, hr.size, hr.prev]
    omega

/-- A non-trivial allowed history: swap a visible with a hidden element, grow, rotate, shrink. -/
example : [CollOp.exchange 0 3, .grow, .rotate 0 2, .shrink].foldlM
    (CollOp.effect (α := Nat) 0 4) (⟨[10, 11, 12, 13], 2⟩, ⟨[10, 11, 12, 13], 2⟩) =
    some (⟨[10, 11, 12, 13], 2⟩, ⟨[12, 13, 11, 10], 2⟩) := by decide

omit [Inhabited α] in
/-- Helper: every allowed move permutes the elements and keeps the size bounds. -/
theorem collEffect_inv (lo hi : Nat) (u : List α) (hu : hi ≤ u.length) {p q : CollContents α × CollContents α}
    {op : CollOp} (h : CollOp.effect lo hi p op = some q)
    (h1 : p.1.elements.Perm u ∧ lo ≤ p.1.size ∧ p.1.size ≤ hi)
    (h2 : p.2.elements.Perm u ∧ lo ≤ p.2.size ∧ p.2.size ≤ hi) :
    (q.1.elements.Perm u ∧ lo ≤ q.1.size ∧ q.1.size ≤ hi) ∧
    (q.2.elements.Perm u ∧ lo ≤ q.2.size ∧ q.2.size ≤ hi) := by
  obtain ⟨com, cur⟩ := p
  have hlen := h2.1.length_eq
  simp only at h1 h2 hlen
  cases op with
  | exchange i j =>
    simp only [CollOp.effect] at h
    split at h
    · simp at h; subst h; exact ⟨h1, h2⟩
    · split at h
      · rename_i hij _ _ a b ha hb
        simp at h; subst h
        refine ⟨h1, ?_, h2.2⟩
        refine List.Perm.trans ?_ h2.1
        obtain ⟨hi, hia⟩ := List.getElem?_eq_some_iff.1 ha
        obtain ⟨hj, hjb⟩ := List.getElem?_eq_some_iff.1 hb
        subst hia hjb
        exact List.set_set_perm hi hj
      · simp at h
  | rotate d e =>
    simp only [CollOp.effect] at h
    split at h
    · simp at h; subst h; exact ⟨h1, h2⟩
    · split at h
      · split at h
        · rename_i hne hb _ a ha
          simp at h; subst h
          refine ⟨h1, ?_, h2.2⟩
          refine List.Perm.trans ?_ h2.1
          obtain ⟨he, hea⟩ := List.getElem?_eq_some_iff.1 ha
          subst hea
          by_cases hd : d ≤ (cur.elements.eraseIdx e).length
          · exact (List.perm_insertIdx _ _ hd).trans (List.getElem_cons_eraseIdx_perm he)
          · exfalso
            have h1 : (cur.elements.eraseIdx e).length = cur.elements.length - 1 := by
              rw [List.length_eraseIdx, if_pos he]
            omega
        · simp at h
      · simp at h
  | grow =>
    simp only [CollOp.effect] at h
    split at h
    · simp at h; subst h
      refine ⟨h1, h2.1, ?_, ?_⟩ <;> simp <;> omega
    · simp at h
  | shrink =>
    simp only [CollOp.effect] at h
    split at h
    · simp at h; subst h
      refine ⟨h1, h2.1, ?_, ?_⟩ <;> simp <;> omega
    · simp at h
  | commit => simp [CollOp.effect] at h; subst h; exact ⟨h2, h2⟩
  | revert => simp [CollOp.effect] at h; subst h; exact ⟨h1, h1⟩

/-- What makes a state of a collection symbol valid for a user: the visible elements are pairwise
distinct integers in `[0, n)`, and there are between `lo` and `hi` of them. -/
structure ValidCollection (n lo hi : Nat) (visible : List Rat) : Prop where
  distinct : visible.Nodup
  inRange : ∀ v ∈ visible, ∃ k : Nat, k < n ∧ v = (k : Rat)
  sizeGe : lo ≤ visible.length
  sizeLe : visible.length ≤ hi

theorem ints_nodup (n : Nat) : (CollNode.ints n).Nodup := by
  unfold CollNode.ints
  refine List.Nodup.map ?_ List.nodup_range
  intro a b h
  have h : (a : Rat) = (b : Rat) := h
  exact_mod_cast h

theorem mem_ints {n : Nat} {v : Rat} : v ∈ CollNode.ints n ↔ ∃ k : Nat, k < n ∧ v = (k : Rat) := by
  simp [CollNode.ints, eq_comm]

/-- Helper: any state that starts as a permutation of `0..m-1` stays valid. -/
theorem coll_valid_of_perm (c : CollNode) (l : List Rat) (m n : Nat) (hl : l.Perm (CollNode.ints m))
    (hm : m ≤ c.maxValue) (hmax : c.maxSize ≤ m) (hlo : c.minSize ≤ n) (hhi : n ≤ c.maxSize)
    (ops : List CollOp) {s : CollState Rat} (hs : c.run (CollState.mk' l n) ops = .ok s) :
    s.elements.Perm (CollNode.ints m) ∧
    ValidCollection c.maxValue c.minSize c.maxSize (s.elements.take s.size) := by
  have hlen : l.length = m := by rw [hl.length_eq]; simp [CollNode.ints]
  have h := C06_collection_history c l n (by omega) ops
  have key : ∀ (ops : List CollOp) (p q : CollContents Rat × CollContents Rat),
      ops.foldlM (CollOp.effect c.minSize c.maxSize) p = some q →
      (p.1.elements.Perm (CollNode.ints m) ∧ c.minSize ≤ p.1.size ∧ p.1.size ≤ c.maxSize) →
      (p.2.elements.Perm (CollNode.ints m) ∧ c.minSize ≤ p.2.size ∧ p.2.size ≤ c.maxSize) →
      (q.2.elements.Perm (CollNode.ints m) ∧ c.minSize ≤ q.2.size ∧ q.2.size ≤ c.maxSize) := by
    intro ops
    induction ops with
    | nil => intro p q h h1 h2; simp at h; subst h; exact h2
    | cons op ops ih =>
      intro p q h h1 h2
      simp only [List.foldlM_cons, Option.bind_eq_bind, Option.bind_eq_some_iff] at h
      obtain ⟨r, hr, hq⟩ := h
      have := collEffect_inv c.minSize c.maxSize (CollNode.ints m) (by simp [CollNode.ints]; omega)
        hr h1 h2
      exact ih r q hq this.1 this.2
  cases he : ops.foldlM (CollOp.effect c.minSize c.maxSize)
      ((⟨l, n⟩, ⟨l, n⟩) : CollContents Rat × CollContents Rat) with
  | none => rw [he] at h; simp only at h; rw [h] at hs; simp at hs
  | some p =>
    obtain ⟨com, cur⟩ := p
    rw [he] at h
    obtain ⟨s', hs', helems, hsize, hvis, -, -⟩ := h
    rw [hs'] at hs
    simp only [Res.ok.injEq] at hs
    subst hs
    obtain ⟨hp, hlo', hhi'⟩ := key ops _ _ he ⟨hl, hlo, hhi⟩ ⟨hl, hlo, hhi⟩
    simp only at hp hlo' hhi'
    rw [helems, hsize]
    have hclen : cur.elements.length = m := by rw [hp.length_eq]; simp [CollNode.ints]
    refine ⟨hp, ?_, ?_, ?_, ?_⟩
    · exact ((hp.nodup_iff).2 (ints_nodup m)).sublist (List.take_sublist _ _)
    · intro v hv
      have := hp.mem_iff.1 (List.mem_of_mem_take hv)
      obtain ⟨k, hk, rfl⟩ := mem_ints.1 this
      exact ⟨k, by omega, rfl⟩
    · simp only [List.length_take]; omega
    · simp only [List.length_take]; omega

/-- **C05 for explicit initial contents.** If the node's constructor and the initial contents are
accepted, then after every history of moves, commits and reverts that stays in range, all elements
(visible and hidden) are a permutation of `0, ..., n-1`, and the visible ones are distinct integers
in range whose number respects the declared size bounds. -/
theorem C05_collection_explicit {n lo hi : Int} {c : CollNode} (hc : CollNode.make n lo hi = .ok c)
    {contents : List Rat} {s0 : CollState Rat} (h0 : c.initExplicit contents = .ok s0)
    (ops : List CollOp) {s : CollState Rat} (hs : c.run s0 ops = .ok s) :
    s.elements.Perm ((List.range n.toNat).map (fun i : Nat => (i : Rat))) ∧
    ValidCollection n.toNat lo.toNat hi.toNat (s.elements.take s.size) := by
  simp only [CollNode.make, guardThrow] at hc
  split at hc <;> [skip; simp at hc]
  split at hc <;> [skip; simp at hc]
  split at hc <;> [skip; simp at hc]
  simp only [Res.ok_bind, Res.pure_eq, Res.ok.injEq] at hc
  subst hc
  simp only [CollNode.initExplicit, guardThrow] at h0
  split at h0 <;> [skip; simp at h0]
  split at h0 <;> [skip; simp at h0]
  split at h0 <;> [skip; simp at h0]
  split at h0 <;> [skip; simp at h0]
  split at h0 <;> [skip; simp at h0]
  split at h0 <;> [skip; simp at h0]
  simp only [Res.ok_bind, Res.pure_eq, Res.ok.injEq] at h0
  subst h0
  rename_i hneg hle hmax hlo hhi hint hnn hlt hnd
  have hin : ∀ v ∈ contents, v ∈ CollNode.ints n.toNat := by
    intro v hv
    rw [mem_ints]
    have h1 := hint v hv
    have h2 := hnn v hv
    have h3 := hlt v hv
    have hvn : v = (v.num : Rat) := (Rat.coe_int_num_of_den_eq_one h1).symm
    have hnum : 0 ≤ v.num := by rw [Rat.num_nonneg]; exact not_lt.1 h2
    have hvk : v = ((v.num.toNat : Nat) : Rat) := by
      conv => lhs; rw [hvn]
      have : ((v.num.toNat : Nat) : Int) = v.num := Int.toNat_of_nonneg hnum
      exact_mod_cast this.symm
    refine ⟨v.num.toNat, ?_, hvk⟩
    have : v < (n.toNat : Rat) := not_le.1 h3
    rw [hvk] at this
    exact_mod_cast this
  have hperm : (contents ++ (CollNode.ints n.toNat).filter (fun i => i ∉ contents)).Perm
      (CollNode.ints n.toNat) := by
    refine (List.perm_ext_iff_of_nodup ?_ (ints_nodup _)).2 ?_
    · refine List.nodup_append'.2 ⟨hnd, (ints_nodup _).filter _, ?_⟩
      intro v hv hv'
      simp at hv'
      exact hv'.2 hv
    · intro v
      simp only [List.mem_append, List.mem_filter, decide_eq_true_eq]
      constructor
      · rintro (h | h)
        · exact hin v h
        · exact h.1
      · intro h
        by_cases hv : v ∈ contents
        · exact Or.inl hv
        · exact Or.inr ⟨h, hv⟩
  refine coll_valid_of_perm _ _ n.toNat contents.length hperm (le_refl _) ?_ ?_ ?_ ops hs
  · simp only; omega
  · simp only; omega
  · simp only; omega

/-- The hypotheses are met by a set symbol over `0..4` with sizes 1 to 3. -/
example : ∃ c s0 s, CollNode.make 5 1 3 = .ok c ∧ c.initExplicit [3, 0] = .ok s0 ∧
    c.run s0 [.grow, .exchange 0 4, .commit, .shrink] = .ok s ∧
    s.elements.take s.size = [4, 0] := by
  refine ⟨⟨5, 1, 3⟩, CollState.mk' [3, 0, 1, 2, 4] 2, _, by decide, by decide +kernel, rfl, ?_⟩
  decide +kernel

/-- Helper: the four value checks of explicit initialisation. -/
theorem int_in_range_iff {n : Nat} {v : Rat} :
    (v.den = 1 ∧ ¬ v < 0 ∧ ¬ v ≥ (n : Rat)) ↔ ∃ k : Nat, k < n ∧ v = (k : Rat) := by
  constructor
  · rintro ⟨h1, h2, h3⟩
    have hvn : v = (v.num : Rat) := (Rat.coe_int_num_of_den_eq_one h1).symm
    have hnum : 0 ≤ v.num := by rw [Rat.num_nonneg]; exact not_lt.1 h2
    have hvk : v = ((v.num.toNat : Nat) : Rat) := by
      conv => lhs; rw [hvn]
      have : ((v.num.toNat : Nat) : Int) = v.num := Int.toNat_of_nonneg hnum
      exact_mod_cast this.symm
    refine ⟨v.num.toNat, ?_, hvk⟩
    have : v < (n : Rat) := not_le.1 h3
    rw [hvk] at this
    exact_mod_cast this
  · rintro ⟨k, hk, rfl⟩
    refine ⟨rfl, not_lt.2 (by exact_mod_cast Nat.zero_le k), not_le.2 (by exact_mod_cast hk)⟩

/-- **C05: initial contents are accepted exactly when they are valid**, and are then what the
symbol shows; otherwise initialisation throws. -/
theorem C05_explicit_accepts_iff (c : CollNode) (contents : List Rat) :
    (ValidCollection c.maxValue c.minSize c.maxSize contents →
      ∃ s, c.initExplicit contents = .ok s ∧ s.elements.take s.size = contents) ∧
    (¬ ValidCollection c.maxValue c.minSize c.maxSize contents →
      c.initExplicit contents = .throw) := by
  constructor
  · rintro ⟨h1, h2, h3, h4⟩
    have h5 : ∀ v ∈ contents, v.den = 1 ∧ ¬ v < 0 ∧ ¬ v ≥ (c.maxValue : Rat) :=
      fun v hv => int_in_range_iff.2 (h2 v hv)
    refine ⟨CollState.mk' (contents ++ (CollNode.ints c.maxValue).filter (fun i => i ∉ contents))
      contents.length, ?_, by simp [CollState.mk']⟩
    unfold CollNode.initExplicit guardThrow
    rw [if_pos (by omega), if_pos (by omega), if_pos (fun v hv => (h5 v hv).1),
      if_pos (fun v hv => (h5 v hv).2.1), if_pos (fun v hv => (h5 v hv).2.2), if_pos h1]
    rfl
  · intro h
    unfold CollNode.initExplicit guardThrow
    by_cases h1 : ¬ contents.length < c.minSize
    · by_cases h2 : ¬ contents.length > c.maxSize
      · by_cases h3 : ∀ v ∈ contents, v.den = 1
        · by_cases h4 : ∀ v ∈ contents, ¬ v < 0
          · by_cases h5 : ∀ v ∈ contents, ¬ v ≥ (c.maxValue : Rat)
            · by_cases h6 : contents.Nodup
              · exact absurd ⟨h6, fun v hv => int_in_range_iff.1 ⟨h3 v hv, h4 v hv, h5 v hv⟩,
                  by omega, by omega⟩ h
              · rw [if_pos h1, if_pos h2, if_pos h3, if_pos h4, if_pos h5, if_neg h6]; rfl
            · rw [if_pos h1, if_pos h2, if_pos h3, if_pos h4, if_neg h5]; rfl
          · rw [if_pos h1, if_pos h2, if_pos h3, if_neg h4]; rfl
        · rw [if_pos h1, if_pos h2, if_neg h3]; rfl
      · rw [if_pos h1, if_neg h2]; rfl
    · rw [if_neg h1]; rfl

example : ValidCollection 5 1 3 [3, 0] :=
  ⟨by decide +kernel, by
    intro v hv
    simp only [List.mem_cons, List.not_mem_nil, or_false] at hv
    rcases hv with rfl | rfl
    · exact ⟨3, by omega, by norm_num⟩
    · exact ⟨0, by omega, by norm_num⟩, by decide, by decide⟩

/-- **C05 for default initial contents** of a list symbol (`initList`) or a set symbol
(`initSet`).  A list symbol whose maximum size is below `n` draws from `0, ..., maxSize-1` only:
see `C05_list_default_never_reaches`. -/
theorem C05_collection_default {n lo hi : Int} {c : CollNode} (hc : CollNode.make n lo hi = .ok c)
    {s0 : CollState Rat} (h0 : s0 = c.initList ∨ s0 = c.initSet)
    (ops : List CollOp) {s : CollState Rat} (hs : c.run s0 ops = .ok s) :
    (∃ m : Nat, m ≤ n.toNat ∧ s.elements.Perm ((List.range m).map (fun i : Nat => (i : Rat)))) ∧
    ValidCollection n.toNat lo.toNat hi.toNat (s.elements.take s.size) := by
  simp only [CollNode.make, guardThrow] at hc
  split at hc <;> [skip; simp at hc]
  split at hc <;> [skip; simp at hc]
  split at hc <;> [skip; simp at hc]
  simp only [Res.ok_bind, Res.pure_eq, Res.ok.injEq] at hc
  subst hc
  rename_i hneg hle hmax
  rcases h0 with rfl | rfl
  · have := coll_valid_of_perm (⟨n.toNat, lo.toNat, hi.toNat⟩ : CollNode) (CollNode.ints hi.toNat)
      hi.toNat hi.toNat (List.Perm.refl _) (by simp only; omega) (by simp only; omega)
      (by simp only; omega) (by simp only; omega) ops hs
    exact ⟨⟨hi.toNat, by omega, this.1⟩, this.2⟩
  · have := coll_valid_of_perm (⟨n.toNat, lo.toNat, hi.toNat⟩ : CollNode) (CollNode.ints n.toNat)
      n.toNat lo.toNat (List.Perm.refl _) (by simp only; omega) (by simp only; omega)
      (by simp only; omega) (by simp only; omega) ops hs
    exact ⟨⟨n.toNat, by omega, this.1⟩, this.2⟩

example : ∃ c, CollNode.make 4 0 4 = .ok c ∧
    (c.run c.initSet [.exchange 0 3, .grow, .commit]).Ensures
      (fun s => s.elements.take s.size = [3]) := by
  exact ⟨⟨4, 0, 4⟩, by decide, _, rfl, by decide +kernel⟩

/-- **Disagreement found.** A default-initialised list symbol over `0..n-1` whose maximum size is
smaller than `n` can never contain the values from its maximum size on, whatever moves are made
(the constructor of its state fills only `maxSize` elements). -/
theorem C05_list_default_never_reaches {n lo hi : Int} {c : CollNode}
    (hc : CollNode.make n lo hi = .ok c) (ops : List CollOp) {s : CollState Rat}
    (hs : c.run c.initList ops = .ok s) (k : Nat) (hk : hi ≤ k) : (k : Rat) ∉ s.elements := by
  simp only [CollNode.make, guardThrow] at hc
  split at hc <;> [skip; simp at hc]
  split at hc <;> [skip; simp at hc]
  split at hc <;> [skip; simp at hc]
  simp only [Res.ok_bind, Res.pure_eq, Res.ok.injEq] at hc
  subst hc
  rename_i hneg hle hmax
  have := coll_valid_of_perm (⟨n.toNat, lo.toNat, hi.toNat⟩ : CollNode) (CollNode.ints hi.toNat)
      hi.toNat hi.toNat (List.Perm.refl _) (by simp only; omega) (by simp only; omega)
      (by simp only; omega) (by simp only; omega) ops hs
  intro hm
  obtain ⟨j, hj, hjk⟩ := mem_ints.1 (this.1.mem_iff.1 hm)
  have : k = j := by exact_mod_cast hjk
  omega

/-- There is such a symbol: `ListNode(3, 0, 2)`, which never contains 2. -/
example : CollNode.make 3 0 2 = .ok ⟨3, 0, 2⟩ := by decide

end Verif
