import Verif.Lemmas.BitSets
import Mathlib.Algebra.BigOperators.Group.List.Basic

/-!
# C07: disjoint bit sets
-/

set_option linter.unusedSimpArgs false

namespace Verif

open BitSetsState

/-- Helper: one move. -/
theorem bitsets_run1 {N : Nat} {s : BitSetsState} {com cur com' cur' : List Nat}
    (h : Rep N s com cur) {op : BitSetsOp} (he : op.effect N (com, cur) = some (com', cur')) :
    ∃ s', s.run1 op = .ok s' ∧ Rep N s' com' cur' := by
  cases op with
  | swap f t e =>
    simp only [BitSetsOp.effect] at he
    split at he
    · rename_i hft
      split at he
      · rename_i x hx
        simp only [Option.some.injEq, Prod.mk.injEq] at he
        obtain ⟨rfl, rfl⟩ := he
        exact h.swap hft.1 hft.2 hx
      · simp at he
    · simp at he
  | commit =>
    simp only [BitSetsOp.effect, Option.some.injEq, Prod.mk.injEq] at he
    obtain ⟨rfl, rfl⟩ := he
    exact ⟨_, rfl, h.commit⟩
  | revert =>
    simp only [BitSetsOp.effect, Option.some.injEq, Prod.mk.injEq] at he
    obtain ⟨rfl, rfl⟩ := he
    exact ⟨_, rfl, h.revert⟩

theorem bitsets_run {N : Nat} : ∀ (ops : List BitSetsOp) {s : BitSetsState}
    {com cur com' cur' : List Nat}, Rep N s com cur →
    ops.foldlM (BitSetsOp.effect N) (com, cur) = some (com', cur') →
    ∃ s', s.run ops = .ok s' ∧ Rep N s' com' cur'
  | [], s, com, cur, com', cur', h, he => by
    simp at he; obtain ⟨rfl, rfl⟩ := he; exact ⟨s, rfl, h⟩
  | op :: ops, s, com, cur, com', cur', h, he => by
    simp only [List.foldlM_cons, Option.bind_eq_bind, Option.bind_eq_some_iff] at he
    obtain ⟨⟨c1, c2⟩, h1, h2⟩ := he
    obtain ⟨s1, hs1, hr1⟩ := bitsets_run1 h h1
    obtain ⟨s2, hs2, hr2⟩ := bitsets_run ops hr1 h2
    exact ⟨s2, by simpa [BitSetsState.run, List.foldlM_cons, hs1] using hs2, hr2⟩

theorem isBitPartition_bitsOf {N : Nat} {w : List Nat} (hw : ∀ x ∈ w, x < N) :
    IsBitPartition w.length ((List.range N).map (bitsOf w)) := by
  refine ⟨?_, ?_⟩
  · intro c hc
    simp only [List.mem_map] at hc
    obtain ⟨k, -, rfl⟩ := hc
    refine ⟨bitsOf_length _ _, ?_⟩
    intro v hv
    simp only [bitsOf, List.mem_map] at hv
    obtain ⟨x, -, rfl⟩ := hv
    split
    · right; rfl
    · left; rfl
  · intro e he
    refine ⟨w[e], by simpa using hw _ (List.getElem_mem he), ?_⟩
    intro j hj
    simp only [List.length_map, List.length_range] at hj
    simp [hj, bitsOf, he, eq_comm]

/-- What a user sees of a state `s` of `N` disjoint bit sets over `P` elements, if the sets are
given by the assignment `cur` and were given by `com` at the last commit. -/
structure ShowsBitSets (P N : Nat) (s : BitSetsState) (com cur : List Nat) : Prop where
  /-- each set shows the bits of its elements -/
  views : ∀ k < N, s.view k = bitsOf cur k
  /-- together they are a partition -/
  partition : IsBitPartition P ((List.range N).map s.view)
  /-- each diff is an exact edit script from the committed bits -/
  diffs : ∀ k < N, ∃ d, s.diffs[k]? = some d ∧ Replays (bitsOf com k) d (bitsOf cur k)
  /-- the set found for an element is its set -/
  finds : ∀ e x, cur[e]? = some x → s.getContaining e = .ok x

theorem containing_spec {N : Nat} {s : BitSetsState} {com cur : List Nat} (h : Rep N s com cur)
    {e x : Nat} (hx : cur[e]? = some x) : ∀ (fuel k : Nat), k + fuel = N → k ≤ x →
    s.containing e k fuel = .ok x
  | 0, k, hk, hkx => by
    have := h.lt x (List.mem_of_getElem? hx); omega
  | fuel + 1, k, hk, hkx => by
    unfold containing
    rw [h.get (by omega) hx]
    by_cases hxk : x = k
    · simp [hxk]
    · simp [hxk]
      exact containing_spec h hx fuel (k + 1) (by omega) (by omega)

theorem Rep.shows {N : Nat} {s : BitSetsState} {com cur : List Nat} (h : Rep N s com cur) :
    ShowsBitSets cur.length N s com cur := by
  have hv : ∀ k < N, s.view k = bitsOf cur k := fun k hk => h.rows k hk
  refine ⟨hv, ?_, ?_, ?_⟩
  · have : (List.range N).map s.view = (List.range N).map (bitsOf cur) := by
      apply List.map_congr_left
      intro k hk
      exact hv k (by simpa using hk)
    rw [this]
    exact isBitPartition_bitsOf h.lt
  · intro k hk
    have hd : k < s.diffs.length := by rw [h.dlen]; exact hk
    exact ⟨_, List.getElem?_eq_getElem hd, (h.diffs k hk _ (List.getElem?_eq_getElem hd)).1⟩
  · intro e x hx
    have he : e < s.primary := by rw [h.prim]; exact (List.getElem?_eq_some_iff.1 hx).1
    unfold getContaining guardUB
    simp only [he, decide_true, if_true, Res.ok_bind]
    rw [h.num]
    exact containing_spec h hx N 0 (by omega) (by omega)

theorem effect_length {N : Nat} {p q : List Nat × List Nat} {op : BitSetsOp}
    (h : op.effect N p = some q) (hp : p.1.length = p.2.length) :
    q.1.length = p.2.length ∧ q.2.length = p.2.length := by
  obtain ⟨com, cur⟩ := p
  cases op with
  | swap f t e =>
    simp only [BitSetsOp.effect] at h
    split at h
    · split at h
      · simp at h; subst h; simpa using hp
      · simp at h
    · simp at h
  | commit => simp [BitSetsOp.effect] at h; subst h; exact ⟨rfl, rfl⟩
  | revert => simp [BitSetsOp.effect] at h; subst h; exact ⟨hp, hp⟩

theorem effects_length {N : Nat} : ∀ (ops : List BitSetsOp) {p q : List Nat × List Nat},
    ops.foldlM (BitSetsOp.effect N) p = some q → p.1.length = p.2.length →
    q.2.length = p.2.length
  | [], p, q, h, hp => by simp at h; subst h; rfl
  | op :: ops, p, q, h, hp => by
    simp only [List.foldlM_cons, Option.bind_eq_bind, Option.bind_eq_some_iff] at h
    obtain ⟨r, h1, h2⟩ := h
    obtain ⟨h3, h4⟩ := effect_length h1 hp
    rw [effects_length ops h2 (by omega), h4]

/-- **C07, default initial contents** (all elements in the first set): after every history of
moves on existing sets and elements, commits and reverts, the sets shown are those the
specification says, they partition the elements, and the diffs are exact.  Reverting is one of the
operations: the specification says it restores the committed assignment. -/
theorem C07_bitsets_default (P N : Nat) (hN : 0 < N) :
    ∃ s0, BitSetsState.mkDefault P N = .ok s0 ∧
      ∀ (ops : List BitSetsOp) (com cur : List Nat),
        ops.foldlM (BitSetsOp.effect N) (List.replicate P 0, List.replicate P 0) =
          some (com, cur) →
        ∃ s, s0.run ops = .ok s ∧ ShowsBitSets P N s com cur := by
  obtain ⟨s0, h0, hr0⟩ := Rep.mkDefault (P := P) hN
  refine ⟨s0, h0, ?_⟩
  intro ops com cur he
  obtain ⟨s, hs, hr⟩ := bitsets_run ops hr0 he
  have hl := effects_length ops he rfl
  simp at hl
  exact ⟨s, hs, hl ▸ Rep.shows hr⟩

example : [BitSetsOp.swap 0 2 1, .commit, .swap 1 2 1, .swap 0 1 0, .swap 0 1 1].foldlM
    (BitSetsOp.effect 3) (List.replicate 3 0, List.replicate 3 0) =
    some ([0, 2, 0], [1, 0, 0]) := by decide

/-- Helper: a partition comes from an assignment. -/
theorem partition_assignment {P : Nat} {contents : List (List Rat)}
    (h : IsBitPartition P contents) :
    ∃ w : List Nat, w.length = P ∧ (∀ x ∈ w, x < contents.length) ∧
      contents = (List.range contents.length).map (bitsOf w) := by
  obtain ⟨h1, h2⟩ := h
  choose! f hf1 hf2 using h2
  refine ⟨(List.range P).map f, by simp, ?_, ?_⟩
  · intro x hx
    simp only [List.mem_map, List.mem_range] at hx
    obtain ⟨e, he, rfl⟩ := hx
    exact hf1 e he
  · apply List.ext_getElem (by simp)
    intro k hk hk'
    simp only [List.getElem_map, List.getElem_range]
    apply List.ext_getElem?
    intro e
    have hlen := (h1 contents[k] (List.getElem_mem hk)).1
    by_cases he : e < P
    · have := hf2 e he k hk
      rw [List.getElem?_eq_getElem hk] at this
      simp only [Option.bind_eq_bind, Option.bind_some] at this
      rw [this]
      simp [bitsOf, he, eq_comm]
    · rw [List.getElem?_eq_none (by omega), List.getElem?_eq_none (by simp [bitsOf]; omega)]

theorem sum_indicator (x : Nat) : ∀ N : Nat,
    ((List.range N).map (fun k => if x = k then 1 else 0)).sum = if x < N then 1 else 0
  | 0 => by simp
  | N + 1 => by
    rw [List.range_succ, List.map_append, List.sum_append, sum_indicator x N]
    simp only [List.map_cons, List.map_nil, List.sum_cons, List.sum_nil]
    split <;> split <;> split <;> omega

theorem count_one_bitsOf {N : Nat} : ∀ {w : List Nat}, (∀ x ∈ w, x < N) →
    ((List.range N).map (fun k => (bitsOf w k).count 1)).sum = w.length
  | [], _ => by simp [bitsOf]
  | x :: w, h => by
    have ih := count_one_bitsOf (N := N) (w := w) (fun y hy => h y (by simp [hy]))
    have hx : x < N := h x (by simp)
    have : ∀ k, (bitsOf (x :: w) k).count 1 = (bitsOf w k).count 1 + if x = k then 1 else 0 := by
      intro k
      simp only [bitsOf, List.map_cons, List.count_cons]
      by_cases hk : x = k <;> simp [hk]
    simp only [this, List.sum_map_add, ih, List.length_cons]
    congr 1
    rw [sum_indicator, if_pos hx]

/-- Helper: the state made from a partition. -/
theorem bitsets_explicit_rep (P : Nat) (contents : List (List Rat)) (hc : IsBitPartition P contents) :
    ∃ w : List Nat, w.length = P ∧ contents = (List.range contents.length).map (bitsOf w) ∧
      BitSetsState.mkExplicit P contents.length contents =
        .ok ⟨P, contents.length, contents.flatten, List.replicate contents.length []⟩ ∧
      Rep contents.length ⟨P, contents.length, contents.flatten, List.replicate contents.length []⟩ w w := by
  obtain ⟨w, hwl, hwN, hw⟩ := partition_assignment hc
  obtain ⟨h1, -⟩ := hc
  have hcount : contents.flatten.count 1 = P := by
    rw [List.count_flatten, hw, List.map_map]
    have := count_one_bitsOf hwN
    rw [hwl] at this
    exact this
  have hflat : ∀ (cs : List (List Rat)), (∀ c ∈ cs, c.length = P) →
      cs.flatten.length = cs.length * P ∧ ∀ k < cs.length, some (row P cs.flatten k) = cs[k]? := by
    intro cs
    induction cs with
    | nil => simp
    | cons c cs ih =>
      intro h
      obtain ⟨ih1, ih2⟩ := ih (fun d hd => h d (by simp [hd]))
      have hc := h c (by simp)
      refine ⟨by simp [ih1, hc, Nat.add_mul]; omega, ?_⟩
      intro k hk
      cases k with
      | zero => simp [row, List.take_append, ← hc]
      | succ k =>
        rw [List.getElem?_cons_succ, ← ih2 k (by simpa using hk)]
        simp only [row, List.flatten_cons]
        rw [List.drop_append, List.drop_eq_nil_of_le (by rw [hc, Nat.add_mul]; omega)]
        rw [show (k + 1) * P - c.length = k * P by rw [hc, Nat.add_mul]; omega]
        simp
  obtain ⟨hf1, hf2⟩ := hflat contents (fun c hc => (h1 c hc).1)
  have hs0 : BitSetsState.mkExplicit P contents.length contents =
      .ok ⟨P, contents.length, contents.flatten, List.replicate contents.length []⟩ := by
    unfold BitSetsState.mkExplicit guardThrow
    rw [if_pos rfl, if_pos (fun c hc => (h1 c hc).1), if_pos (fun c hc => (h1 c hc).2),
      if_pos hcount]
    rfl
  have hrow : ∀ k < contents.length, row P contents.flatten k = bitsOf w k := by
    intro k hk
    have h3 := hf2 k hk
    have h4 : contents[k]? = some (bitsOf w k) := by
      conv => lhs; rw [hw]
      simp [hk]
    rw [h4] at h3
    exact Option.some.inj h3
  have hr : Rep contents.length
      ⟨P, contents.length, contents.flatten, List.replicate contents.length []⟩ w w := by
    refine ⟨rfl, hf1, hwl.symm, hwl.symm, by simp, hwN, hwN, hrow, ?_⟩
    intro k hk d hd
    simp [List.getElem?_replicate] at hd
    obtain ⟨_, rfl⟩ := hd
    simp
  exact ⟨w, hwl, hw, hs0, hr⟩

/-- **C07, explicit initial contents**: every partition is accepted and shown as given, and every
history behaves as specified. -/
theorem C07_bitsets_explicit (P : Nat) (contents : List (List Rat))
    (hc : IsBitPartition P contents) :
    ∃ s0 w, BitSetsState.mkExplicit P contents.length contents = .ok s0 ∧
      (List.range contents.length).map s0.view = contents ∧
      contents = (List.range contents.length).map (bitsOf w) ∧
      ∀ (ops : List BitSetsOp) (com cur : List Nat),
        ops.foldlM (BitSetsOp.effect contents.length) (w, w) = some (com, cur) →
        ∃ s, s0.run ops = .ok s ∧ ShowsBitSets P contents.length s com cur := by
  obtain ⟨w, hwl, hw, hs0, hr⟩ := bitsets_explicit_rep P contents hc
  refine ⟨_, w, hs0, ?_, hw, ?_⟩
  · conv => rhs; rw [hw]
    apply List.map_congr_left
    intro k hk
    exact hr.rows k (by simpa using hk)
  · intro ops com cur he
    obtain ⟨s, hs, hr'⟩ := bitsets_run ops hr he
    have hl := effects_length ops he rfl
    simp at hl
    exact ⟨s, hs, by rw [← hwl, ← hl]; exact Rep.shows hr'⟩

example : IsBitPartition 3 [[1, 0, 0], [0, 1, 1]] := by
  have := isBitPartition_bitsOf (N := 2) (w := [0, 1, 1]) (by decide)
  simpa [bitsOf, List.range_succ] using this

/-- **C07, rejection (part).** Contents of the wrong number or length, with other values than 0
and 1, or with a wrong total number of members are rejected. -/
theorem C07_bitsets_rejects_partial (P N : Nat) (contents : List (List Rat))
    (h : ¬ (contents.length = N ∧ (∀ c ∈ contents, c.length = P) ∧
      (∀ c ∈ contents, ∀ v ∈ c, v = 0 ∨ v = 1) ∧ contents.flatten.count 1 = P)) :
    BitSetsState.mkExplicit P N contents = .throw := by
  unfold BitSetsState.mkExplicit guardThrow
  by_cases h1 : contents.length = N
  · by_cases h2 : ∀ c ∈ contents, c.length = P
    · by_cases h3 : ∀ c ∈ contents, ∀ v ∈ c, v = 0 ∨ v = 1
      · by_cases h4 : contents.flatten.count 1 = P
        · exact absurd ⟨h1, h2, h3, h4⟩ h
        · rw [if_pos h1, if_pos h2, if_pos h3, if_neg h4]; rfl
      · rw [if_pos h1, if_pos h2, if_neg h3]; rfl
    · rw [if_pos h1, if_neg h2]; rfl
  · rw [if_neg h1]; rfl

/-- **C07 fails for explicit initial contents**: two sets over two elements, both containing
element 0 and none containing element 1, are accepted. -/
theorem C07_bitsets_rejects_fails :
    ∃ s, BitSetsState.mkExplicit 2 2 [[1, 0], [1, 0]] = .ok s ∧
      ¬ IsBitPartition 2 [[1, 0], [1, 0]] := by
  refine ⟨⟨2, 2, [1, 0, 1, 0], [[], []]⟩, by decide +kernel, ?_⟩
  rintro ⟨-, h⟩
  obtain ⟨k, hk, h⟩ := h 1 (by omega)
  simp at hk
  have := h k (by simpa using hk)
  have hk' : k = 0 ∨ k = 1 := by omega
  rcases hk' with rfl | rfl <;> simp at this

end Verif
