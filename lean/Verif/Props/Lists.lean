import Verif.Lemmas.Lists
import Verif.Props.Collection

/-!
# C08: disjoint lists
-/

set_option linter.unusedSimpArgs false
set_option linter.unusedSectionVars false

namespace Verif

open Lists

variable {α : Type _} [DecidableEq α] [Inhabited α]

/-- Helper: one move. -/
theorem lists_run1 {s : List (ArrayState α)} {com cur : List (List α)} (h : LRep s com cur)
    (op : ListsOp α) :
    match op.effect (com, cur) with
    | some (com', cur') => ∃ s', Lists.run1 s op = .ok s' ∧ LRep s' com' cur'
    | none => Lists.run1 s op = .ub := by
  cases op with
  | rotate k d e =>
    simp only [ListsOp.effect, ListsOp.effect1, Lists.run1]
    cases hl : cur[k]? with
    | none => simp [h.none hl, Lists.modify]
    | some l =>
      obtain ⟨x, c, hx, hc, hr⟩ := h.at hl
      by_cases hed : e = d
      · simp only [hed, if_true, Option.bind_eq_bind, Option.bind_some, Option.map_some, hx]
        exact ⟨s, rfl, h⟩
      · simp only [hed, if_false, Option.bind_eq_bind, Option.bind_some]
        by_cases hd : d < l.length
        · cases ha : l[e]? with
          | none =>
            simp [hd, Lists.modify, hx, Lists.rotate, hr.buf, ha]
          | some a =>
            simp only [hd, if_true, Option.bind_some, Option.map_some]
            exact h.modify hl (fun x c hr => rotate_rep hr hed hd ha)
        · simp [hd, Lists.modify, hx, Lists.rotate, hr.buf]
  | swap k i j =>
    simp only [ListsOp.effect, ListsOp.effect1, Lists.run1]
    cases hl : cur[k]? with
    | none => simp [h.none hl, Lists.modify]
    | some l =>
      obtain ⟨x, c, hx, hc, hr⟩ := h.at hl
      by_cases hij : i = j
      · simp only [hij, if_true, Option.bind_eq_bind, Option.bind_some, Option.map_some, hx]
        exact ⟨s, rfl, h⟩
      · simp only [hij, if_false, Option.bind_eq_bind, Option.bind_some]
        cases ha : l[i]? with
        | none => simp [Lists.modify, hx, Lists.swap, hr.buf, ha]
        | some a =>
          cases hb : l[j]? with
          | none => simp [Lists.modify, hx, Lists.swap, hr.buf, ha, hb]
          | some b =>
            simp only [Option.bind_some, Option.map_some]
            exact h.modify hl (fun x c hr => swap_rep hr hij ha hb)
  | pop f i t j =>
    simp only [ListsOp.effect, ListsOp.effect1, Lists.run1, popToList]
    cases hl : cur[f]? with
    | none => simp [h.none hl]
    | some l =>
      obtain ⟨x, c, hx, hc, hr⟩ := h.at hl
      cases hm : cur[t]? with
      | none => simp [h.none hm]
      | some m =>
        obtain ⟨y, c', hy, hc', hr'⟩ := h.at hm
        simp only [Option.bind_eq_bind, Option.bind_some, hx, hy, hr.buf, hr'.buf]
        cases ha : l[i]? with
        | none => simp
        | some a =>
          simp only [Option.bind_some]
          by_cases hj : j ≤ m.length
          · have hi : i < l.length := (List.getElem?_eq_some_iff.1 ha).1
            simp only [hj, if_true]
            obtain ⟨s1, hs1, hr1⟩ := h.modify (l' := l.eraseIdx i) hl (fun x c hr => popFrom_rep hr hi)
            have ht : t < (cur.set f (l.eraseIdx i)).length := by
              have := (List.getElem?_eq_some_iff.1 hm).1; simpa using this
            obtain ⟨s2, hs2, hr2⟩ := hr1.modify
              (l' := ((cur.set f (l.eraseIdx i))[t]).insertIdx
                (min j ((cur.set f (l.eraseIdx i))[t]).length) a)
              (List.getElem?_eq_getElem ht) (fun x c hr => insertTo_rep hr j a)
            simp only [List.getElem?_eq_getElem ht, Option.bind_some, Option.map_some, hs1,
              Res.ok_bind, hs2]
            exact ⟨s2, rfl, hr2⟩
          · simp [hj]
  | setState k vs =>
    simp only [ListsOp.effect, ListsOp.effect1, Lists.run1]
    cases hl : cur[k]? with
    | none => simp [h.none hl, Lists.modify]
    | some l =>
      simp only [Option.bind_eq_bind, Option.bind_some, Option.map_some]
      exact h.modify hl (fun x c hr => ⟨_, rfl, hr.assign vs⟩)
  | commit =>
    refine ⟨_, rfl, h.map ?_ rfl ?_⟩
    · rw [h.lenc, h.lens]
    · intro k x c u c' u' hr h1 h2 h3 h4
      rw [h2] at h3 h4; simp only [Option.some.injEq] at h3 h4; subst h3 h4
      exact commit1_rep hr
  | revert =>
    refine ⟨_, rfl, h.map rfl ?_ ?_⟩
    · rw [h.lenc, h.lens]
    · intro k x c u c' u' hr h1 h2 h3 h4
      rw [h1] at h3 h4; simp only [Option.some.injEq] at h3 h4; subst h3 h4
      exact revert1_rep hr

theorem lists_run {ops : List (ListsOp α)} : ∀ {s : List (ArrayState α)} {com cur : List (List α)},
    LRep s com cur →
    match ops.foldlM ListsOp.effect (com, cur) with
    | some (com', cur') => ∃ s', Lists.run s ops = .ok s' ∧ LRep s' com' cur'
    | none => Lists.run s ops = .ub := by
  induction ops with
  | nil => intro s com cur h; exact ⟨s, rfl, h⟩
  | cons op ops ih =>
    intro s com cur h
    have h1 := lists_run1 h op
    simp only [List.foldlM_cons, Lists.run]
    cases he : op.effect (com, cur) with
    | none => simp only [he] at h1; simp [h1]
    | some p =>
      obtain ⟨com', cur'⟩ := p
      simp only [he] at h1
      obtain ⟨s', hs', hr'⟩ := h1
      simpa [hs', Lists.run] using ih hr'

/-- What a user sees: every list's elements, size and diff, when the lists are `cur` and were
`com` at the last commit. -/
structure ShowsLists (s : List (ArrayState α)) (com cur : List (List α)) : Prop where
  lists : s.map (fun x => x.buffer) = cur
  lenc : com.length = cur.length
  diffs : ∀ (k : Nat) x c u, s[k]? = some x → com[k]? = some c → cur[k]? = some u →
    Replays c x.updates u ∧ x.sizeDiff = (u.length : Int) - c.length

theorem LRep.shows {s : List (ArrayState α)} {com cur : List (List α)} (h : LRep s com cur) :
    ShowsLists s com cur := by
  refine ⟨?_, by rw [h.lenc, h.lens], ?_⟩
  · apply List.ext_getElem?
    intro k
    cases hk : cur[k]? with
    | none => simp [h.none hk]
    | some l =>
      obtain ⟨x, c, hx, hc, hr⟩ := h.at hk
      simp [hx, hr.buf]
  · intro k x c u h1 h2 h3
    have := h.reps k x c u h1 h2 h3
    exact ⟨this.rep, by simp [ArrayState.sizeDiff, this.buf, this.prev]⟩

/-- **C08, histories.** For all initial lists and all histories of moves, bulk assignments,
commits and reverts: allowed histories succeed and show exactly the specified lists with exact
diffs and size differences; a move outside the allowed range is undefined. -/
theorem C08_lists_history (lists : List (List α)) (ops : List (ListsOp α)) :
    match ops.foldlM ListsOp.effect (lists, lists) with
    | some (com, cur) =>
      ∃ s, Lists.run (lists.map ArrayState.mk') ops = .ok s ∧ ShowsLists s com cur
    | none => Lists.run (lists.map ArrayState.mk') ops = .ub := by
  have h : LRep (lists.map ArrayState.mk') lists lists := by
    refine ⟨by simp, by simp, ?_⟩
    intro k x c u h1 h2 h3
    rw [h2] at h3
    simp only [List.getElem?_map, h2, Option.map_some, Option.some.injEq] at h1 h3
    subst h1 h3
    exact ArrayState.Rep.mk'_ c
  have := lists_run (ops := ops) h
  split at this
  · rename_i he
    obtain ⟨s, hs, hr⟩ := this
    exact ⟨s, hs, LRep.shows hr⟩
  · exact this

example : [ListsOp.pop 0 1 1 0, .commit, .rotate 0 0 1, .pop 1 0 0 2, .swap 0 0 1,
    .pop 0 0 0 2].foldlM
    ListsOp.effect ([[10, 11, 12], []], [[10, 11, 12], []]) =
    some ([[10, 12], [11]], [[12, 11, 10], []]) := by decide

/-! ### The partition is kept -/

omit [DecidableEq α] [Inhabited α] in
theorem flatten_set_perm : ∀ {L : List (List α)} {k : Nat} {l : List α}, L[k]? = some l →
    ∃ R, (∀ l', (L.set k l').flatten.Perm (l' ++ R))
  | [], k, l, h => by simp at h
  | m :: L, 0, l, h => ⟨L.flatten, fun l' => by simp⟩
  | m :: L, k + 1, l, h => by
    obtain ⟨R, hR⟩ := flatten_set_perm (L := L) (k := k) (l := l) (by simpa using h)
    refine ⟨m ++ R, fun l' => ?_⟩
    simp only [List.set_cons_succ, List.flatten_cons]
    exact ((hR l').append_left m).trans (List.perm_append_comm_assoc _ _ _)

omit [DecidableEq α] [Inhabited α] in
theorem flatten_replace {L : List (List α)} {k : Nat} {l l' : List α} (h : L[k]? = some l)
    (hp : l'.Perm l) : (L.set k l').flatten.Perm L.flatten := by
  obtain ⟨R, hR⟩ := flatten_set_perm h
  have h1 := hR l'
  have h2 := hR l
  have : L.set k l = L := by
    apply List.ext_getElem?; intro i
    rw [List.getElem?_set]
    split
    · rename_i hi; subst hi
      have := List.getElem?_eq_some_iff.1 h
      simp [this.1, this.2]
    · rfl
  rw [this] at h2
  exact h1.trans ((hp.append_right R).trans h2.symm)

/-- Is this a bulk assignment? -/
def ListsOp.isBulk : ListsOp α → Bool
  | .setState _ _ => true
  | _ => false

omit [DecidableEq α] [Inhabited α] in
theorem effect1_perm {cur cur' : List (List α)} {op : ListsOp α} (hb : op.isBulk = false)
    (h : op.effect1 cur = some cur') : cur'.flatten.Perm cur.flatten := by
  cases op with
  | rotate k d e =>
    simp only [ListsOp.effect1, Option.bind_eq_bind, Option.bind_eq_some_iff] at h
    obtain ⟨l, hl, h⟩ := h
    split at h
    · simp at h; subst h; exact List.Perm.refl _
    · split at h
      · rename_i hed hd
        simp only [Option.bind_eq_some_iff, Option.some.injEq] at h
        obtain ⟨a, ha, rfl⟩ := h
        apply flatten_replace hl
        obtain ⟨he, hea⟩ := List.getElem?_eq_some_iff.1 ha
        subst hea
        have hle : (l.eraseIdx e).length = l.length - 1 := by rw [List.length_eraseIdx, if_pos he]
        exact (List.perm_insertIdx _ _ (by omega)).trans (List.getElem_cons_eraseIdx_perm he)
      · simp at h
  | swap k i j =>
    simp only [ListsOp.effect1, Option.bind_eq_bind, Option.bind_eq_some_iff] at h
    obtain ⟨l, hl, h⟩ := h
    split at h
    · simp at h; subst h; exact List.Perm.refl _
    · simp only [Option.bind_eq_some_iff, Option.some.injEq] at h
      obtain ⟨a, ha, b, hb, rfl⟩ := h
      apply flatten_replace hl
      obtain ⟨hi, hia⟩ := List.getElem?_eq_some_iff.1 ha
      obtain ⟨hj, hjb⟩ := List.getElem?_eq_some_iff.1 hb
      subst hia hjb
      exact List.set_set_perm hi hj
  | pop f i t j =>
    simp only [ListsOp.effect1, Option.bind_eq_bind, Option.bind_eq_some_iff] at h
    obtain ⟨l, hl, m, hm, a, ha, h⟩ := h
    split at h
    · simp only [Option.bind_eq_some_iff, Option.some.injEq] at h
      obtain ⟨m', hm', rfl⟩ := h
      obtain ⟨R, hR⟩ := flatten_set_perm hm'
      have h1 := hR (m'.insertIdx (min j m'.length) a)
      have h2 := hR m'
      have hself : (cur.set f (l.eraseIdx i)).set t m' = cur.set f (l.eraseIdx i) := by
        apply List.ext_getElem?; intro n
        by_cases hn : t = n
        · subst hn
          rw [List.getElem?_set_self (List.getElem?_eq_some_iff.1 hm').1, hm']
        · rw [List.getElem?_set_ne hn]
      rw [hself] at h2
      have h3 : (m'.insertIdx (min j m'.length) a).Perm (a :: m') :=
        List.perm_insertIdx _ _ (by omega)
      obtain ⟨hi, hia⟩ := List.getElem?_eq_some_iff.1 ha
      subst hia
      obtain ⟨R', hR'⟩ := flatten_set_perm hl
      have h4 := hR' (l.eraseIdx i)
      have h5 := hR' l
      have hself' : cur.set f l = cur := by
        apply List.ext_getElem?; intro n
        by_cases hn : f = n
        · subst hn
          rw [List.getElem?_set_self (List.getElem?_eq_some_iff.1 hl).1, hl]
        · rw [List.getElem?_set_ne hn]
      rw [hself'] at h5
      refine h1.trans ((h3.append_right R).trans ?_)
      rw [List.cons_append]
      refine ((h2.symm.trans h4).cons _).trans ?_
      rw [← List.cons_append]
      exact ((List.getElem_cons_eraseIdx_perm hi).append_right R').trans h5.symm
    · simp at h
  | setState k vs => simp [ListsOp.isBulk] at hb
  | commit => simp [ListsOp.effect1] at h; subst h; exact List.Perm.refl _
  | revert => simp [ListsOp.effect1] at h; subst h; exact List.Perm.refl _

omit [DecidableEq α] [Inhabited α] in
theorem effect_perm {p q : List (List α) × List (List α)} {op : ListsOp α} {u : List α}
    (hb : op.isBulk = false) (h : op.effect p = some q) (h1 : p.1.flatten.Perm u)
    (h2 : p.2.flatten.Perm u) : q.1.flatten.Perm u ∧ q.2.flatten.Perm u := by
  obtain ⟨com, cur⟩ := p
  have key : ∀ (c : List (List α)), op.effect1 cur = some c → c.flatten.Perm u :=
    fun c hc => (effect1_perm hb hc).trans h2
  cases op with
  | commit => simp [ListsOp.effect] at h; subst h; exact ⟨h2, h2⟩
  | revert => simp [ListsOp.effect] at h; subst h; exact ⟨h1, h1⟩
  | setState => simp [ListsOp.isBulk] at hb
  | rotate | swap | pop =>
    simp only [ListsOp.effect, Option.map_eq_some_iff] at h
    obtain ⟨c, hc, rfl⟩ := h
    exact ⟨h1, key c hc⟩

/-- **C08, partition.** Take any history `ops1` (which may include bulk assignments) after which
the committed and the current lists both contain each of `0, ..., n-1` exactly once - the empty
history from a valid initialisation is one.  Then every continuation by swaps, rotations, pops,
commits and reverts keeps it so.  (Bulk assignment of single lists is the one operation which can
break this in between; the code leaves it to the caller.) -/
theorem C08_lists_partition (n : Nat) (lists com cur : List (List Rat)) (ops1 ops2 : List (ListsOp Rat))
    (h0 : ops1.foldlM ListsOp.effect (lists, lists) = some (com, cur))
    (h1 : com.flatten.Perm ((List.range n).map (fun i : Nat => (i : Rat))))
    (h2 : cur.flatten.Perm ((List.range n).map (fun i : Nat => (i : Rat))))
    (hb : ∀ op ∈ ops2, op.isBulk = false) {s : List (ArrayState Rat)}
    (hr : Lists.run (lists.map ArrayState.mk') (ops1 ++ ops2) = .ok s) :
    (s.map (fun x => x.buffer)).flatten.Perm ((List.range n).map (fun i : Nat => (i : Rat))) := by
  have hrun := C08_lists_history lists (ops1 ++ ops2)
  have key : ∀ (ops : List (ListsOp Rat)) (p q : List (List Rat) × List (List Rat)),
      (∀ op ∈ ops, op.isBulk = false) → ops.foldlM ListsOp.effect p = some q →
      p.1.flatten.Perm (CollNode.ints n) → p.2.flatten.Perm (CollNode.ints n) →
      q.2.flatten.Perm (CollNode.ints n) := by
    intro ops
    induction ops with
    | nil => intro p q _ h h1 h2; simp at h; subst h; exact h2
    | cons op ops ih =>
      intro p q hb h h1 h2
      simp only [List.foldlM_cons, Option.bind_eq_bind, Option.bind_eq_some_iff] at h
      obtain ⟨r, hr, hq⟩ := h
      obtain ⟨h3, h4⟩ := effect_perm (hb op (by simp)) hr h1 h2
      exact ih r q (fun o ho => hb o (by simp [ho])) hq h3 h4
  split at hrun
  · rename_i he
    obtain ⟨s2, hs2, hr2⟩ := hrun
    rw [hs2] at hr
    simp only [Res.ok.injEq] at hr
    subst hr
    rw [hr2.lists]
    rw [List.foldlM_append, h0] at he
    exact key ops2 _ _ hb he h1 h2
  · rw [hrun] at hr; simp at hr

/-- **C08, from initialisation.** Contents are accepted exactly when they are the right number of
lists which together contain each of `0, ..., n-1` exactly once; otherwise initialisation throws. -/
theorem C08_lists_explicit (P N : Nat) (lists : List (List Rat)) :
    (lists.length = N ∧ lists.flatten.Perm ((List.range P).map (fun i : Nat => (i : Rat))) →
      Lists.mkExplicit P N lists = .ok (lists.map ArrayState.mk')) ∧
    (¬ (lists.length = N ∧ lists.flatten.Perm ((List.range P).map (fun i : Nat => (i : Rat)))) →
      Lists.mkExplicit P N lists = .throw) := by
  constructor
  · rintro ⟨h1, h2⟩
    have hnd : lists.flatten.Nodup := h2.nodup_iff.2 (ints_nodup P)
    have hlen : lists.flatten.length = P := by rw [h2.length_eq]; simp
    have hin : ∀ v ∈ lists.flatten, v.den = 1 ∧ ¬ v < 0 ∧ ¬ v ≥ (P : Rat) := by
      intro v hv
      exact int_in_range_iff.2 (mem_ints.1 (h2.mem_iff.1 hv))
    unfold Lists.mkExplicit guardThrow
    rw [if_pos h1, if_pos (fun v hv => ⟨(hin v hv).2.1, (hin v hv).1⟩),
      if_pos (fun v hv => (hin v hv).2.2), if_pos hnd, if_pos hlen]
    rfl
  · intro h
    unfold Lists.mkExplicit guardThrow
    by_cases h1 : lists.length = N
    · by_cases h2 : ∀ v ∈ lists.flatten, ¬ v < 0 ∧ v.den = 1
      · by_cases h3 : ∀ v ∈ lists.flatten, ¬ v ≥ (P : Rat)
        · by_cases h4 : lists.flatten.Nodup
          · by_cases h5 : lists.flatten.length = P
            · exfalso; apply h; refine ⟨h1, ?_⟩
              have hsub : lists.flatten ⊆ CollNode.ints P := by
                intro v hv
                exact mem_ints.2 (int_in_range_iff.1 ⟨(h2 v hv).2, (h2 v hv).1, h3 v hv⟩)
              have := List.subperm_of_subset h4 hsub
              exact this.perm_of_length_le (by simp [CollNode.ints, h5])
            · rw [if_pos h1, if_pos h2, if_pos h3, if_pos h4, if_neg h5]; rfl
          · rw [if_pos h1, if_pos h2, if_pos h3, if_neg h4]; rfl
        · rw [if_pos h1, if_pos h2, if_neg h3]; rfl
      · rw [if_pos h1, if_neg h2]; rfl
    · rw [if_neg h1]; rfl

/-- Default initialisation puts `0, ..., n-1` into the first list and leaves the others empty. -/
theorem C08_lists_default (P N : Nat) (hN : 0 < N) :
    ∃ lists : List (List Rat), lists.length = N ∧
      Lists.mkDefault P N = .ok (lists.map ArrayState.mk') ∧
      lists.flatten = (List.range P).map (fun i : Nat => (i : Rat)) := by
  obtain ⟨n, rfl⟩ : ∃ n, N = n + 1 := ⟨N - 1, by omega⟩
  refine ⟨(List.range P).map (fun i : Nat => (i : Rat)) :: List.replicate n [], by simp,
    by simp [Lists.mkDefault], by simp⟩

example : ([[2, 0], [], [1]] : List (List Nat)).flatten.Perm (List.range 3) := by decide

end Verif
