import Verif.Model.Disjoint
import Verif.Lemmas.ArrayState
import Mathlib.Data.List.Basic
import Mathlib.Data.List.InsertIdx

set_option linter.unusedSectionVars false
set_option linter.unusedSimpArgs false

/-! Helper lemmas: the state of disjoint lists refines (committed lists, current lists). -/

namespace Verif
namespace Lists

open ArrayState

variable {α : Type _} [DecidableEq α]

theorem rep_write {s : ArrayState α} {com cur} (h : Rep s com cur) {i : Nat} {e p : α}
    (he : cur[i]? = some e) :
    Rep { s with buffer := cur.set i p, updates := s.updates ++ [Update.change i e p] } com
      (cur.set i p) :=
  ⟨rfl, h.prev, h.rep.snoc (step_change he)⟩

theorem rotateStep_rep {s : ArrayState α} {com cur} (h : Rep s com cur) {i : Nat} {e p : α}
    (he : cur[i]? = some e) :
    ∃ s', rotateStep (s, p) i = .ok (s', e) ∧ Rep s' com (cur.set i p) := by
  refine ⟨_, ?_, rep_write h (p := p) he⟩
  unfold rotateStep; simp [h.buf, he]

theorem rotateUp : ∀ (k : Nat) {s : ArrayState α} {com cur : List α} {d : Nat} {p : α},
    Rep s com cur → d + k ≤ cur.length →
    ∃ s' l' q, (List.range' d k).foldlM rotateStep (s, p) = .ok (s', q) ∧
      Rep s' com l' ∧ l'.length = cur.length ∧
      (∀ j, l'[j]? = if d ≤ j ∧ j < d + k then (if j = d then some p else cur[j - 1]?)
        else cur[j]?)
  | 0, s, com, cur, d, p, h, _ => by
    refine ⟨s, cur, p, rfl, h, rfl, ?_⟩
    intro j; rw [if_neg (by omega)]
  | k + 1, s, com, cur, d, p, h, hk => by
    have hd : d < cur.length := by omega
    obtain ⟨s1, h1, hr1⟩ := rotateStep_rep h (i := d) (p := p) (e := cur[d]) (by simp [hd])
    obtain ⟨s2, l2, q, h2, hr2, hlen, hl2⟩ := rotateUp k (d := d + 1) (p := cur[d]) hr1
      (by simp; omega)
    refine ⟨s2, l2, q, ?_, hr2, by simpa using hlen, ?_⟩
    · rw [List.range'_succ, List.foldlM_cons, h1]; exact h2
    · intro j
      rw [hl2 j]
      simp only [List.getElem?_set]
      grind

theorem rotateDown : ∀ (k : Nat) {s : ArrayState α} {com cur : List α} {d : Nat} {p : α},
    Rep s com cur → d + k ≤ cur.length →
    ∃ s' l' q, (List.range' d k).reverse.foldlM rotateStep (s, p) = .ok (s', q) ∧
      Rep s' com l' ∧ l'.length = cur.length ∧
      (∀ j, l'[j]? = if d ≤ j ∧ j < d + k then
        (if j + 1 = d + k then some p else cur[j + 1]?) else cur[j]?)
  | 0, s, com, cur, d, p, h, _ => by
    refine ⟨s, cur, p, rfl, h, rfl, ?_⟩
    intro j; rw [if_neg (by omega)]
  | k + 1, s, com, cur, d, p, h, hk => by
    have hd : d + k < cur.length := by omega
    obtain ⟨s1, h1, hr1⟩ := rotateStep_rep h (i := d + k) (p := p) (e := cur[d + k]) (by simp [hd])
    obtain ⟨s2, l2, q, h2, hr2, hlen, hl2⟩ := rotateDown k (d := d) (p := cur[d + k]) hr1
      (by simp; omega)
    refine ⟨s2, l2, q, ?_, hr2, by simpa using hlen, ?_⟩
    · rw [List.range'_concat, List.reverse_append, List.reverse_singleton, List.singleton_append,
        List.foldlM_cons, Nat.one_mul, h1]; exact h2
    · intro j
      rw [hl2 j]
      simp only [List.getElem?_set]
      grind

theorem rotate_rep {s : ArrayState α} {com cur} (h : Rep s com cur) {dest src : Nat} {a : α}
    (hne : src ≠ dest) (hd : dest < cur.length) (ha : cur[src]? = some a) :
    ∃ s', rotate s dest src = .ok s' ∧ Rep s' com ((cur.eraseIdx src).insertIdx dest a) := by
  have hs : src < cur.length := (List.getElem?_eq_some_iff.1 ha).1
  have hle : (cur.eraseIdx src).length = cur.length - 1 := by
    rw [List.length_eraseIdx]; rw [if_pos (by omega)]
  unfold rotate
  rw [h.buf, if_pos hd, ha]
  by_cases hlt : dest < src
  · obtain ⟨s', l', q, h1, h2, h3, h4⟩ := rotateUp (src - dest + 1) (d := dest) (p := a) h (by omega)
    refine ⟨s', by simp only [hlt, if_true, h1]; rfl, ?_⟩
    have : l' = (cur.eraseIdx src).insertIdx dest a := by
      apply List.ext_getElem?
      intro j
      rw [h4 j, List.getElem?_insertIdx, List.getElem?_eraseIdx, List.getElem?_eraseIdx, hle]
      rcases Nat.lt_trichotomy j dest with hj | rfl | hj
      · rw [if_neg (by omega), if_pos hj, if_pos (by omega)]
      · rw [if_pos (by omega), if_pos rfl, if_neg (by omega), if_pos rfl, if_pos (by omega)]
      · by_cases hj2 : j ≤ src
        · rw [if_pos (by omega), if_neg (by omega), if_neg (by omega), if_neg (by omega),
            if_pos (by omega)]
        · rw [if_neg (by omega), if_neg (by omega), if_neg (by omega), if_neg (by omega)]
          congr 1; omega
    rw [← this]; exact h2
  · have hgt : src < dest := by omega
    obtain ⟨s', l', q, h1, h2, h3, h4⟩ := rotateDown (dest - src + 1) (d := src) (p := a) h (by omega)
    refine ⟨s', by simp only [hlt, hgt, if_true, if_false, h1]; rfl, ?_⟩
    have : l' = (cur.eraseIdx src).insertIdx dest a := by
      apply List.ext_getElem?
      intro j
      rw [h4 j, List.getElem?_insertIdx, List.getElem?_eraseIdx, List.getElem?_eraseIdx, hle]
      rcases Nat.lt_trichotomy j dest with hj | rfl | hj
      · rw [if_pos hj]
        by_cases hj2 : j < src
        · rw [if_neg (by omega), if_pos hj2]
        · rw [if_pos (by omega), if_neg (by omega), if_neg hj2]
      · rw [if_pos (by omega), if_pos (by omega), if_neg (by omega), if_pos rfl, if_pos (by omega)]
      · rw [if_neg (by omega), if_neg (by omega), if_neg (by omega), if_neg (by omega)]
        congr 1; omega
    rw [← this]; exact h2

theorem swap_rep {s : ArrayState α} {com cur} (h : Rep s com cur) {i j : Nat} {a b : α}
    (hij : i ≠ j) (ha : cur[i]? = some a) (hb : cur[j]? = some b) :
    ∃ s', swap s i j = .ok s' ∧ Rep s' com ((cur.set i b).set j a) := by
  refine ⟨{ s with
      buffer := (cur.set i b).set j a
      updates := s.updates ++ [Update.change i a b] ++ [Update.change j b a] }, ?_, rfl, h.prev, ?_⟩
  · unfold swap; simp [h.buf, ha, hb]
  · refine (h.rep.snoc (step_change ha)).snoc (step_change ?_)
    rw [List.getElem?_set_ne hij]; exact hb

/-- First loop of `pop_to_list`. -/
theorem popLoop : ∀ (k : Nat) {s : ArrayState α} {com cur : List α} {i : Nat},
    Rep s com cur → i + k < cur.length →
    ∃ s' l', (List.range' i k).foldlM popStep s = .ok s' ∧ Rep s' com l' ∧
      l'.length = cur.length ∧
      (∀ j, l'[j]? = if i ≤ j ∧ j < i + k then cur[j + 1]? else cur[j]?)
  | 0, s, com, cur, i, h, _ => by
    refine ⟨s, cur, rfl, h, rfl, ?_⟩
    intro j; rw [if_neg (by omega)]
  | k + 1, s, com, cur, i, h, hk => by
    have h1 : i < cur.length := by omega
    have h2 : i + 1 < cur.length := by omega
    have hr1 := rep_write h (i := i) (e := cur[i]) (p := cur[i + 1]) (by simp [h1])
    obtain ⟨s2, l2, h3, hr2, hlen, hl2⟩ := popLoop k (i := i + 1) hr1 (by simp; omega)
    refine ⟨s2, l2, ?_, hr2, by simpa using hlen, ?_⟩
    · rw [List.range'_succ, List.foldlM_cons]
      have : popStep s i = .ok { s with
        buffer := cur.set i cur[i + 1], updates := s.updates ++ [Update.change i cur[i] cur[i + 1]] } := by
        unfold popStep; simp [h.buf, h1, h2]
      rw [this]; exact h3
    · intro j
      rw [hl2 j]
      simp only [List.getElem?_set]
      grind

theorem popFrom_rep {s : ArrayState α} {com cur} (h : Rep s com cur) {i : Nat}
    (hi : i < cur.length) :
    ∃ s', popFrom s i = .ok s' ∧ Rep s' com (cur.eraseIdx i) := by
  obtain ⟨s1, l1, h1, hr1, hlen, hl1⟩ := popLoop (cur.length - 1 - i) h (i := i) (by omega)
  have hlast : cur.length - 1 < l1.length := by omega
  have hdl : l1.dropLast = cur.eraseIdx i := by
    apply List.ext_getElem?
    intro j
    rw [List.dropLast_eq_take, List.getElem?_take, hl1 j, List.getElem?_eraseIdx, hlen]
    by_cases hj : j < cur.length - 1
    · rw [if_pos hj]
      by_cases hj2 : j < i
      · rw [if_neg (by omega), if_pos hj2]
      · rw [if_pos (by omega), if_neg hj2]
    · rw [if_neg hj, if_neg (by omega)]
      symm; apply List.getElem?_eq_none; omega
  refine ⟨{ s1 with
      updates := s1.updates ++ [Update.removal (cur.length - 1) l1[cur.length - 1]]
      buffer := cur.eraseIdx i }, ?_, rfl, hr1.prev, ?_⟩
  · unfold popFrom
    simp only [h.buf, h1, Res.ok_bind, hr1.buf, List.getElem?_eq_getElem hlast, hdl]
  · refine hr1.rep.snoc ?_
    have hsplit : l1 = l1.dropLast ++ [l1[cur.length - 1]] := by
      have hne : l1 ≠ [] := by intro h; simp [h] at hlast
      conv => lhs; rw [← List.dropLast_concat_getLast hne]
      rw [List.getLast_eq_getElem]
      simp [hlen]
    have hl' : l1.dropLast.length = cur.length - 1 := by simp [hlen]
    rw [← hdl]
    generalize l1[cur.length - 1] = v at hsplit
    rw [← hl']
    generalize l1.dropLast = d at hsplit
    subst hsplit
    exact step_removal

/-- Second loop of `pop_to_list`. -/
theorem insertLoop : ∀ (k : Nat) {s : ArrayState α} {com cur : List α} {d : Nat} {p : α},
    Rep s com cur → d + k = cur.length →
    ∃ s' l' q, (List.range' d k).foldlM insertStep (s, p) = .ok (s', q) ∧
      Rep s' com l' ∧ l' ++ [q] = cur.insertIdx d p
  | 0, s, com, cur, d, p, h, hk => by
    refine ⟨s, cur, p, rfl, h, ?_⟩
    simp at hk; subst hk; simp
  | k + 1, s, com, cur, d, p, h, hk => by
    have hd : d < cur.length := by omega
    have hr1 := rep_write h (i := d) (e := cur[d]) (p := p) (by simp [hd])
    obtain ⟨s2, l2, q, h2, hr2, hl2⟩ := insertLoop k (d := d + 1) (p := cur[d]) hr1
      (by simp; omega)
    refine ⟨s2, l2, q, ?_, hr2, ?_⟩
    · rw [List.range'_succ, List.foldlM_cons]
      have : insertStep (s, p) d = .ok ({ s with
        buffer := cur.set d p, updates := s.updates ++ [Update.change d cur[d] p] }, cur[d]) := by
        unfold insertStep; simp [h.buf, hd]
      rw [this]; exact h2
    · rw [hl2]
      apply List.ext_getElem?
      intro j
      simp only [List.getElem?_insertIdx, List.getElem?_set, List.length_set]
      grind

theorem insertTo_rep {s : ArrayState α} {com cur} (h : Rep s com cur) (j : Nat) (v : α) :
    ∃ s', insertTo s j v = .ok s' ∧ Rep s' com (cur.insertIdx (min j cur.length) v) := by
  obtain ⟨s1, l1, q, h1, hr1, hl1⟩ := insertLoop (cur.length - min j cur.length) h
    (d := min j cur.length) (p := v) (by omega)
  refine ⟨{ s1 with
    updates := s1.updates ++ [Update.placement l1.length q]
    buffer := cur.insertIdx (min j cur.length) v }, ?_, rfl, hr1.prev, ?_⟩
  · unfold insertTo
    have : (List.range' j (s.buffer.length - j)) =
        List.range' (min j cur.length) (cur.length - min j cur.length) := by
      rw [h.buf]
      by_cases hj : j ≤ cur.length
      · rw [Nat.min_eq_left hj]
      · rw [Nat.min_eq_right (by omega), show cur.length - j = 0 by omega, Nat.sub_self]; rfl
    rw [this, h1]
    simp [hr1.buf, hl1]
  · refine hr1.rep.snoc ?_
    rw [← hl1]; exact step_placement

theorem commit1_rep {s : ArrayState α} {com cur} (h : Rep s com cur) : Rep (commit1 s) cur cur := by
  unfold commit1
  split
  · exact ⟨h.buf, by simp [h.buf], by simp⟩
  · rename_i hu
    have hnil : s.updates = [] := by
      cases hs : s.updates with
      | nil => rfl
      | cons a l => simp [hs] at hu
    have := h.rep
    rw [hnil, replays_nil] at this
    subst this
    exact ⟨h.buf, h.prev, by rw [hnil]; simp⟩

variable [Inhabited α]

theorem undo_step {l l' : List α} {u : Update α} (h : u.step l = some l') : undo l' u = l := by
  rcases step_cases h with ⟨v, rfl, rfl⟩ | ⟨v, rfl, rfl⟩ | ⟨a, v, ha, hu, rfl⟩
  · simp [undo, List.eraseIdx_append_of_length_le]
  · simp [undo]
  · unfold undo
    rw [hu]
    simp only [change_placed, change_removed, change_index, change_old, Option.getD_some,
      Bool.false_eq_true, if_false, List.set_set]
    apply List.ext_getElem?
    intro i
    rw [List.getElem?_set]
    have := List.getElem?_eq_some_iff.1 ha
    split
    · rename_i he; subst he; simp [this.1, this.2]
    · rfl

theorem undo_all {com : List α} : ∀ (us : List (Update α)) {cur : List α},
    Replays com us.reverse cur → us.foldl undo cur = com
  | [], cur, h => by simp at h; simpa using h.symm
  | u :: us, cur, h => by
    simp only [List.reverse_cons] at h
    obtain ⟨m, h1, h2⟩ := replays_append.1 h
    rw [replays_singleton] at h2
    rw [List.foldl_cons, undo_step h2]
    exact undo_all us h1

theorem revert1_rep {s : ArrayState α} {com cur} (h : Rep s com cur) : Rep (revert1 s) com com := by
  refine ⟨?_, h.prev, by simp [revert1]⟩
  simp only [revert1, h.buf]
  exact undo_all _ (by simpa using h.rep)

/-! ### All lists -/

omit [Inhabited α] in
/-- The state represents committed lists `com` and current lists `cur`. -/
structure LRep (s : List (ArrayState α)) (com cur : List (List α)) : Prop where
  lens : com.length = s.length
  lenc : cur.length = s.length
  reps : ∀ (k : Nat) x c u, s[k]? = some x → com[k]? = some c → cur[k]? = some u → Rep x c u

omit [Inhabited α] in
theorem LRep.at {s : List (ArrayState α)} {com cur : List (List α)} (h : LRep s com cur) {k : Nat}
    {l : List α} (hl : cur[k]? = some l) :
    ∃ x c, s[k]? = some x ∧ com[k]? = some c ∧ Rep x c l := by
  have hk := (List.getElem?_eq_some_iff.1 hl).1
  have h1 : k < s.length := by have := h.lenc; omega
  have h2 : k < com.length := by have := h.lens; omega
  exact ⟨_, _, List.getElem?_eq_getElem h1, List.getElem?_eq_getElem h2,
    h.reps k _ _ _ (List.getElem?_eq_getElem h1) (List.getElem?_eq_getElem h2) hl⟩

omit [Inhabited α] in
theorem LRep.none {s : List (ArrayState α)} {com cur : List (List α)} (h : LRep s com cur) {k : Nat}
    (hl : cur[k]? = none) : s[k]? = none := by
  rw [List.getElem?_eq_none_iff] at *
  have := h.lenc; omega

omit [Inhabited α] in
theorem LRep.modify {s : List (ArrayState α)} {com cur : List (List α)} (h : LRep s com cur)
    {k : Nat} {l l' : List α} {f : ArrayState α → Res (ArrayState α)} (hl : cur[k]? = some l)
    (hf : ∀ x c, Rep x c l → ∃ y, f x = .ok y ∧ Rep y c l') :
    ∃ s', modify s k f = .ok s' ∧ LRep s' com (cur.set k l') := by
  obtain ⟨x, c, hx, hc, hr⟩ := h.at hl
  obtain ⟨y, hy, hry⟩ := hf x c hr
  refine ⟨s.set k y, ?_, by simpa using h.lens, by simpa using h.lenc, ?_⟩
  · simp [Lists.modify, hx, hy]
  · intro j x' c' u' h1 h2 h3
    by_cases hj : k = j
    · subst hj
      have hk := (List.getElem?_eq_some_iff.1 hl).1
      have hk' : k < s.length := by have := h.lenc; omega
      rw [List.getElem?_set_self hk'] at h1
      rw [List.getElem?_set_self hk] at h3
      rw [hc] at h2
      simp only [Option.some.injEq] at h1 h2 h3
      subst h1 h2 h3; exact hry
    · rw [List.getElem?_set_ne hj] at h1 h3
      exact h.reps j _ _ _ h1 h2 h3

omit [Inhabited α] in
theorem LRep.map {s : List (ArrayState α)} {com cur com' cur' : List (List α)} (h : LRep s com cur)
    {f : ArrayState α → ArrayState α} (hc : com'.length = com.length) (hu : cur'.length = cur.length)
    (hf : ∀ (k : Nat) x c u c' u', Rep x c u → com[k]? = some c → cur[k]? = some u →
      com'[k]? = some c' → cur'[k]? = some u' → Rep (f x) c' u') :
    LRep (s.map f) com' cur' := by
  refine ⟨by simpa [hc] using h.lens, by simpa [hu] using h.lenc, ?_⟩
  intro k x' c' u' h1 h2 h3
  have hk2 := (List.getElem?_eq_some_iff.1 h2).1
  have hk3 := (List.getElem?_eq_some_iff.1 h3).1
  rw [List.getElem?_map, Option.map_eq_some_iff] at h1
  obtain ⟨x, hx, rfl⟩ := h1
  have e1 := List.getElem?_eq_getElem (show k < com.length by omega)
  have e2 := List.getElem?_eq_getElem (show k < cur.length by omega)
  exact hf k x _ _ c' u' (h.reps k x _ _ hx e1 e2) e1 e2 h2 h3

end Lists
end Verif
