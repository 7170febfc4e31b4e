import Verif.Model.Collection
import Verif.Lemmas.ArrayState
import Mathlib.Data.List.Basic

set_option linter.unusedSectionVars false
set_option linter.unusedSimpArgs false

/-! Helper lemmas: `CollState` refines (committed contents, current contents). -/

namespace Verif
namespace CollState

variable {α : Type _} [DecidableEq α]

/-- The state represents committed contents `com` and current contents `cur`. -/
structure Rep (s : CollState α) (com cur : CollContents α) : Prop where
  elems : s.elements = cur.elements
  size : s.size = cur.size
  prev : s.previousSize = com.size
  all : Replays com.elements s.allUpdates cur.elements
  vis : Replays com.visible s.previous cur.visible
  comle : com.size ≤ com.elements.length
  curle : cur.size ≤ cur.elements.length
  len : cur.elements.length = com.elements.length

theorem Rep.mk'_ {l : List α} {n : Nat} (h : n ≤ l.length) :
    Rep (CollState.mk' l n) ⟨l, n⟩ ⟨l, n⟩ :=
  ⟨rfl, rfl, rfl, by simp [mk'], by simp [mk'], h, h, rfl⟩

theorem Rep.commit {s : CollState α} {com cur} (h : Rep s com cur) : Rep s.commit cur cur :=
  ⟨h.elems, h.size, h.size, by simp [CollState.commit], by simp [CollState.commit], h.curle,
    h.curle, rfl⟩

theorem take_set (l : List α) (n i : Nat) (a : α) : (l.set i a).take n = (l.take n).set i a := by
  rw [List.take_set]

theorem take_set_ge {l : List α} {n i : Nat} {a : α} (h : n ≤ i) :
    (l.set i a).take n = l.take n := by
  rw [List.take_set, List.set_eq_of_length_le]; simp; omega

theorem getElem?_take_lt {l : List α} {n i : Nat} (h : i < n) : (l.take n)[i]? = l[i]? := by
  rw [List.getElem?_take]; simp [h]

theorem Rep.exchange {s : CollState α} {com cur} (h : Rep s com cur) {i j : Nat} {a b : α}
    (hij : i ≠ j) (hi : cur.elements[i]? = some a) (hj : cur.elements[j]? = some b) :
    ∃ s', s.exchange i j = .ok s' ∧
      Rep s' com { cur with elements := (cur.elements.set i b).set j a } := by
  have hx : ∃ s', s.exchange i j = .ok s' := by
    unfold CollState.exchange; rw [h.elems, hi, hj]; exact ⟨_, rfl⟩
  obtain ⟨s', hs'⟩ := hx
  refine ⟨s', hs', ?_⟩
  unfold CollState.exchange at hs'
  rw [h.elems, hi, hj] at hs'
  simp only [Res.ok.injEq] at hs'
  subst hs'
  refine ⟨rfl, h.size, h.prev, ?_, ?_, h.comle, by simpa using h.curle, by simpa using h.len⟩
  · have h1 := h.all.snoc (step_change (b := b) hi)
    exact h1.snoc (step_change (by rw [List.getElem?_set_ne hij]; exact hj))
  · unfold CollContents.visible at *
    simp only [h.size]
    by_cases h1 : i < cur.size
    · have hi' : (cur.elements.take cur.size)[i]? = some a := by rw [getElem?_take_lt h1, hi]
      by_cases h2 : j < cur.size
      · simp only [h1, h2, and_self, if_true]
        rw [take_set, take_set]
        refine (h.vis.snoc (step_change hi')).snoc (step_change ?_)
        rw [List.getElem?_set_ne hij]
        exact (getElem?_take_lt h2).trans hj
      · simp only [h1, h2, and_false, if_false, if_true]
        rw [take_set_ge (by omega), take_set]
        exact h.vis.snoc (step_change hi')
    · by_cases h2 : j < cur.size
      · simp only [h1, h2, false_and, if_false, if_true]
        rw [take_set, take_set_ge (by omega)]
        exact h.vis.snoc (step_change ((getElem?_take_lt h2).trans hj))
      · simp only [h1, h2, false_and, if_false]
        rw [take_set_ge (by omega), take_set_ge (by omega)]
        exact h.vis

theorem Rep.rotateStep {s : CollState α} {com cur} (h : Rep s com cur) {i : Nat} {e p : α}
    (hi : i < cur.size) (he : cur.elements[i]? = some e) :
    ∃ s', CollState.rotateStep (s, p) i = .ok (s', e) ∧
      Rep s' com { cur with elements := cur.elements.set i p } := by
  refine ⟨{ s with
      elements := cur.elements.set i p
      allUpdates := s.allUpdates ++ [Update.change i e p]
      previous := s.previous ++ [Update.change i e p] },
    by unfold CollState.rotateStep; simp [h.elems, he], rfl, h.size, h.prev, ?_, ?_,
    h.comle, by simpa using h.curle, by simpa using h.len⟩
  · exact h.all.snoc (step_change he)
  · unfold CollContents.visible at *
    rw [take_set]
    exact h.vis.snoc (step_change ((getElem?_take_lt hi).trans he))

/-- Ascending rotation loop. -/
theorem Rep.rotateUp : ∀ (k : Nat) {s : CollState α} {com cur : CollContents α} {d : Nat} {p : α},
    Rep s com cur → d + k ≤ cur.size →
    ∃ s' l' q, (List.range' d k).foldlM CollState.rotateStep (s, p) = .ok (s', q) ∧
      Rep s' com { cur with elements := l' } ∧ l'.length = cur.elements.length ∧
      (∀ j, l'[j]? = if d ≤ j ∧ j < d + k then (if j = d then some p else cur.elements[j - 1]?)
        else cur.elements[j]?)
  | 0, s, com, cur, d, p, h, _ => by
    refine ⟨s, cur.elements, p, rfl, h, rfl, ?_⟩
    intro j; rw [if_neg (by omega)]
  | k + 1, s, com, cur, d, p, h, hk => by
    have hd : d < cur.elements.length := by have := h.curle; omega
    obtain ⟨s1, h1, hr1⟩ := h.rotateStep (i := d) (p := p) (e := cur.elements[d]) (by omega) (by simp [hd])
    obtain ⟨s2, l2, q, h2, hr2, hlen, hl2⟩ := Rep.rotateUp k (d := d + 1) (p := cur.elements[d]) hr1
      (by simp; omega)
    refine ⟨s2, l2, q, ?_, hr2, by simpa using hlen, ?_⟩
    · rw [List.range'_succ, List.foldlM_cons, h1]; exact h2
    · intro j
      rw [hl2 j]
      simp only [List.getElem?_set]
      grind

/-- Descending rotation loop. -/
theorem Rep.rotateDown : ∀ (k : Nat) {s : CollState α} {com cur : CollContents α} {d : Nat} {p : α},
    Rep s com cur → d + k ≤ cur.size →
    ∃ s' l' q, (List.range' d k).reverse.foldlM CollState.rotateStep (s, p) = .ok (s', q) ∧
      Rep s' com { cur with elements := l' } ∧ l'.length = cur.elements.length ∧
      (∀ j, l'[j]? = if d ≤ j ∧ j < d + k then
        (if j + 1 = d + k then some p else cur.elements[j + 1]?) else cur.elements[j]?)
  | 0, s, com, cur, d, p, h, _ => by
    refine ⟨s, cur.elements, p, rfl, h, rfl, ?_⟩
    intro j; rw [if_neg (by omega)]
  | k + 1, s, com, cur, d, p, h, hk => by
    have hd : d + k < cur.elements.length := by have := h.curle; omega
    obtain ⟨s1, h1, hr1⟩ := h.rotateStep (i := d + k) (p := p) (e := cur.elements[d + k]) (by omega) (by simp [hd])
    obtain ⟨s2, l2, q, h2, hr2, hlen, hl2⟩ := Rep.rotateDown k (d := d) (p := cur.elements[d + k]) hr1
      (by simp; omega)
    refine ⟨s2, l2, q, ?_, hr2, by simpa using hlen, ?_⟩
    · rw [List.range'_concat, List.reverse_append, List.reverse_singleton, List.singleton_append,
        List.foldlM_cons, Nat.one_mul, h1]; exact h2
    · intro j
      rw [hl2 j]
      simp only [List.getElem?_set]
      grind

theorem Rep.rotate {s : CollState α} {com cur} (h : Rep s com cur) {dest src : Nat} {a : α}
    (hne : src ≠ dest) (hs : src < cur.size) (hd : dest < cur.size)
    (ha : cur.elements[src]? = some a) :
    ∃ s', s.rotate dest src = .ok s' ∧
      Rep s' com { cur with elements := (cur.elements.eraseIdx src).insertIdx dest a } := by
  have hlen := h.curle
  have hle : (cur.elements.eraseIdx src).length = cur.elements.length - 1 := by
    rw [List.length_eraseIdx]; rw [if_pos (by omega)]
  unfold CollState.rotate
  rw [h.size, if_pos ⟨hs, hd⟩, h.elems, ha]
  by_cases hlt : dest < src
  · obtain ⟨s', l', q, h1, h2, h3, h4⟩ := h.rotateUp (src - dest + 1) (d := dest) (p := a) (by omega)
    refine ⟨s', by simp only [hlt, if_true, h1]; rfl, ?_⟩
    have : l' = (cur.elements.eraseIdx src).insertIdx dest a := by
      apply List.ext_getElem?
      intro j
      rw [h4 j, List.getElem?_insertIdx, List.getElem?_eraseIdx, List.getElem?_eraseIdx, hle]
      rcases Nat.lt_trichotomy j dest with hj | rfl | hj
      · rw [if_neg (by omega), if_pos hj, if_pos (by omega)]
      · rw [if_pos (by omega), if_pos rfl, if_neg (by omega), if_pos rfl, if_pos (by omega)]
      · by_cases hj2 : j ≤ src
        · rw [if_pos (by omega), if_neg (by omega), if_neg (by omega), if_neg (by omega),
            if_pos (by omega)]
        · rw [if_neg (by omega), if_neg (by omega), if_neg (by omega), if_neg (by omega)]
          congr 1; omega
    rw [← this]; exact h2
  · have hgt : src < dest := by omega
    obtain ⟨s', l', q, h1, h2, h3, h4⟩ := h.rotateDown (dest - src + 1) (d := src) (p := a) (by omega)
    refine ⟨s', by simp only [hlt, hgt, if_true, if_false, h1]; rfl, ?_⟩
    have : l' = (cur.elements.eraseIdx src).insertIdx dest a := by
      apply List.ext_getElem?
      intro j
      rw [h4 j, List.getElem?_insertIdx, List.getElem?_eraseIdx, List.getElem?_eraseIdx, hle]
      rcases Nat.lt_trichotomy j dest with hj | rfl | hj
      · rw [if_pos hj]
        by_cases hj2 : j < src
        · rw [if_neg (by omega), if_pos hj2]
        · rw [if_pos (by omega), if_neg (by omega), if_neg hj2]
      · rw [if_pos (by omega), if_pos (by omega), if_neg (by omega), if_pos rfl, if_pos (by omega)]
      · rw [if_neg (by omega), if_neg (by omega), if_neg (by omega), if_neg (by omega)]
        congr 1; omega
    rw [← this]; exact h2

theorem Rep.grow {s : CollState α} {com cur} (h : Rep s com cur)
    (hs : cur.size < cur.elements.length) :
    ∃ s', s.grow = .ok s' ∧ Rep s' com { cur with size := cur.size + 1 } := by
  refine ⟨{ s with
    previous := s.previous ++ [Update.placement cur.size cur.elements[cur.size]]
    size := cur.size + 1 }, ?_, h.elems, rfl, h.prev, h.all, ?_, h.comle, by simp; omega, h.len⟩
  · unfold CollState.grow; rw [h.size, h.elems]; simp [hs]
  · refine h.vis.snoc ?_
    have hl : cur.visible.length = cur.size := by
      unfold CollContents.visible; simp; omega
    rw [show Update.placement cur.size cur.elements[cur.size] =
      Update.placement cur.visible.length cur.elements[cur.size] by rw [hl]]
    rw [step_placement]
    unfold CollContents.visible
    rw [List.take_add_one, List.getElem?_eq_getElem hs]; rfl

theorem Rep.shrink {s : CollState α} {com cur} (h : Rep s com cur) (hs : 0 < cur.size) :
    ∃ s', s.shrink = .ok s' ∧ Rep s' com { cur with size := cur.size - 1 } := by
  have hlt : cur.size - 1 < cur.elements.length := by have := h.curle; omega
  refine ⟨{ s with
    size := cur.size - 1
    previous := s.previous ++ [Update.removal (cur.size - 1) cur.elements[cur.size - 1]] }, ?_,
    h.elems, rfl, h.prev, h.all, ?_, h.comle, by simp; omega, h.len⟩
  · unfold CollState.shrink; rw [h.size, h.elems, if_neg (by omega)]; simp [hlt]
  · refine h.vis.snoc ?_
    have hv : cur.visible = cur.elements.take (cur.size - 1) ++ [cur.elements[cur.size - 1]] := by
      unfold CollContents.visible
      conv => lhs; rw [show cur.size = cur.size - 1 + 1 by omega]
      rw [List.take_add_one]; simp [hlt]
    have hl : (cur.elements.take (cur.size - 1)).length = cur.size - 1 := by simp; omega
    rw [hv, show Update.removal (cur.size - 1) cur.elements[cur.size - 1] =
      Update.removal (cur.elements.take (cur.size - 1)).length cur.elements[cur.size - 1] by rw [hl]]
    rw [step_removal]; rfl

variable [Inhabited α]

/-- Undoing a script of pure changes position by position. -/
theorem undo_changes {com : List α} : ∀ (us : List (Update α)) {cur : List α},
    Replays com us.reverse cur → (∀ u ∈ us, u.placed = false ∧ u.removed = false) →
    us.foldl (fun l u => l.set u.index (u.old.getD default)) cur = com
  | [], cur, h, _ => by simp at h; simpa using h.symm
  | u :: us, cur, h, hu => by
    simp only [List.reverse_cons] at h
    obtain ⟨m, h1, h2⟩ := replays_append.1 h
    rw [replays_singleton] at h2
    rw [List.foldl_cons]
    have : cur.set u.index (u.old.getD default) = m := by
      have hu' := hu u (by simp)
      rcases step_cases h2 with ⟨v, rfl, rfl⟩ | ⟨v, rfl, rfl⟩ | ⟨a, b, ha, hb, rfl⟩
      · simp at hu'
      · simp at hu'
      · rw [hb]
        simp only [Option.getD_some, List.set_set]
        apply List.ext_getElem?
        intro i
        rw [List.getElem?_set]
        have := List.getElem?_eq_some_iff.1 ha
        split
        · rename_i he; subst he; simp [this.1, this.2]
        · rfl
    rw [this]
    exact undo_changes us h1 (fun v hv => hu v (by simp [hv]))

/-- All entries of `allUpdates` are changes. -/
def OnlyChanges (s : CollState α) : Prop := ∀ u ∈ s.allUpdates, u.placed = false ∧ u.removed = false

theorem Rep.revert {s : CollState α} {com cur} (h : Rep s com cur) (ho : OnlyChanges s) :
    Rep s.revert com com := by
  refine ⟨?_, h.prev, h.prev, by simp [CollState.revert], by simp [CollState.revert], h.comle,
    h.comle, rfl⟩
  unfold CollState.revert
  simp only [h.elems]
  exact undo_changes _ (by simpa using h.all) (by intro u hu; exact ho u (by simpa using hu))

theorem OnlyChanges.exchange {s s' : CollState α} {i j : Nat} (h : OnlyChanges s)
    (hs : s.exchange i j = .ok s') : OnlyChanges s' := by
  unfold CollState.exchange at hs
  split at hs
  · simp only [Res.ok.injEq] at hs; subst hs
    intro u hu
    simp only [List.append_assoc, List.mem_append, List.mem_singleton] at hu
    rcases hu with hu | rfl | rfl
    · exact h u hu
    · exact ⟨rfl, rfl⟩
    · exact ⟨rfl, rfl⟩
  · simp at hs

theorem OnlyChanges.rotateStep {s s' : CollState α} {i : Nat} {p q : α} (h : OnlyChanges s)
    (hs : CollState.rotateStep (s, p) i = .ok (s', q)) : OnlyChanges s' := by
  unfold CollState.rotateStep at hs
  split at hs
  · simp at hs
  · simp only [Res.ok.injEq, Prod.mk.injEq] at hs
    obtain ⟨hs, _⟩ := hs; subst hs
    intro u hu
    simp only [List.mem_append, List.mem_singleton] at hu
    rcases hu with hu | rfl
    · exact h u hu
    · exact ⟨rfl, rfl⟩

theorem OnlyChanges.rotateLoop : ∀ (is : List Nat) {s s' : CollState α} {p q : α}, OnlyChanges s →
    is.foldlM CollState.rotateStep (s, p) = .ok (s', q) → OnlyChanges s'
  | [], s, s', p, q, h, hs => by
    simp at hs; obtain ⟨rfl, _⟩ := hs; exact h
  | i :: is, s, s', p, q, h, hs => by
    rw [List.foldlM_cons, Res.bind_eq_ok] at hs
    obtain ⟨⟨s1, p1⟩, h1, h2⟩ := hs
    exact OnlyChanges.rotateLoop is (h.rotateStep h1) h2

theorem OnlyChanges.rotate {s s' : CollState α} {d e : Nat} (h : OnlyChanges s)
    (hs : s.rotate d e = .ok s') : OnlyChanges s' := by
  unfold CollState.rotate at hs
  split at hs
  · split at hs
    · simp at hs
    · split at hs
      · rw [Res.bind_eq_ok] at hs
        obtain ⟨⟨s1, p1⟩, h1, h2⟩ := hs
        simp at h2; subst h2
        exact h.rotateLoop _ h1
      · split at hs
        · rw [Res.bind_eq_ok] at hs
          obtain ⟨⟨s1, p1⟩, h1, h2⟩ := hs
          simp at h2; subst h2
          exact h.rotateLoop _ h1
        · simp at hs; subst hs; exact h
  · simp at hs

end CollState
end Verif
