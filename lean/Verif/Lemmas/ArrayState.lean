import Verif.Model.ArrayState
import Verif.Lemmas.Replay

set_option linter.unusedSectionVars false
set_option linter.unusedSimpArgs false

/-! Helper lemmas: `ArrayState` refines a pair (committed list, current list). -/

namespace Verif
namespace ArrayState

variable {α : Type _} [DecidableEq α]

theorem assignOverlap_replays (pre : List α) : ∀ (b v : List α),
    Replays (pre ++ b) (assignOverlap pre.length b v)
      (pre ++ v.take (min b.length v.length) ++ b.drop (min b.length v.length))
  | [], v => by cases v <;> simp [assignOverlap]
  | b :: bs, [] => by simp [assignOverlap]
  | b :: bs, v :: vs => by
    have ih := assignOverlap_replays (pre ++ [v]) bs vs
    have hm : min (bs.length + 1) (vs.length + 1) = min bs.length vs.length + 1 := by omega
    unfold assignOverlap
    split
    · rename_i h; subst h
      simpa [hm] using ih
    · refine Replays.cons (b := pre ++ v :: bs) ?_ ?_
      · rw [step_change (by simp)]; simp
      · simpa [hm] using ih

theorem removals_replays (pre : List α) : ∀ (b : List α),
    Replays (pre ++ b) (removals pre.length b) pre
  | [] => by simp [removals]
  | b :: bs => by
    have ih := removals_replays (pre ++ [b]) bs
    unfold removals
    refine Replays.snoc (b := pre ++ [b]) ?_ step_removal
    simpa using ih

theorem placements_replays (pre : List α) : ∀ (v : List α),
    Replays pre (placements pre.length v) (pre ++ v)
  | [] => by simp [placements]
  | v :: vs => by
    have ih := placements_replays (pre ++ [v]) vs
    unfold placements
    exact Replays.cons step_placement (by simpa using ih)

/-- The updates emitted by `assign` alone. -/
def assignDiff (b v : List α) : List (Update α) :=
  assignOverlap 0 b v ++ removals (min b.length v.length) (b.drop (min b.length v.length))
    ++ placements (min b.length v.length) (v.drop (min b.length v.length))

theorem assignDiff_replays (b v : List α) : Replays b (assignDiff b v) v := by
  unfold assignDiff
  have h1 := assignOverlap_replays [] b v
  have h2 := removals_replays (v.take (min b.length v.length)) (b.drop (min b.length v.length))
  have h3 := placements_replays (v.take (min b.length v.length)) (v.drop (min b.length v.length))
  have hl : (v.take (min b.length v.length)).length = min b.length v.length := by
    simp only [List.length_take]; omega
  rw [hl] at h2 h3
  simp only [List.nil_append, List.length_nil] at h1
  rw [List.take_append_drop] at h3
  exact (h1.trans h2).trans h3

theorem assign_eq (s : ArrayState α) (v : List α) :
    s.assign v = { s with buffer := v, updates := s.updates ++ assignDiff s.buffer v } := by
  simp [assign, assignDiff]

/-- The state represents the committed contents `com` and current contents `cur`. -/
structure Rep (s : ArrayState α) (com cur : List α) : Prop where
  buf : s.buffer = cur
  prev : s.prevSize = com.length
  rep : Replays com s.updates cur

theorem Rep.mk'_ (v : List α) : Rep (ArrayState.mk' v) v v := ⟨rfl, rfl, by simp [mk']⟩

theorem Rep.commit {s : ArrayState α} {com cur} (h : Rep s com cur) : Rep s.commit cur cur :=
  ⟨h.buf, by simp [ArrayState.commit, h.buf], by simp [ArrayState.commit]⟩

theorem Rep.assign {s : ArrayState α} {com cur} (h : Rep s com cur) (v : List α) :
    Rep (s.assign v) com v := by
  rw [assign_eq]
  exact ⟨rfl, h.prev, h.rep.trans (h.buf ▸ assignDiff_replays s.buffer v)⟩

theorem Rep.emplaceBack {s : ArrayState α} {com cur} (h : Rep s com cur) (v : α) :
    Rep (s.emplaceBack v) com (cur ++ [v]) := by
  refine ⟨by simp [ArrayState.emplaceBack, h.buf], h.prev, h.rep.snoc ?_⟩
  rw [h.buf]; exact step_placement

theorem Rep.popBack {s : ArrayState α} {com cur} {v : α} (h : Rep s com (cur ++ [v])) :
    ∃ s', s.popBack = .ok s' ∧ Rep s' com cur := by
  refine ⟨⟨cur, s.updates ++ [Update.removal cur.length v], s.prevSize⟩,
    by simp [ArrayState.popBack, h.buf], rfl, h.prev, ?_⟩
  exact h.rep.snoc step_removal

theorem Rep.set {s : ArrayState α} {com cur} (h : Rep s com cur) {i : Nat} (hi : i < cur.length)
    (v : α) : ∃ s', s.set i v = .ok s' ∧ Rep s' com (cur.set i v) := by
  have hg : cur[i]? = some cur[i] := by simp [hi]
  unfold ArrayState.set
  rw [h.buf, hg]
  by_cases he : cur[i] = v
  · simp only [he, if_true]
    refine ⟨s, rfl, ?_, h.prev, ?_⟩
    · rw [h.buf, ← he]; simp
    · rw [← he]; simpa using h.rep
  · simp only [he, if_false]
    exact ⟨_, rfl, rfl, h.prev, h.rep.snoc (step_change hg)⟩

theorem Rep.exchange {s : ArrayState α} {com cur} (h : Rep s com cur) {i j : Nat}
    (hi : i < cur.length) (hj : j < cur.length) :
    ∃ s', s.exchange i j = .ok s' ∧ Rep s' com ((cur.set i cur[j]).set j cur[i]) := by
  have hgi : cur[i]? = some cur[i] := by simp [hi]
  have hgj : cur[j]? = some cur[j] := by simp [hj]
  unfold ArrayState.exchange
  rw [h.buf, hgi, hgj]
  by_cases hij : i = j
  · subst hij
    exact ⟨s, by simp, by simpa using h⟩
  · by_cases he : cur[i] = cur[j]
    · refine ⟨s, by simp [he], ?_⟩
      have : (cur.set i cur[j]).set j cur[i] = cur := by
        rw [he]
        have e1 : cur.set i cur[j] = cur := by rw [← he]; simp
        rw [e1]; simp
      rw [this]; exact h
    · refine ⟨⟨(cur.set i cur[j]).set j cur[i], s.updates ++ [Update.change i cur[i] cur[j]] ++
        [Update.change j cur[j] cur[i]], s.prevSize⟩, by simp [hij, he], rfl, h.prev, ?_⟩
      have h1 := h.rep.snoc (step_change (b := cur[j]) hgi)
      have := h1.snoc (step_change (i := j) (a := cur[j]) (b := cur[i]) (by
        rw [List.getElem?_set_ne hij]; exact hgj))
      simpa using this

theorem Rep.update1 {s : ArrayState α} {com cur cur'} {u : Update α} (h : Rep s com cur)
    (hu : Update.force cur u = some cur') : ∃ s', s.update1 u = .ok s' ∧ Rep s' com cur' := by
  obtain ⟨i, o, v⟩ := u
  cases v with
  | none =>
    have hu' : i + 1 = cur.length ∧ cur.dropLast = cur' := by
      cases o <;> simpa [Update.force] using hu
    obtain ⟨h1, rfl⟩ := hu'
    have hi : i < cur.length := by omega
    have hg : cur[i]? = some cur[i] := by simp [hi]
    refine ⟨⟨cur.dropLast, s.updates ++ [Update.removal i cur[i]], s.prevSize⟩,
      by simp [ArrayState.update1, h.buf, hg, h1], rfl, h.prev, ?_⟩
    refine h.rep.snoc ?_
    simp [Update.step, Update.removal, h1, hi]
  | some v =>
    cases o with
    | none =>
      have hu' : i = cur.length ∧ cur ++ [v] = cur' := by simpa [Update.force] using hu
      obtain ⟨rfl, rfl⟩ := hu'
      refine ⟨⟨cur ++ [v], s.updates ++ [Update.placement cur.length v], s.prevSize⟩,
        by simp [ArrayState.update1, h.buf, Update.placed], rfl, h.prev, ?_⟩
      exact h.rep.snoc step_placement
    | some o =>
      have hu' : i < cur.length ∧ cur.set i v = cur' := by simpa [Update.force] using hu
      obtain ⟨hi, rfl⟩ := hu'
      have hg : cur[i]? = some cur[i] := by simp [hi]
      refine ⟨⟨cur.set i v, s.updates ++ [Update.change i cur[i] v], s.prevSize⟩,
        by simp [ArrayState.update1, h.buf, Update.placed, hg], rfl, h.prev, ?_⟩
      exact h.rep.snoc (step_change hg)

theorem Rep.update : ∀ (us : List (Update α)) {s : ArrayState α} {com cur cur'}, Rep s com cur →
    us.foldlM Update.force cur = some cur' → ∃ s', s.update us = .ok s' ∧ Rep s' com cur'
  | [], s, com, cur, cur', h, hu => by
    simp at hu; subst hu; exact ⟨s, rfl, h⟩
  | u :: us, s, com, cur, cur', h, hu => by
    simp only [List.foldlM_cons, Option.bind_eq_bind, Option.bind_eq_some_iff] at hu
    obtain ⟨m, hm, hu⟩ := hu
    obtain ⟨s1, hs1, h1⟩ := h.update1 hm
    obtain ⟨s2, hs2, h2⟩ := Rep.update us h1 hu
    exact ⟨s2, by simp only [ArrayState.update, List.foldlM_cons, hs1, Res.ok_bind]; exact hs2, h2⟩

theorem Rep.update1_none {s : ArrayState α} {com cur} {u : Update α} (h : Rep s com cur)
    (hu : Update.force cur u = none) : s.update1 u = .ub := by
  obtain ⟨i, o, v⟩ := u
  cases v with
  | none =>
    have hu' : ¬ i + 1 = cur.length := by
      cases o <;> simpa [Update.force] using hu
    unfold ArrayState.update1
    rw [h.buf]
    cases cur[i]? <;> simp [hu']
  | some v =>
    cases o with
    | none =>
      have hu' : ¬ i = cur.length := by simpa [Update.force] using hu
      simp [ArrayState.update1, h.buf, Update.placed, hu']
    | some o =>
      have hu' : cur[i]? = none := by
        apply List.getElem?_eq_none; simpa [Update.force] using hu
      simp [ArrayState.update1, h.buf, Update.placed, hu']

theorem Rep.update_none : ∀ (us : List (Update α)) {s : ArrayState α} {com cur}, Rep s com cur →
    us.foldlM Update.force cur = none → s.update us = .ub
  | [], s, com, cur, h, hu => by simp at hu
  | u :: us, s, com, cur, h, hu => by
    simp only [List.foldlM_cons, Option.bind_eq_bind] at hu
    simp only [ArrayState.update, List.foldlM_cons]
    cases hm : Update.force cur u with
    | none => rw [h.update1_none hm]; rfl
    | some m =>
      rw [hm] at hu
      obtain ⟨s1, hs1, h1⟩ := h.update1 hm
      rw [hs1]
      exact Rep.update_none us h1 (by simpa using hu)

theorem force_of_step {l l' : List α} {u : Update α} (h : u.step l = some l') :
    Update.force l u = some l' := by
  obtain ⟨i, o, v⟩ := u
  cases o <;> cases v <;> simp_all [Update.step, Update.force]
  obtain ⟨h1, h2⟩ := h
  exact (List.getElem?_eq_some_iff.1 h1).1

theorem loose_of_replays : ∀ {us : List (Update α)} {l l' : List α}, Replays l us l' →
    us.foldlM Update.force l = some l'
  | [], l, l', h => by simpa using h
  | u :: us, l, l', h => by
    obtain ⟨m, h1, h2⟩ := replays_cons.1 h
    simp [List.foldlM_cons, force_of_step h1, loose_of_replays h2]

/-! ### Undoing -/

variable [Inhabited α]

/-- `b` has the right values at all positions below `n` which `l` has. -/
def Agree (n : Nat) (b l : List α) : Prop := ∀ i, i < n → i < l.length → b[i]? = l[i]?

theorem revertStep_length (n : Nat) (b : List α) (u : Update α) :
    (revertStep n b u).length = b.length := by
  unfold revertStep; split <;> simp

theorem revertStep_agree {n : Nat} {b l l' : List α} {u : Update α} (hb : b.length = n)
    (hs : u.step l = some l') (h : Agree n b l') : Agree n (revertStep n b u) l := by
  intro i hin hil
  rcases step_cases hs with ⟨v, rfl, rfl⟩ | ⟨v, rfl, rfl⟩ | ⟨a, v, ha, hu, rfl⟩
  · have hb' : b[i]? = l[i]? := by
      rw [h i hin (by simp; omega), List.getElem?_append_left hil]
    unfold revertStep
    split
    · exact hb'
    · rw [List.getElem?_set_ne (by simp [Update.placement]; omega)]; exact hb'
  · unfold revertStep
    simp only [removal_index, removal_old, Option.getD_some]
    by_cases hi : i = l'.length
    · subst hi
      rw [if_neg (by omega)]
      simp [hb, hin]
    · have hi' : i < l'.length := by simp at hil; omega
      have hb' : b[i]? = (l' ++ [v])[i]? := by
        rw [h i hin hi', List.getElem?_append_left hi']
      split
      · exact hb'
      · rw [List.getElem?_set_ne (by omega)]; exact hb'
  · unfold revertStep
    rw [hu]
    simp only [change_index, change_old, Option.getD_some]
    by_cases hi : i = u.index
    · subst hi
      rw [if_neg (by omega)]
      simp [hb, hin, ha]
    · have hb' : b[i]? = l[i]? := by
        rw [h i hin (by simpa using hil), List.getElem?_set_ne (Ne.symm hi)]
      split
      · exact hb'
      · rw [List.getElem?_set_ne (Ne.symm hi)]; exact hb'

theorem revertFold_length (n : Nat) : ∀ (us : List (Update α)) (b : List α),
    (us.foldl (revertStep n) b).length = b.length
  | [], _ => rfl
  | u :: us, b => by
    rw [List.foldl_cons, revertFold_length n us, revertStep_length]

theorem revertFold_agree {n : Nat} {com : List α} : ∀ (us : List (Update α)) {b cur : List α},
    b.length = n → Replays com us.reverse cur → Agree n b cur →
    Agree n (us.foldl (revertStep n) b) com
  | [], b, cur, _, hr, h => by simp at hr; subst hr; exact h
  | u :: us, b, cur, hb, hr, h => by
    simp only [List.reverse_cons] at hr
    obtain ⟨m, h1, h2⟩ := replays_append.1 hr
    rw [replays_singleton] at h2
    rw [List.foldl_cons]
    exact revertFold_agree us (by rw [revertStep_length]; exact hb) h1
      (revertStep_agree hb h2 h)

theorem resizeVec_length (l : List α) (n : Nat) : (resizeVec l n).length = n := by
  simp [resizeVec]; omega

/-- Undoing any legal script after resizing restores the starting list. -/
theorem revertBuffer {com cur : List α} {us : List (Update α)} (h : Replays com us cur) :
    us.reverse.foldl (revertStep com.length) (resizeVec cur com.length) = com := by
  have hag : Agree com.length (resizeVec cur com.length) cur := by
    intro i hi hc
    unfold resizeVec
    rw [List.getElem?_append_left (by simp; omega), List.getElem?_take_of_lt hi]
  have := revertFold_agree (us := us.reverse) (n := com.length) (com := com) (b := resizeVec cur com.length) (cur := cur)
    (resizeVec_length _ _) (by simpa using h) hag
  apply List.ext_getElem?
  intro i
  by_cases hi : i < com.length
  · exact this i hi hi
  · rw [List.getElem?_eq_none, List.getElem?_eq_none]
    · omega
    · rw [revertFold_length, resizeVec_length]; omega

theorem Rep.revert {s : ArrayState α} {com cur} (h : Rep s com cur) : Rep s.revert com com := by
  have : s.revert = ⟨com, [], com.length⟩ := by
    unfold ArrayState.revert
    simp only [resizeVec_length, h.prev, h.buf]
    rw [revertBuffer h.rep]
  rw [this]
  exact ⟨rfl, rfl, by simp⟩

end ArrayState
end Verif
