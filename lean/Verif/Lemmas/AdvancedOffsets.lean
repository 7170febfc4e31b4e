import Verif.Model.Nodes.AdvancedIndexing
import Verif.Lemmas.NodeBase
import Verif.Lemmas.IndexingWindow
import Verif.Props.Dedup
import Mathlib.Tactic.Ring
import Mathlib.Tactic.SplitIfs
import Mathlib.Tactic.ByContra

/-!
# Advanced indexing: the offsets and their reverse lookup (lemmas)
-/

set_option linter.unusedSimpArgs false
set_option linter.unusedVariables false

namespace Verif

/-- The reverse lookup lists, without repetition, the indices having an offset. -/
def RevOk (reverse : Int → List Nat) (cur : Nat → Option Int) : Prop :=
  ∀ o, (reverse o).Nodup ∧ ∀ t, t ∈ reverse o ↔ cur t = some o

theorem RevOk.delete {s : AdvState} {cur : Nat → Option Int} {i : Nat} {o : Int}
    (h : s.track = true → RevOk s.reverse cur) (hc : cur i = some o) :
    ∃ rev, s.deleteReverse i o = .ok { s with reverse := rev } ∧
      (s.track = true → RevOk rev (fun t => if t = i then none else cur t)) := by
  unfold AdvState.deleteReverse
  by_cases ht : s.track = true
  · rw [if_pos ht]
    have hr := h ht
    have hmem : i ∈ s.reverse o := ((hr o).2 i).2 hc
    cases hl : (s.reverse o).getLast? with
    | none => rw [List.getLast?_eq_none_iff] at hl; rw [hl] at hmem; simp at hmem
    | some back =>
      have hg : back = i ∨ i ∈ s.reverse o := Or.inr hmem
      obtain ⟨init, hinit⟩ : ∃ init, s.reverse o = init ++ [back] := by
        obtain ⟨hne, hb⟩ := List.getLast?_eq_some_iff.1 hl
        exact ⟨_, hb⟩
      simp only [guardUB_true hg, Res.ok_bind]
      refine ⟨_, rfl, fun _ => ?_⟩
      intro o'
      by_cases ho : o' = o
      · subst ho
        simp only [if_true]
        have hnd := (hr o').1
        have hm := (hr o').2
        rw [hinit] at hnd hm hmem ⊢
        by_cases hb : back = i
        · subst hb
          rw [if_pos rfl, List.dropLast_concat]
          rw [List.nodup_append] at hnd
          refine ⟨hnd.1, fun t => ?_⟩
          constructor
          · intro hti
            have hne : t ≠ back := hnd.2.2 t hti back (by simp)
            rw [if_neg hne]
            exact (hm t).1 (by simp [hti])
          · intro hti
            by_cases hne : t = back
            · simp [hne] at hti
            · rw [if_neg hne] at hti
              have := (hm t).2 hti
              simp [hne] at this
              exact this
        · rw [if_neg hb]
          have hii : i ∈ init := by
            rcases List.mem_append.1 hmem with h | h
            · exact h
            · simp at h; exact absurd h.symm hb
          rw [List.replace_append_left hii, List.dropLast_concat]
          rw [List.nodup_append] at hnd
          obtain ⟨pre, post, rfl⟩ := List.append_of_mem hii
          have hpre : i ∉ pre := by
            intro hp
            have := hnd.1
            rw [List.nodup_append] at this
            exact this.2.2 i hp i (by simp) rfl
          rw [List.replace_append_right hpre, List.replace_cons_self]
          have hn := hnd.1
          rw [List.nodup_append, List.nodup_cons] at hn
          have hbp : back ∉ pre := fun hp => hnd.2.2 back (by simp [hp]) back (by simp) rfl
          have hbq : back ∉ post := fun hp => hnd.2.2 back (by simp [hp]) back (by simp) rfl
          refine ⟨?_, fun t => ?_⟩
          · rw [List.nodup_append, List.nodup_cons]
            refine ⟨hn.1, ⟨hbq, hn.2.1.2⟩, ?_⟩
            intro a ha b hb'
            rcases List.mem_cons.1 hb' with rfl | hb'
            · intro e; subst e; exact hbp ha
            · exact hn.2.2 a ha b (by simp [hb'])
          · by_cases hti : t = i
            · subst hti
              simp only [if_true, reduceCtorEq, iff_false]
              intro hx
              rcases List.mem_append.1 hx with hx | hx
              · exact hpre hx
              · rcases List.mem_cons.1 hx with hx | hx
                · exact hb hx.symm
                · exact hn.2.1.1 hx
            · rw [if_neg hti, ← hm t]
              simp [hti]
              tauto
      · simp only [if_neg ho]
        refine ⟨(hr o').1, fun t => ?_⟩
        rw [(hr o').2 t]
        by_cases hti : t = i
        · subst hti
          simp only [if_true, hc, reduceCtorEq, iff_false]
          intro e
          exact ho (Option.some.inj e).symm
        · rw [if_neg hti]
  · rw [if_neg ht]
    exact ⟨s.reverse, rfl, fun h' => absurd h' ht⟩

theorem RevOk.add {s : AdvState} {cur : Nat → Option Int} {i : Nat} {o : Int}
    (h : s.track = true → RevOk s.reverse cur) (hc : cur i = none) :
    ∃ rev, s.addReverse i o = { s with reverse := rev } ∧
      (s.track = true → RevOk rev (fun t => if t = i then some o else cur t)) := by
  unfold AdvState.addReverse
  by_cases ht : s.track = true
  · rw [if_pos ht]
    have hr := h ht
    refine ⟨_, rfl, fun _ => ?_⟩
    intro o'
    by_cases ho : o' = o
    · subst ho
      simp only [if_true]
      have hni : i ∉ s.reverse o' := by
        intro hx
        have := ((hr o').2 i).1 hx
        rw [hc] at this; cases this
      refine ⟨?_, fun t => ?_⟩
      · rw [List.nodup_append]
        refine ⟨(hr o').1, by simp, ?_⟩
        intro a ha b hb e
        simp at hb
        subst hb; subst e
        exact hni ha
      · by_cases hti : t = i
        · simp [hti]
        · simp [hti, (hr o').2 t]
    · simp only [if_neg ho]
      refine ⟨(hr o').1, fun t => ?_⟩
      rw [(hr o').2 t]
      by_cases hti : t = i
      · subst hti
        simp only [if_true, hc, reduceCtorEq, false_iff]
        intro e
        exact ho (Option.some.inj e).symm
      · rw [if_neg hti]
  · rw [if_neg ht]
    exact ⟨s.reverse, rfl, fun h' => absurd h' ht⟩

/-- `s` arises from `s0` by changes of the offsets only, which lead from `O0` to the present offsets; no change is at an index
from `M` on; the reverse lookup is in step. -/
structure Off (s0 : AdvState) (O0 : List Int) (M : Nat) (s : AdvState) : Prop where
  data : s.data = s0.data
  diff : s.diff = s0.diff
  oldOffsets : s.oldOffsets = s0.oldOffsets
  oldData : s.oldData = s0.oldData
  track : s.track = s0.track
  replays : Replays O0 s.offsetsDiff s.offsets
  bound : ∀ u ∈ s.offsetsDiff, u.index < M
  reverse : s.track = true → RevOk s.reverse (fun t => s.offsets[t]?)

variable {s0 s : AdvState} {O0 : List Int} {M : Nat}

theorem Off.addToOffset (h : Off s0 O0 M s) {i : Nat} {old : Int} (hi : s.offsets[i]? = some old) (hM : i < M) (delta : Int) :
    ∃ s', s.addToOffset i delta = .ok s' ∧ Off s0 O0 M s' ∧ s'.offsets = s.offsets.set i (old + delta) := by
  have hlt : i < s.offsets.length := by
    rw [List.getElem?_eq_some_iff] at hi; exact hi.1
  unfold AdvState.addToOffset
  rw [hi]
  simp only
  obtain ⟨rev, he, hrev⟩ := RevOk.delete (s := { s with
      offsets := s.offsets.set i (old + delta)
      offsetsDiff := s.offsetsDiff ++ [Update.change i old (old + delta)] }) (cur := fun t => s.offsets[t]?) (i := i)
      (o := old) h.reverse hi
  rw [he]
  simp only [Res.ok_bind]
  obtain ⟨rev', he', hrev'⟩ := RevOk.add (s := { s with
      offsets := s.offsets.set i (old + delta)
      offsetsDiff := s.offsetsDiff ++ [Update.change i old (old + delta)]
      reverse := rev }) (i := i) (o := old + delta) hrev (by simp)
  rw [he']
  refine ⟨_, rfl, ⟨h.data, h.diff, h.oldOffsets, h.oldData, h.track, ?_, ?_, ?_⟩, rfl⟩
  · exact h.replays.snoc (step_change hi)
  · intro u hu
    rcases List.mem_append.1 hu with hu | hu
    · exact h.bound u hu
    · simp at hu; subst hu; exact hM
  · intro ht
    have := hrev' ht
    have e : (fun t => if t = i then some (old + delta) else if t = i then none else s.offsets[t]?) =
        fun t => (s.offsets.set i (old + delta))[t]? := by
      funext t
      rw [List.getElem?_set]
      by_cases hti : t = i
      · subst hti; simp [hlt]
      · simp [hti, Ne.symm hti]
    rw [← e]
    exact this

theorem Off.placeOffset (h : Off s0 O0 M s) (hM : s.offsets.length < M) (o : Int) :
    Off s0 O0 M (s.placeOffset o) ∧ (s.placeOffset o).offsets = s.offsets ++ [o] := by
  unfold AdvState.placeOffset
  obtain ⟨rev, he, hrev⟩ := RevOk.add (s := { s with
      offsetsDiff := s.offsetsDiff ++ [Update.placement s.offsets.length o] }) (cur := fun t => s.offsets[t]?)
      (i := s.offsets.length) (o := o) h.reverse (by simp)
  dsimp only
  rw [he]
  refine ⟨⟨h.data, h.diff, h.oldOffsets, h.oldData, h.track, ?_, ?_, ?_⟩, rfl⟩
  · exact h.replays.snoc step_placement
  · intro u hu
    rcases List.mem_append.1 hu with hu | hu
    · exact h.bound u hu
    · simp at hu; subst hu; exact hM
  · intro ht
    have e : (fun t => if t = s.offsets.length then some o else s.offsets[t]?) = fun t => (s.offsets ++ [o])[t]? := by
      funext t
      by_cases hti : t = s.offsets.length
      · subst hti; simp
      · rw [if_neg hti]
        by_cases hlt : t < s.offsets.length
        · rw [List.getElem?_append_left hlt]
        · rw [List.getElem?_eq_none (by omega), List.getElem?_eq_none (by simp; omega)]
    rw [← e]
    exact hrev ht

theorem Off.removeOffset (h : Off s0 O0 M s) (hM : s.offsets.length ≤ M) (hne : s.offsets ≠ []) :
    ∃ s', s.removeOffset = .ok s' ∧ Off s0 O0 M s' ∧ s'.offsets = s.offsets.dropLast := by
  obtain ⟨init, o, ho⟩ : ∃ init o, s.offsets = init ++ [o] :=
    ⟨s.offsets.dropLast, s.offsets.getLast hne, (List.dropLast_concat_getLast hne).symm⟩
  have hlen : s.offsets.length - 1 = init.length := by rw [ho]; simp
  unfold AdvState.removeOffset
  have hl : s.offsets.getLast? = some o := by rw [ho]; simp
  rw [hl]
  simp only
  have hcur : s.offsets[s.offsets.length - 1]? = some o := by rw [hlen, ho]; simp
  obtain ⟨rev, he, hrev⟩ := RevOk.delete (s := { s with
      offsetsDiff := s.offsetsDiff ++ [Update.removal (s.offsets.length - 1) o] }) (cur := fun t => s.offsets[t]?)
      (i := s.offsets.length - 1) (o := o) h.reverse hcur
  rw [he]
  simp only [Res.ok_bind]
  refine ⟨_, rfl, ⟨h.data, h.diff, h.oldOffsets, h.oldData, h.track, ?_, ?_, ?_⟩, rfl⟩
  · refine h.replays.snoc ?_
    rw [hlen, ho, List.dropLast_concat]
    exact step_removal
  · intro u hu
    rcases List.mem_append.1 hu with hu | hu
    · exact h.bound u hu
    · simp only [List.mem_singleton] at hu; subst hu
      have : init.length < s.offsets.length := by rw [ho]; simp
      simp only [hlen]; omega
  · intro ht
    have e : (fun t => if t = s.offsets.length - 1 then none else s.offsets[t]?) = fun t => (s.offsets.dropLast)[t]? := by
      funext t
      rw [hlen, ho, List.dropLast_concat]
      by_cases hti : t = init.length
      · subst hti; simp
      · rw [if_neg hti]
        by_cases hlt : t < init.length
        · rw [List.getElem?_append_left hlt]
        · rw [List.getElem?_eq_none (by simp; omega), List.getElem?_eq_none (by omega)]
    rw [← e]
    exact hrev ht

theorem Off.shrink {n : Nat} : ∀ (k : Nat) {s : AdvState}, Off s0 O0 M s → s.offsets.length ≤ M → s.offsets.length = n + k →
    ∃ s', (List.range k).foldlM (fun s _ => AdvState.removeOffset s) s = .ok s' ∧ Off s0 O0 M s' ∧
      s'.offsets = s.offsets.take n := by
  intro k
  induction k with
  | zero =>
    intro s h hM hl
    exact ⟨s, rfl, h, by rw [List.take_of_length_le (by omega)]⟩
  | succ k ih =>
    intro s h hM hl
    obtain ⟨s1, he, ho, hoff⟩ := h.removeOffset hM (by intro e; rw [e] at hl; simp at hl)
    rw [List.range_succ_eq_map, List.foldlM_cons, he]
    simp only [Res.ok_bind, List.foldlM_map]
    obtain ⟨s2, he2, ho2, hoff2⟩ := ih ho (by rw [hoff]; simp; omega) (by rw [hoff]; simp; omega)
    refine ⟨s2, he2, ho2, ?_⟩
    rw [hoff2, hoff, List.dropLast_eq_take, List.take_take]
    congr 1
    omega

/-- Processing the updates of one index array: `r` is the part of the offsets that does not come from it. -/
theorem Off.updates {stride : Int} {L' : Nat} {isFirst : Bool} {r : Nat → Int} :
    ∀ {d : List (Update Rat)} {m y : List Rat} {s : AdvState}, Replays m d y → y.length = L' →
    Off s0 O0 M s → s.offsets.length ≤ M → L' ≤ M → min m.length L' ≤ s.offsets.length →
    (isFirst = false → L' ≤ s.offsets.length) →
    (∀ t, s.offsets.length ≤ t → t < L' → r t = 0) →
    (∀ t o, t < L' → s.offsets[t]? = some o → o = r t + stride * toSS (m.getD t 0)) →
    ∃ s', d.foldlM (Adv.offsetUpdate stride L' isFirst) s = .ok s' ∧ Off s0 O0 M s' ∧
      L' ≤ s'.offsets.length ∧ s'.offsets.length ≤ max s.offsets.length L' ∧
      (∀ t o, t < L' → s'.offsets[t]? = some o → o = r t + stride * toSS (y.getD t 0)) := by
  intro d
  induction d with
  | nil =>
    intro m y s hr hy ho hM hM' hmin _ hr0 hv
    simp at hr
    subst hr
    refine ⟨s, rfl, ho, by omega, by omega, hv⟩
  | cons u d ih =>
    intro m y s hr hy ho hM hM' hmin hf hr0 hv
    obtain ⟨m1, h1, h2⟩ := replays_cons.1 hr
    rw [List.foldlM_cons]
    have hzero : toSS 0 = 0 := by decide
    -- the effect on `getD`
    have hother : ∀ t, u.index ≠ t → m1.getD t 0 = m.getD t 0 := by
      intro t ht
      rw [List.getD_eq_getElem?_getD, List.getD_eq_getElem?_getD, step_other h1 ht]
    have hval : u.value.elim 0 toSS = toSS (m1.getD u.index 0) := by
      rw [step_value h1, List.getD_eq_getElem?_getD]
      cases m1[u.index]? <;> simp [hzero]
    have hold : u.old.elim 0 toSS = toSS (m.getD u.index 0) := by
      rw [step_old h1, List.getD_eq_getElem?_getD]
      cases m[u.index]? <;> simp [hzero]
    have hlen1 : m1.length ≤ m.length ∨ (u.index = m.length ∧ u.old = none ∧ m1.length = m.length + 1) := by
      rcases step_cases h1 with ⟨v, hu, hm⟩ | ⟨v, hm, hu⟩ | ⟨a, b, hi, hu, hm⟩
      · right; subst hu hm; simp
      · left; subst hm; simp
      · left; subst hm; simp
    by_cases hge : L' ≤ u.index
    · have hstep : Adv.offsetUpdate stride L' isFirst s u = .ok s := by
        unfold Adv.offsetUpdate; rw [if_pos hge]
      rw [hstep]
      simp only [Res.ok_bind]
      obtain ⟨s', he, ho', hl1, hl2, hv'⟩ := ih h2 hy ho hM hM' (by
        rcases hlen1 with h | ⟨h, _, h'⟩ <;> omega) hf hr0 (fun t o ht hso => by
          rw [hother t (by omega)]; exact hv t o ht hso)
      exact ⟨s', he, ho', hl1, hl2, hv'⟩
    · by_cases heq : u.index = s.offsets.length
      · -- a placement of the first index array
        have hfi : isFirst = true := by
          cases hb : isFirst with
          | true => rfl
          | false => have := hf hb; omega
        have hml : m.length ≤ u.index := by omega
        have hpl : u.placed = true := by
          unfold Update.placed
          rw [step_old h1, List.getElem?_eq_none hml]; rfl
        have hstep : Adv.offsetUpdate stride L' isFirst s u = .ok (s.placeOffset (stride * u.value.elim 0 toSS)) := by
          unfold Adv.offsetUpdate
          rw [if_neg hge, if_pos heq, guardUB_true hpl, guardUB_true hfi]
          rfl
        rw [hstep]
        simp only [Res.ok_bind]
        obtain ⟨hop, hoffs⟩ := ho.placeOffset (by omega) (stride * u.value.elim 0 toSS)
        have hu : u.index = m.length := by
          rcases step_cases h1 with ⟨v, hu, hm⟩ | ⟨v, hm, hu⟩ | ⟨a, b, hi, hu, hm⟩
          · rw [hu]
          · rw [hu] at hpl; simp [Update.placed] at hpl
          · rw [hu] at hpl; simp [Update.placed] at hpl
        obtain ⟨s', he, ho', hl1, hl2, hv'⟩ := ih h2 hy hop (by rw [hoffs]; simp; omega) hM' (by
            rw [hoffs]; simp
            rcases hlen1 with h | ⟨h, _, h'⟩ <;> omega)
          (fun hb => by rw [hfi] at hb; cases hb)
          (fun t ht ht' => hr0 t (by rw [hoffs] at ht; simp at ht; omega) ht')
          (fun t o ht hso => by
            rw [hoffs] at hso
            by_cases hlt : t < s.offsets.length
            · rw [List.getElem?_append_left hlt] at hso
              rw [hother t (by omega)]
              exact hv t o ht hso
            · have hlt' : t = s.offsets.length := by
                have := (List.getElem?_eq_some_iff.1 hso).1
                simp at this; omega
              subst hlt'
              simp only [List.getElem?_append_right (Nat.le_refl _), Nat.sub_self, List.getElem?_cons_zero,
                Option.some.injEq] at hso
              rw [← hso, hval, heq, hr0 _ (Nat.le_refl _) ht]
              omega)
        refine ⟨s', he, ho', hl1, ?_, hv'⟩
        rw [hoffs] at hl2; simp at hl2; omega
      · have hlt : u.index < s.offsets.length := by
          rcases step_cases h1 with ⟨v, hu, hm⟩ | ⟨v, hm, hu⟩ | ⟨a, b, hi, hu, hm⟩
          · rw [hu] at heq hge ⊢; simp only at heq hge ⊢; omega
          · have : u.index < m.length := by rw [hu, hm]; simp
            omega
          · have : u.index < m.length := (List.getElem?_eq_some_iff.1 hi).1
            omega
        obtain ⟨s1, he1, ho1, hoffs⟩ := ho.addToOffset (i := u.index) (old := s.offsets[u.index])
          (List.getElem?_eq_getElem hlt) (by omega) (stride * (u.value.elim 0 toSS - u.old.elim 0 toSS))
        have hstep : Adv.offsetUpdate stride L' isFirst s u = .ok s1 := by
          unfold Adv.offsetUpdate
          rw [if_neg hge, if_neg heq, guardUB_true hlt]
          exact he1
        rw [hstep]
        simp only [Res.ok_bind]
        have hlen : s1.offsets.length = s.offsets.length := by rw [hoffs]; simp
        obtain ⟨s', he, ho', hl1, hl2, hv'⟩ := ih h2 hy ho1 (by omega) hM' (by
            rcases hlen1 with h | ⟨h, _, h'⟩ <;> omega)
          (fun hb => by have := hf hb; omega)
          (fun t ht ht' => hr0 t (by omega) ht')
          (fun t o ht hso => by
            rw [hoffs, List.getElem?_set] at hso
            by_cases hti : u.index = t
            · subst hti
              simp only [hlt, if_true, Option.some.injEq] at hso
              have := hv u.index _ ht (List.getElem?_eq_getElem hlt)
              rw [← hso, this, hval, hold]
              ring
            · rw [if_neg hti] at hso
              rw [hother t hti]
              exact hv t o ht hso)
        exact ⟨s', he, ho', hl1, by omega, hv'⟩

/-- The entries belonging to index arrays. -/
def arrayDims : List Bool → List Int → List Int
  | true :: kinds, d :: l => d :: arrayDims kinds l
  | false :: kinds, _ :: l => arrayDims kinds l
  | _, _ => []

/-- The offset given by the `t`-th entries of the index arrays. -/
def offsetAt (kinds : List Bool) (strides : List Int) (ys : List (Arr Rat)) (t : Nat) : Int :=
  byteOffset (arrayDims kinds strides) (Adv.indexAt ys t)

theorem offsetAt_true {kinds : List Bool} {st : Int} {strides : List Int} {y : Arr Rat} {ys : List (Arr Rat)} {t : Nat} :
    offsetAt (true :: kinds) (st :: strides) (y :: ys) t = st * toSS (y.data.getD t 0) + offsetAt kinds strides ys t := by
  simp only [offsetAt, arrayDims, Adv.indexAt, List.map_cons, byteOffset]
  ring

theorem offsetAt_false {kinds : List Bool} {st : Int} {strides : List Int} {ys : List (Arr Rat)} {t : Nat} :
    offsetAt (false :: kinds) (st :: strides) ys t = offsetAt kinds strides ys t := rfl

theorem toSS_zero : toSS 0 = 0 := by decide

theorem offsetAt_beyond {n : Nat} : ∀ {kinds : List Bool} {strides : List Int} {ys : List (Arr Rat)} {t : Nat},
    (∀ y ∈ ys, y.data.length = n) → n ≤ t → offsetAt kinds strides ys t = 0
  | true :: kinds, st :: strides, y :: ys, t, h, ht => by
    rw [offsetAt_true, offsetAt_beyond (fun y hy => h y (by simp [hy])) ht, List.getD_eq_getElem?_getD,
      List.getElem?_eq_none (by rw [h y (by simp)]; exact ht)]
    simp [toSS_zero]
  | false :: kinds, st :: strides, ys, t, h, ht => by rw [offsetAt_false]; exact offsetAt_beyond h ht
  | [], strides, ys, t, h, ht => by cases strides <;> cases ys <;> rfl
  | true :: kinds, [], ys, t, h, ht => by cases ys <;> rfl
  | false :: kinds, [], ys, t, h, ht => by cases ys <;> rfl
  | true :: kinds, st :: strides, [], t, h, ht => rfl

/-- The index arrays after the first one. -/
theorem offsetsLoop_after {first L' : Nat} (hM : L' ≤ M) :
    ∀ {kinds : List Bool} {strides : List Int} {xs ys : List (Arr Rat)} {ins : List (Arr Rat × List (Update Rat))}
      {axis : Nat} {r : Nat → Int} {s : AdvState}, Ins ArrRel xs ins ys →
      (∀ y ∈ ys, y.data.length = L') → first < axis → Off s0 O0 M s → s.offsets.length = L' →
      (∀ t o, s.offsets[t]? = some o → o = r t + offsetAt kinds strides xs t) →
      ∃ s', Adv.offsetsLoop first L' axis kinds strides ins s = .ok s' ∧ Off s0 O0 M s' ∧ s'.offsets.length = L' ∧
        (∀ t o, s'.offsets[t]? = some o → o = r t + offsetAt kinds strides ys t)
  | true :: kinds, st :: strides, x :: xs, ys, ins, axis, r, s, hi, hl, hf, ho, hs, hv => by
    obtain ⟨d, y, ins, ys, rfl, rfl, hr, hi⟩ := hi.cons_inv
    unfold Adv.offsetsLoop
    have hly := hl y (by simp)
    rw [guardUB_true hly.symm]
    simp only [Res.ok_bind]
    have hne : (axis == first) = false := by simp; omega
    rw [hne]
    obtain ⟨s1, he, ho1, hl1, hl2, hv1⟩ := Off.updates (stride := st) (L' := L') (isFirst := false)
      (r := fun t => r t + offsetAt kinds strides xs t) hr.replays hly ho (by omega) hM (by omega) (by omega)
      (by intro t h1 h2; omega) (by
        intro t o ht hso
        rw [hv t o hso, offsetAt_true]; ring)
    rw [he]
    simp only [Res.ok_bind]
    rw [if_neg (by omega)]
    have hs1 : s1.offsets.length = L' := by omega
    obtain ⟨s2, he2, ho2, hl3, hv2⟩ := offsetsLoop_after hM (first := first) (kinds := kinds) (strides := strides)
      (axis := axis + 1) (r := fun t => r t + st * toSS (y.data.getD t 0)) hi (fun y hy => hl y (by simp [hy])) (by omega) ho1 hs1 (by
        intro t o hso
        have ht : t < L' := by rw [← hs1]; exact (List.getElem?_eq_some_iff.1 hso).1
        rw [hv1 t o ht hso]; ring)
    refine ⟨s2, he2, ho2, hl3, ?_⟩
    intro t o hso
    rw [hv2 t o hso, offsetAt_true]; ring
  | false :: kinds, st :: strides, xs, ys, ins, axis, r, s, hi, hl, hf, ho, hs, hv => by
    unfold Adv.offsetsLoop
    exact offsetsLoop_after hM (kinds := kinds) (strides := strides) hi hl (by omega) ho hs hv
  | [], strides, xs, ys, ins, axis, r, s, hi, hl, hf, ho, hs, hv => by
    refine ⟨s, by cases ins <;> cases strides <;> rfl, ho, hs, ?_⟩
    intro t o hso
    rw [hv t o hso]
    cases strides <;> cases xs <;> cases ys <;> rfl
  | true :: kinds, [], xs, ys, ins, axis, r, s, hi, hl, hf, ho, hs, hv => by
    refine ⟨s, by cases ins <;> rfl, ho, hs, ?_⟩
    intro t o hso
    rw [hv t o hso]
    cases xs <;> cases ys <;> rfl
  | false :: kinds, [], xs, ys, ins, axis, r, s, hi, hl, hf, ho, hs, hv => by
    refine ⟨s, by cases ins <;> rfl, ho, hs, ?_⟩
    intro t o hso
    rw [hv t o hso]
    cases xs <;> cases ys <;> rfl
  | true :: kinds, st :: strides, [], ys, ins, axis, r, s, hi, hl, hf, ho, hs, hv => by
    obtain ⟨rfl, rfl⟩ := hi.nil_inv
    refine ⟨s, rfl, ho, hs, hv⟩

/-- All index arrays. -/
theorem offsetsLoop_spec {first L L' : Nat} (hM : L' ≤ M) (hM0 : L ≤ M) :
    ∀ {kinds : List Bool} {strides : List Int} {xs ys : List (Arr Rat)} {ins : List (Arr Rat × List (Update Rat))}
      {axis : Nat} {s : AdvState}, Ins ArrRel xs ins ys → xs ≠ [] → kinds.any id = true → kinds.length = strides.length →
      (∀ x ∈ xs, x.data.length = L) → (∀ y ∈ ys, y.data.length = L') → axis + leading kinds = first →
      Off s0 O0 M s → s.offsets.length = L →
      (∀ t o, s.offsets[t]? = some o → o = offsetAt kinds strides xs t) →
      ∃ s', Adv.offsetsLoop first L' axis kinds strides ins s = .ok s' ∧ Off s0 O0 M s' ∧ s'.offsets.length = L' ∧
        (∀ t o, s'.offsets[t]? = some o → o = offsetAt kinds strides ys t)
  | true :: kinds, st :: strides, x :: xs, ys, ins, axis, s, hi, hne, hany, hlen, hlx, hl, hf, ho, hs, hv => by
    obtain ⟨d, y, ins, ys, rfl, rfl, hr, hi⟩ := hi.cons_inv
    unfold Adv.offsetsLoop
    have hly := hl y (by simp)
    have hfa : axis = first := by simpa [leading, List.findIdx_cons] using hf
    rw [guardUB_true hly.symm]
    simp only [Res.ok_bind]
    have hb : (axis == first) = true := by simp [hfa]
    rw [hb]
    have hrest : ∀ t, L ≤ t → offsetAt kinds strides xs t = 0 := fun t ht =>
      offsetAt_beyond (fun y hy => hlx y (by simp [hy])) ht
    obtain ⟨s1, he, ho1, hl1, hl2, hv1⟩ := Off.updates (stride := st) (L' := L') (isFirst := true)
      (r := fun t => offsetAt kinds strides xs t) hr.replays hly ho (by omega) hM
      (by rw [hlx x (by simp)]; omega) (by simp)
      (by intro t h1 h2; exact hrest t (by omega)) (by
        intro t o ht hso
        rw [hv t o hso, offsetAt_true]; ring)
    rw [he]
    simp only [Res.ok_bind]
    rw [if_pos hfa]
    obtain ⟨s2, he2, ho2, hoff2⟩ := Off.shrink (n := L') (s1.offsets.length - L') ho1 (by omega) (by omega)
    have he2' : Adv.shrink L' s1 = .ok s2 := he2
    rw [he2']
    simp only [Res.ok_bind]
    have hs2 : s2.offsets.length = L' := by rw [hoff2]; simp; omega
    obtain ⟨s3, he3, ho3, hl3, hv3⟩ := offsetsLoop_after hM (first := first) (kinds := kinds) (strides := strides)
      (axis := axis + 1) (r := fun t => st * toSS (y.data.getD t 0)) hi (fun y hy => hl y (by simp [hy])) (by omega) ho2 hs2 (by
        intro t o hso
        have ht : t < L' := by rw [← hs2]; exact (List.getElem?_eq_some_iff.1 hso).1
        rw [hoff2, List.getElem?_take_of_lt ht] at hso
        rw [hv1 t o ht hso]; ring)
    refine ⟨s3, he3, ho3, hl3, ?_⟩
    intro t o hso
    rw [hv3 t o hso, offsetAt_true]
  | false :: kinds, st :: strides, xs, ys, ins, axis, s, hi, hne, hany, hlen, hlx, hl, hf, ho, hs, hv => by
    unfold Adv.offsetsLoop
    have hf' : axis + 1 + leading kinds = first := by
      rw [← hf]
      simp only [leading, List.findIdx_cons, id, cond_false]
      omega
    exact offsetsLoop_spec hM hM0 (kinds := kinds) (strides := strides) hi hne (by simpa using hany) (by simpa using hlen) hlx hl hf' ho hs hv
  | [], strides, xs, ys, ins, axis, s, hi, hne, hany, hlen, hlx, hl, hf, ho, hs, hv => by simp at hany
  | _ :: kinds, [], xs, ys, ins, axis, s, hi, hne, hany, hlen, hlx, hl, hf, ho, hs, hv => by simp at hlen
  | true :: kinds, st :: strides, [], ys, ins, axis, s, hi, hne, hany, hlen, hlx, hl, hf, ho, hs, hv => absurd rfl hne

/-- The offsets in step with index arrays `ys` of length `n`. -/
def offsetsOf (kinds : List Bool) (strides : List Int) (ys : List (Arr Rat)) (n : Nat) : List Int :=
  (List.range n).map (offsetAt kinds strides ys)

theorem offsetsOf_get {kinds : List Bool} {strides : List Int} {ys : List (Arr Rat)} {n t : Nat} {o : Int}
    (h : (offsetsOf kinds strides ys n)[t]? = some o) : t < n ∧ o = offsetAt kinds strides ys t := by
  have hlt := (List.getElem?_eq_some_iff.1 h).1
  simp only [offsetsOf, List.length_map, List.length_range] at hlt
  simp only [offsetsOf, List.getElem?_map, List.getElem?_range hlt, Option.map_some, Option.some.injEq] at h
  exact ⟨hlt, h.symm⟩

theorem offsetsOf_eq {kinds : List Bool} {strides : List Int} {ys : List (Arr Rat)} {n : Nat} {O : List Int}
    (hl : O.length = n) (h : ∀ t o, O[t]? = some o → o = offsetAt kinds strides ys t) : O = offsetsOf kinds strides ys n := by
  apply List.ext_getElem?
  intro t
  by_cases ht : t < n
  · rw [List.getElem?_eq_getElem (by omega), offsetsOf, List.getElem?_map, List.getElem?_range ht]
    simp only [Option.map_some, Option.some.injEq]
    exact h t _ (List.getElem?_eq_getElem (by omega))
  · rw [List.getElem?_eq_none (by omega), List.getElem?_eq_none (by simp [offsetsOf]; omega)]

/-- The net changes of the offsets, as the loop over them sees them. -/
theorem dedup_offsets (h : Off s0 O0 (max O0.length s.offsets.length) s) :
    ∃ r, deduplicateDiff s.offsetsDiff = .ok r ∧ NetEffect O0 r s.offsets := by
  have hu := C04_dedup_ub_iff h.replays
  cases hd : deduplicateDiff s.offsetsDiff with
  | ok r => exact ⟨r, rfl, C04_dedup_partial h.replays hd⟩
  | throw => exact absurd hd hu.1
  | ub =>
    obtain ⟨_, u, hmem, hlt⟩ := hu.2.1 hd
    have := h.bound u hmem
    omega

/-- The constructor's reverse lookup. -/
theorem make_spec (offsets : List Int) (values : List (Option Rat)) (track : Bool) :
    ∃ rev, AdvState.make offsets values track = ⟨values, [], offsets, [], rev, offsets.length, values.length, track⟩ ∧
      (track = true → RevOk rev (fun t => offsets[t]?)) := by
  have key : ∀ (l : List Int) (k : Nat) (rev : Int → List Nat),
      (track = true → RevOk rev (fun t => if t < k then offsets[t]? else none)) → offsets.drop k = l → k ≤ offsets.length →
      ∃ rev', (l.zipIdx k).foldl (fun s p => AdvState.addReverse s p.2 p.1)
          ⟨values, [], offsets, [], rev, offsets.length, values.length, track⟩ =
          ⟨values, [], offsets, [], rev', offsets.length, values.length, track⟩ ∧
        (track = true → RevOk rev' (fun t => offsets[t]?)) := by
    intro l
    induction l with
    | nil =>
      intro k rev hrev hd hk
      refine ⟨rev, rfl, fun ht => ?_⟩
      have hk' : k = offsets.length := by
        have := congrArg List.length hd
        simp at this; omega
      have e : (fun t => if t < k then offsets[t]? else none) = fun t => offsets[t]? := by
        funext t
        by_cases h : t < k
        · rw [if_pos h]
        · rw [if_neg h, List.getElem?_eq_none (by omega)]
      rw [← e]
      exact hrev ht
    | cons o l ih =>
      intro k rev hrev hd hk
      rw [List.zipIdx_cons, List.foldl_cons]
      have hlt : k < offsets.length := by
        by_contra hc
        rw [List.drop_of_length_le (by omega)] at hd
        cases hd
      have hok : offsets[k]? = some o := by
        rw [List.drop_eq_getElem_cons hlt] at hd
        rw [List.getElem?_eq_getElem hlt, (List.cons.inj hd).1]
      obtain ⟨rev1, he, hrev1⟩ := RevOk.add (s := ⟨values, [], offsets, [], rev, offsets.length, values.length, track⟩)
        (cur := fun t => if t < k then offsets[t]? else none) (i := k) (o := o) hrev (by simp)
      rw [he]
      exact ih (k + 1) rev1 (fun ht => by
        have := hrev1 ht
        have e : (fun t => if t = k then some o else if t < k then offsets[t]? else none) =
            fun t => if t < k + 1 then offsets[t]? else none := by
          funext t
          by_cases h1 : t = k
          · subst h1; simp [hok]
          · rw [if_neg h1]
            by_cases h2 : t < k
            · rw [if_pos h2, if_pos (by omega)]
            · rw [if_neg h2, if_neg (by omega)]
        rw [← e]
        exact this) (by
          rw [List.drop_eq_getElem_cons hlt] at hd
          exact (List.cons.inj hd).2) (by omega)
  exact key offsets 0 _ (fun _ o => ⟨by simp, by simp⟩) (by simp) (by omega)

/-- Reverting the offsets. -/
theorem revert_offsets {O O' : List Int} : ∀ (r : List (Update Int)) (Y : List Int) (s : AdvState) (cur : Nat → Option Int),
    (∀ u ∈ r, u.old = O[u.index]? ∧ u.value = O'[u.index]? ∧ u.index < Y.length ∧ cur u.index = u.value) →
    r.Pairwise (fun u v => u.index ≠ v.index) →
    s.offsets = Y → (s.track = true → RevOk s.reverse cur) →
    ∃ rev Z, r.foldlM AdvState.revertOffset s = .ok { s with offsets := Z, reverse := rev } ∧
      Z.length = Y.length ∧ (∀ t, (∀ u ∈ r, u.index ≠ t) → Z[t]? = Y[t]?) ∧
      (∀ u ∈ r, Z[u.index]? = some (u.old.getD 0)) ∧
      (s.track = true → RevOk rev (fun t => if t ∈ r.map Update.index then O[t]? else cur t)) := by
  intro r
  induction r with
  | nil =>
    intro Y s cur h hp hY hrev
    subst hY
    exact ⟨s.reverse, s.offsets, rfl, rfl, by simp, by simp, by simpa using hrev⟩
  | cons u r ih =>
    intro Y s cur h hp hY hrev
    subst hY
    obtain ⟨hold, hval, hlt, hcur⟩ := h u (by simp)
    rw [List.pairwise_cons] at hp
    rw [List.foldlM_cons]
    have hstep : ∃ rev, AdvState.revertOffset s u = .ok { s with
          offsets := s.offsets.set u.index (u.old.getD 0), reverse := rev } ∧
        (s.track = true → RevOk rev (fun t => if t = u.index then u.old else cur t)) := by
      unfold AdvState.revertOffset
      rw [guardUB_true hlt]
      simp only [Res.ok_bind]
      have hdel : ∃ rev, AdvState.undoValue { s with offsets := s.offsets.set u.index (u.old.getD 0) } u.index u.value =
          .ok { s with offsets := s.offsets.set u.index (u.old.getD 0), reverse := rev } ∧
          (s.track = true → RevOk rev (fun t => if t = u.index then none else cur t)) := by
        cases hv : u.value with
        | some v =>
          exact RevOk.delete (s := { s with offsets := s.offsets.set u.index (u.old.getD 0) }) hrev (by rw [hcur, hv])
        | none =>
          refine ⟨s.reverse, rfl, fun ht => ?_⟩
          have e : (fun t => if t = u.index then none else cur t) = cur := by
            funext t
            by_cases h : t = u.index
            · rw [if_pos h, h, hcur, hv]
            · rw [if_neg h]
          rw [e]; exact hrev ht
      obtain ⟨rev, he, hrev1⟩ := hdel
      rw [he]
      simp only [Res.ok_bind]
      cases ho : u.old with
      | some o =>
        obtain ⟨rev2, he2, hrev2⟩ := RevOk.add (s := { s with offsets := s.offsets.set u.index ((some o).getD 0), reverse := rev })
          (cur := fun t => if t = u.index then none else cur t) (i := u.index) (o := o) hrev1 (by simp)
        refine ⟨rev2, ?_, fun ht => ?_⟩
        · exact congrArg Res.ok he2
        · have := hrev2 ht
          have e : (fun t => if t = u.index then some o else if t = u.index then none else cur t) =
              fun t => if t = u.index then some o else cur t := by
            funext t
            by_cases h : t = u.index <;> simp [h]
          rw [← e]; exact this
      | none => exact ⟨rev, rfl, hrev1⟩
    obtain ⟨rev, he, hrev1⟩ := hstep
    rw [he]
    simp only [Res.ok_bind]
    obtain ⟨rev2, Z, he2, hlen, hoth, hin, hrev2⟩ := ih (s.offsets.set u.index (u.old.getD 0)) { s with
        offsets := s.offsets.set u.index (u.old.getD 0), reverse := rev } (fun t => if t = u.index then u.old else cur t)
      (by
        intro v hv
        obtain ⟨h1, h2, h3, h4⟩ := h v (by simp [hv])
        refine ⟨h1, h2, by simpa using h3, ?_⟩
        rw [if_neg (Ne.symm (hp.1 v hv))]
        exact h4) hp.2 rfl hrev1
    refine ⟨rev2, Z, he2, by simpa using hlen, ?_, ?_, ?_⟩
    · intro t ht
      rw [hoth t (fun v hv => ht v (by simp [hv])), List.getElem?_set, if_neg (ht u (by simp))]
    · intro v hv
      rcases List.mem_cons.1 hv with rfl | hv
      · rw [hoth v.index (fun w hw => Ne.symm (hp.1 w hw)), List.getElem?_set, if_pos rfl, if_pos hlt]
      · exact hin v hv
    · intro ht
      have := hrev2 ht
      have e : (fun t => if t ∈ r.map Update.index then O[t]? else if t = u.index then u.old else cur t) =
          fun t => if t ∈ (u :: r).map Update.index then O[t]? else cur t := by
        funext t
        by_cases h1 : t ∈ r.map Update.index
        · rw [if_pos h1, if_pos (by rw [List.map_cons]; exact List.mem_cons_of_mem _ h1)]
        · rw [if_neg h1]
          by_cases h2 : t = u.index
          · rw [if_pos h2, if_pos (by rw [h2]; simp), hold, h2]
          · rw [if_neg h2, if_neg]
            rw [List.map_cons, List.mem_cons]
            tauto
      rw [← e]; exact this

end Verif
