import Verif.Lemmas.AdvancedOffsets

/-!
# Advanced indexing: filling subspaces, changes of the indexed array, revert (lemmas)
-/

set_option linter.unusedSimpArgs false
set_option linter.unusedVariables false

namespace Verif

/-- `s'` is `s` with data changed from `l` to `l'` and this change, at indices below `N`, appended to the diff; unless `dyn`
all of it are changes of values. -/
def Acts (N : Nat) (dyn : Bool) (s s' : AdvState) (l l' : List Rat) : Prop :=
  ∃ d, s' = { s with data := l'.map some, diff := s.diff ++ d } ∧ Replays l d l' ∧ (∀ u ∈ d, u.index < N) ∧
    (dyn = false → ∀ u ∈ d, u.isChange = true)

variable {N : Nat} {dyn : Bool}

theorem Acts.refl {s : AdvState} {l : List Rat} (h : s.data = l.map some) : Acts N dyn s s l l := by
  refine ⟨[], ?_, by simp, by simp, by simp⟩
  rw [← h, List.append_nil]

theorem Acts.trans {s s' s'' : AdvState} {l l' l'' : List Rat} (h : Acts N dyn s s' l l') (h' : Acts N dyn s' s'' l' l'') :
    Acts N dyn s s'' l l'' := by
  obtain ⟨d, rfl, hr, hb, hc⟩ := h
  obtain ⟨d', rfl, hr', hb', hc'⟩ := h'
  refine ⟨d ++ d', by simp, hr.trans hr', ?_, ?_⟩
  · intro u hu
    rcases List.mem_append.1 hu with hu | hu
    · exact hb u hu
    · exact hb' u hu
  · intro hd u hu
    rcases List.mem_append.1 hu with hu | hu
    · exact hc hd u hu
    · exact hc' hd u hu

theorem Acts.data {s s' : AdvState} {l l' : List Rat} (h : Acts N dyn s s' l l') : s'.data = l'.map some := by
  obtain ⟨d, rfl, _⟩ := h; rfl

theorem Acts.reverse {s s' : AdvState} {l l' : List Rat} (h : Acts N dyn s s' l l') : s'.reverse = s.reverse := by
  obtain ⟨d, rfl, _⟩ := h; rfl

theorem Acts.track {s s' : AdvState} {l l' : List Rat} (h : Acts N dyn s s' l l') : s'.track = s.track := by
  obtain ⟨d, rfl, _⟩ := h; rfl

theorem Acts.offsets {s s' : AdvState} {l l' : List Rat} (h : Acts N dyn s s' l l') : s'.offsets = s.offsets := by
  obtain ⟨d, rfl, _⟩ := h; rfl

/-- One change. -/
theorem Acts.change {s : AdvState} {l : List Rat} {i : Nat} {a b : Rat} (h : s.data = l.map some) (hi : l[i]? = some a)
    (hN : i < N) :
    Acts N dyn s { s with data := s.data.set i (some b), diff := s.diff ++ [Update.change i a b] } l (l.set i b) := by
  refine ⟨[Update.change i a b], ?_, ?_, ?_, ?_⟩
  · rw [h, List.map_set]
  · rw [replays_singleton]; exact step_change hi
  · simpa using hN
  · intro _ u hu; simp at hu; subst hu; rfl

/-- Overwriting cells. -/
theorem fill_change {x : List Rat} : ∀ (ps : List (Int × Int)) {s : AdvState} {l : List Rat}, s.data = l.map some →
    l.length ≤ N → (∀ p ∈ ps, (0 ≤ p.1 ∧ p.1.toNat < x.length) ∧ (0 ≤ p.2 ∧ p.2.toNat < l.length)) →
    (∀ p ∈ ps, ∀ q ∈ ps, p.2 = q.2 → p = q) →
    ∃ s' l', ps.foldlM (fillCell .change x) s = .ok s' ∧ Acts N dyn s s' l l' ∧ l'.length = l.length ∧
      (∀ p ∈ ps, l'[p.2.toNat]? = x[p.1.toNat]?) ∧ (∀ i, (∀ p ∈ ps, p.2.toNat ≠ i) → l'[i]? = l[i]?) := by
  intro ps
  induction ps with
  | nil => intro s l hs hN _ _; exact ⟨s, l, rfl, Acts.refl hs, rfl, by simp, by simp⟩
  | cons p ps ih =>
    intro s l hs hN hb hinj
    obtain ⟨h1, h2⟩ := hb p (by simp)
    rw [List.foldlM_cons]
    have hget : l[p.2.toNat]? = some l[p.2.toNat] := List.getElem?_eq_getElem h2.2
    have hx : x[p.1.toNat]? = some x[p.1.toNat] := List.getElem?_eq_getElem h1.2
    have hsl : s.data.length = l.length := by rw [hs]; simp
    have hstep : fillCell .change x s p = .ok { s with
        data := s.data.set p.2.toNat (some x[p.1.toNat])
        diff := s.diff ++ [Update.change p.2.toNat l[p.2.toNat] x[p.1.toNat]] } := by
      unfold fillCell
      simp only
      rw [guardUB_true h1, guardUB_true (by rw [hsl]; exact h2)]
      simp only [Res.ok_bind, hx]
      rw [hs, List.getElem?_map, hget]
      rfl
    rw [hstep]
    simp only [Res.ok_bind]
    have ha := Acts.change (N := N) (dyn := dyn) (b := x[p.1.toNat]) hs hget (by omega)
    obtain ⟨s', l', he, ha', hl, hin, hout⟩ := ih (l := l.set p.2.toNat x[p.1.toNat]) ha.data (by simpa using hN)
      (fun q hq => by simpa using hb q (by simp [hq])) (fun q hq q' hq' => hinj q (by simp [hq]) q' (by simp [hq']))
    refine ⟨s', l', he, ha.trans ha', by simpa using hl, ?_, ?_⟩
    · intro q hq
      by_cases hex : q ∈ ps
      · exact hin q hex
      · have hqp : q = p := by
          rcases List.mem_cons.1 hq with h | h
          · exact h
          · exact absurd h hex
        subst hqp
        rw [hout q.2.toNat, List.getElem?_set_self h2.2, hx]
        intro q' hq' e
        have : q' = q := hinj q' (by simp [hq']) q (by simp) (by
          have := (hb q' (by simp [hq'])).2.1
          omega)
        exact hex (this ▸ hq')
    · intro i hi
      rw [hout i (fun q hq => hi q (by simp [hq])), List.getElem?_set_ne (hi p (by simp))]

/-- Filling cells without reporting. -/
theorem fill_silent {x : List Rat} : ∀ (ps : List (Int × Int)) {s : AdvState} {l : List Rat}, s.data = l.map some →
    (∀ p ∈ ps, (0 ≤ p.1 ∧ p.1.toNat < x.length) ∧ (0 ≤ p.2 ∧ p.2.toNat < l.length)) →
    (∀ p ∈ ps, ∀ q ∈ ps, p.2 = q.2 → p = q) →
    ∃ l' : List Rat, ps.foldlM (fillCell .silent x) s = .ok { s with data := l'.map some } ∧ l'.length = l.length ∧
      (∀ p ∈ ps, l'[p.2.toNat]? = x[p.1.toNat]?) ∧ (∀ i, (∀ p ∈ ps, p.2.toNat ≠ i) → l'[i]? = l[i]?) := by
  intro ps
  induction ps with
  | nil => intro s l hs _ _; exact ⟨l, by rw [← hs]; rfl, rfl, by simp, by simp⟩
  | cons p ps ih =>
    intro s l hs hb hinj
    obtain ⟨h1, h2⟩ := hb p (by simp)
    rw [List.foldlM_cons]
    have hx : x[p.1.toNat]? = some x[p.1.toNat] := List.getElem?_eq_getElem h1.2
    have hsl : s.data.length = l.length := by rw [hs]; simp
    have hstep : fillCell .silent x s p = .ok { s with data := (l.set p.2.toNat x[p.1.toNat]).map some } := by
      unfold fillCell
      simp only
      rw [guardUB_true h1, guardUB_true (by rw [hsl]; exact h2)]
      simp only [Res.ok_bind, hx]
      rw [hs, List.map_set]
    rw [hstep]
    simp only [Res.ok_bind]
    obtain ⟨l', he, hl, hin, hout⟩ := ih (s := { s with data := (l.set p.2.toNat x[p.1.toNat]).map some })
      (l := l.set p.2.toNat x[p.1.toNat]) rfl
      (fun q hq => by simpa using hb q (by simp [hq])) (fun q hq q' hq' => hinj q (by simp [hq]) q' (by simp [hq']))
    refine ⟨l', he, by simpa using hl, ?_, ?_⟩
    · intro q hq
      by_cases hex : q ∈ ps
      · exact hin q hex
      · have hqp : q = p := by
          rcases List.mem_cons.1 hq with h | h
          · exact h
          · exact absurd h hex
        subst hqp
        rw [hout q.2.toNat, List.getElem?_set_self h2.2, hx]
        intro q' hq' e
        have : q' = q := hinj q' (by simp [hq']) q (by simp) (by
          have := (hb q' (by simp [hq'])).2.1
          omega)
        exact hex (this ▸ hq')
    · intro i hi
      rw [hout i (fun q hq => hi q (by simp [hq])), List.getElem?_set_ne (hi p (by simp))]

/-- Appending cells. -/
theorem fill_place {x : List Rat} : ∀ (ps : List (Int × Int)) {s : AdvState} {l : List Rat}, s.data = l.map some →
    l.length + ps.length ≤ N → (∀ p ∈ ps, 0 ≤ p.1 ∧ p.1.toNat < x.length) →
    ps.map Prod.snd = (List.range' l.length ps.length).map (fun (n : Nat) => (n : Int)) →
    ∃ s', ps.foldlM (fillCell .place x) s = .ok s' ∧
      Acts N true s s' l (l ++ ps.map (fun p => x.getD p.1.toNat 0)) := by
  intro ps
  induction ps with
  | nil => intro s l hs hN _ _; exact ⟨s, rfl, by simpa using Acts.refl hs⟩
  | cons p ps ih =>
    intro s l hs hN hb hsnd
    have h1 := hb p (by simp)
    rw [List.foldlM_cons]
    have hx : x[p.1.toNat]? = some x[p.1.toNat] := List.getElem?_eq_getElem h1.2
    have hsl : s.data.length = l.length := by rw [hs]; simp
    rw [List.length_cons, List.range'_succ, List.map_cons, List.map_cons] at hsnd
    obtain ⟨hp, hrest⟩ := List.cons.inj hsnd
    have hstep : fillCell .place x s p = .ok { s with
        data := (l ++ [x[p.1.toNat]]).map some
        diff := s.diff ++ [Update.placement l.length x[p.1.toNat]] } := by
      unfold fillCell
      simp only
      rw [guardUB_true h1, guardUB_true (by rw [hsl]; exact hp)]
      simp only [Res.ok_bind, hx]
      rw [hs]
      simp
    rw [hstep]
    simp only [Res.ok_bind]
    have ha : Acts N true s { s with
        data := (l ++ [x[p.1.toNat]]).map some
        diff := s.diff ++ [Update.placement l.length x[p.1.toNat]] } l (l ++ [x[p.1.toNat]]) := by
      refine ⟨[Update.placement l.length x[p.1.toNat]], rfl, ?_, ?_, by simp⟩
      · rw [replays_singleton]; exact step_placement
      · simp at hN ⊢; omega
    obtain ⟨s', he, ha'⟩ := ih (l := l ++ [x[p.1.toNat]]) ha.data (by simp at hN ⊢; omega)
      (fun q hq => hb q (by simp [hq])) (by rw [List.length_append]; exact hrest)
    refine ⟨s', he, ?_⟩
    have := ha.trans ha'
    rw [List.append_assoc] at this
    rw [List.map_cons, List.getD_eq_getElem?_getD, hx]
    exact this

/-- Removing cells. -/
theorem fill_remove {x : List Rat} : ∀ (ps : List (Int × Int)) {s : AdvState} {l0 tail : List Rat},
    s.data = (l0 ++ tail).map some → l0.length + tail.length ≤ N → tail.length = ps.length →
    ps.map Prod.snd = (List.range' l0.length ps.length).map (fun (n : Nat) => (n : Int)) →
    ∃ s', ps.reverse.foldlM (fillCell .remove x) s = .ok s' ∧ Acts N true s s' (l0 ++ tail) l0 := by
  intro ps
  induction ps using List.reverseRecOn with
  | nil =>
    intro s l0 tail hs hN ht _
    have : tail = [] := by simpa using ht
    subst this
    rw [List.append_nil] at hs ⊢
    exact ⟨s, rfl, Acts.refl hs⟩
  | append_singleton ps p ih =>
    intro s l0 tail hs hN ht hsnd
    obtain ⟨tail, v, rfl⟩ : ∃ tail' v, tail = tail' ++ [v] := by
      have hne : tail ≠ [] := by intro e; rw [e] at ht; simp at ht
      exact ⟨_, _, (List.dropLast_concat_getLast hne).symm⟩
    have ht' : tail.length = ps.length := by simpa using ht
    rw [List.length_append, List.length_singleton, List.range'_concat, List.map_append, List.map_append] at hsnd
    obtain ⟨hrest, hp⟩ := List.append_inj hsnd (by simp)
    simp at hp
    rw [List.reverse_append, List.reverse_singleton, List.singleton_append, List.foldlM_cons]
    have hsl : s.data.length = l0.length + tail.length + 1 := by rw [hs]; simp; omega
    have hsd : s.data = (l0 ++ tail).map some ++ [some v] := by rw [hs]; simp
    have hstep : fillCell .remove x s p = .ok { s with
        data := (l0 ++ tail).map some
        diff := s.diff ++ [Update.removal (l0 ++ tail).length v] } := by
      unfold fillCell
      simp only
      rw [guardUB_true ⟨by intro e; rw [e] at hsl; simp at hsl, by rw [hp, hsl, ht']; push_cast; omega⟩]
      simp only [Res.ok_bind]
      rw [hsd]
      simp
    rw [hstep]
    simp only [Res.ok_bind]
    have ha : Acts N true s { s with
        data := (l0 ++ tail).map some
        diff := s.diff ++ [Update.removal (l0 ++ tail).length v] } (l0 ++ (tail ++ [v])) (l0 ++ tail) := by
      refine ⟨[Update.removal (l0 ++ tail).length v], rfl, ?_, ?_, by simp⟩
      · rw [replays_singleton, ← List.append_assoc]; exact step_removal
      · simp at hN ⊢; omega
    obtain ⟨s', he, ha'⟩ := ih (l0 := l0) (tail := tail) ha.data (by simp at hN; omega) ht' hrest
    exact ⟨s', he, ha.trans ha'⟩

/-- Reverting the data. -/
theorem revert_data : ∀ {d : List (Update Rat)} {l l' : List Rat} {s : AdvState}, Replays l d l' →
    (∀ u ∈ d, u.index < s.data.length) → l'.length ≤ s.data.length → s.data.take l'.length = l'.map some →
    ∃ X, d.reverse.foldlM AdvState.revertData s = .ok { s with data := X } ∧ X.length = s.data.length ∧
      l.length ≤ X.length ∧ X.take l.length = l.map some := by
  intro d
  induction d with
  | nil =>
    intro l l' s hr hb hl ht
    simp at hr
    subst hr
    exact ⟨s.data, rfl, rfl, hl, ht⟩
  | cons u d ih =>
    intro l l' s hr hb hl ht
    obtain ⟨m, h1, h2⟩ := replays_cons.1 hr
    obtain ⟨X, he, hX, hm, htX⟩ := ih h2 (fun v hv => hb v (by simp [hv])) hl ht
    have hui : u.index < X.length := by rw [hX]; exact hb u (by simp)
    rw [List.reverse_cons, List.foldlM_append, he]
    simp only [Res.ok_bind, List.foldlM_cons, List.foldlM_nil]
    have hstep : AdvState.revertData { s with data := X } u = .ok { s with data := X.set u.index u.old } := by
      unfold AdvState.revertData
      rw [guardUB_true hui]
      rfl
    rw [hstep]
    refine ⟨X.set u.index u.old, rfl, by simpa using hX, ?_⟩
    have hin : ∀ t, t < m.length → X[t]? = some m[t]? := by
      intro t ht'
      have := congrArg (·[t]?) htX
      simp only [List.getElem?_take_of_lt ht', List.getElem?_map] at this
      rw [this, List.getElem?_eq_getElem ht']
      rfl
    have hlen : l.length ≤ X.length := by
      rcases step_cases h1 with ⟨v, hu, hm'⟩ | ⟨v, hm', hu⟩ | ⟨a, b, hi, hu, hm'⟩
      · rw [hm'] at hm; simp at hm; omega
      · rw [hm']; rw [hu] at hui; simp at hui ⊢; omega
      · rw [hm'] at hm; simpa using hm
    refine ⟨by simpa using hlen, ?_⟩
    apply List.ext_getElem?
    intro t
    by_cases htl : t < l.length
    · rw [List.getElem?_take_of_lt htl, List.getElem?_map, List.getElem?_set]
      by_cases hti : u.index = t
      · subst hti
        rw [if_pos rfl, if_pos hui, step_old h1, List.getElem?_eq_getElem htl]
        rfl
      · rw [if_neg hti]
        have hother := step_other h1 hti
        have htm : t < m.length := by
          by_contra hc
          rw [List.getElem?_eq_none (by omega), List.getElem?_eq_getElem htl] at hother
          cases hother
        rw [hin t htm, hother, List.getElem?_eq_getElem htl]
        rfl
    · rw [List.getElem?_eq_none (by simp; omega), List.getElem?_eq_none (by simp; omega)]

/-- Where the entries of the result lie: entry `c` of the `t`-th subspace at `t * K + c.2`; every place is taken exactly
once. -/
structure Lay (K : Int) (cs : List (Int × Int)) (L : Nat) : Prop where
  bound : ∀ t, t < L → ∀ c ∈ cs, 0 ≤ (t : Int) * K + c.2 ∧ ((t : Int) * K + c.2).toNat < L * cs.length
  inj : ∀ t t', t < L → t' < L → ∀ c ∈ cs, ∀ c' ∈ cs, (t : Int) * K + c.2 = (t' : Int) * K + c'.2 → t = t' ∧ c = c'
  surj : ∀ i, i < L * cs.length → ∃ t, t < L ∧ ∃ c ∈ cs, ((t : Int) * K + c.2).toNat = i

/-- `l` shows, in the `t`-th subspace, the elements of `g t` at the `t`-th offset. -/
structure Shows (K : Int) (cs : List (Int × Int)) (O : List Int) (l : List Rat) (g : Nat → List Rat) : Prop where
  length : l.length = O.length * cs.length
  get : ∀ (t : Nat) (o : Int), O[t]? = some o → ∀ c ∈ cs, l[((t : Int) * K + c.2).toNat]? = (g t)[(o + c.1).toNat]?

theorem Shows.unique {K : Int} {cs : List (Int × Int)} {O : List Int} {l l' : List Rat} {g : Nat → List Rat}
    (hlay : Lay K cs O.length) (h : Shows K cs O l g) (h' : Shows K cs O l' g) : l = l' := by
  apply List.ext_getElem?
  intro i
  by_cases hi : i < O.length * cs.length
  · obtain ⟨t, ht, c, hc, rfl⟩ := hlay.surj i hi
    rw [h.get t _ (List.getElem?_eq_getElem ht) c hc, h'.get t _ (List.getElem?_eq_getElem ht) c hc]
  · rw [List.getElem?_eq_none (by rw [h.length]; omega), List.getElem?_eq_none (by rw [h'.length]; omega)]

theorem applyUpdate2_eq {P : Adv} {upd : List Nat} {u : Update Rat} {sub : Int} {s : AdvState} {idx : Nat}
    (hu : u.isChange = true) : P.applyUpdate2 upd u sub s idx = P.applyUpdate1 upd u sub s idx := by
  obtain ⟨i, o, v⟩ := u
  cases o with
  | none => simp [Update.isChange] at hu
  | some o =>
    cases v with
    | none => simp [Update.isChange] at hu
    | some v =>
      unfold Adv.applyUpdate2 Adv.applyUpdate1
      by_cases hm : idx ∈ upd
      · rw [if_pos hm, if_pos hm]
      · rw [if_neg hm, if_neg hm]
        cases s.data[((idx : Int) * P.subspace + sub).toNat]? with
        | none => rfl
        | some now => simp [Update.placed]

/-- The indices affected by one change of the indexed array. -/
theorem apply_loop {P : Adv} {upd : List Nat} {i : Nat} {a b : Rat} {sub : Int} :
    ∀ (ts : List Nat) {s : AdvState} {l : List Rat}, s.data = l.map some → l.length ≤ N → ts.Nodup →
    (∀ t ∈ ts, 0 ≤ (t : Int) * P.subspace + sub) →
    (∀ t ∈ ts, ∀ t' ∈ ts, (t : Int) * P.subspace + sub = (t' : Int) * P.subspace + sub → t = t') →
    (∀ t ∈ ts, t ∉ upd → l[((t : Int) * P.subspace + sub).toNat]? = some a) →
    ∃ s' l', ts.foldlM (P.applyUpdate1 upd (Update.change i a b) sub) s = .ok s' ∧ Acts N dyn s s' l l' ∧
      l'.length = l.length ∧
      (∀ t ∈ ts, t ∉ upd → l'[((t : Int) * P.subspace + sub).toNat]? = some b) ∧
      (∀ j, (∀ t ∈ ts, t ∉ upd → ((t : Int) * P.subspace + sub).toNat ≠ j) → l'[j]? = l[j]?) := by
  intro ts
  induction ts with
  | nil => intro s l hs hN _ _ _ _; exact ⟨s, l, rfl, Acts.refl hs, rfl, by simp, by simp⟩
  | cons t ts ih =>
    intro s l hs hN hnd hpos hinj hold
    rw [List.nodup_cons] at hnd
    rw [List.foldlM_cons]
    by_cases hm : t ∈ upd
    · have hstep : P.applyUpdate1 upd (Update.change i a b) sub s t = .ok s := by
        unfold Adv.applyUpdate1; rw [if_pos hm]
      rw [hstep]
      simp only [Res.ok_bind]
      obtain ⟨s', l', he, ha, hl, hin, hout⟩ := ih hs hN hnd.2 (fun t' h => hpos t' (by simp [h]))
        (fun t' h t'' h' => hinj t' (by simp [h]) t'' (by simp [h'])) (fun t' h => hold t' (by simp [h]))
      refine ⟨s', l', he, ha, hl, ?_, ?_⟩
      · intro t' h hn
        rcases List.mem_cons.1 h with rfl | h
        · exact absurd hm hn
        · exact hin t' h hn
      · intro j hj
        exact hout j (fun t' h => hj t' (by simp [h]))
    · have hget := hold t (by simp) hm
      have hlt := (List.getElem?_eq_some_iff.1 hget).1
      have hstep : P.applyUpdate1 upd (Update.change i a b) sub s t = .ok { s with
          data := s.data.set ((t : Int) * P.subspace + sub).toNat (some b)
          diff := s.diff ++ [Update.change ((t : Int) * P.subspace + sub).toNat a b] } := by
        unfold Adv.applyUpdate1
        rw [if_neg hm]
        have hd : s.data[((t : Int) * P.subspace + sub).toNat]? = some (some a) := by
          rw [hs, List.getElem?_map, hget]; rfl
        rw [hd]
        simp only
        rw [guardUB_true (hpos t (by simp)), guardUB_true (by simp)]
        rfl
      rw [hstep]
      simp only [Res.ok_bind]
      have ha := Acts.change (N := N) (dyn := dyn) (b := b) hs hget (by omega)
      obtain ⟨s', l', he, ha', hl, hin, hout⟩ := ih (l := l.set ((t : Int) * P.subspace + sub).toNat b) ha.data
        (by simpa using hN) hnd.2 (fun t' h => hpos t' (by simp [h]))
        (fun t' h t'' h' => hinj t' (by simp [h]) t'' (by simp [h'])) (by
          intro t' h hn
          rw [List.getElem?_set_ne]
          · exact hold t' (by simp [h]) hn
          · intro e
            have h1 := hpos t (by simp)
            have h2 := hpos t' (by simp [h])
            have := hinj t (by simp) t' (by simp [h]) (by omega)
            exact hnd.1 (this ▸ h))
      refine ⟨s', l', he, ha.trans ha', by simpa using hl, ?_, ?_⟩
      · intro t' h hn
        rcases List.mem_cons.1 h with rfl | h
        · rw [hout, List.getElem?_set_self hlt]
          intro t'' h'' _ e
          have h1 := hpos t' (by simp)
          have h2 := hpos t'' (by simp [h''])
          have := hinj t' (by simp) t'' (by simp [h'']) (by omega)
          exact hnd.1 (this ▸ h'')
        · exact hin t' h hn
      · intro j hj
        rw [hout j (fun t' h => hj t' (by simp [h])), List.getElem?_set_ne (hj t (by simp) hm)]

/-- `get_mapped_index` finds, for every position `u` of the indexed array, the offset and the place in the subspace by which
it is shown. -/
def MapOk (P : Adv) (dims : List Int) (n : Nat) (cs : List (Int × Int)) (O : List Int) : Prop :=
  ∀ u, u < n → ∃ mo ms, Adv.mapIndex P.indexNdim u P.kinds (itemStrides P.operand) dims P.strides false = .ok (mo, ms) ∧
    (∃ c ∈ cs, c.2 = ms) ∧ ∀ o ∈ O, ∀ c ∈ cs, ((o + c.1).toNat = u ↔ o = mo ∧ c.2 = ms)

/-- Changes of the indexed array. -/
theorem base_loop {P : Adv} {x : Arr Rat} {n : Nat} {cs : List (Int × Int)} {O : List Int} {upd : List Nat} {A' : List Rat}
    {apply : Update Rat → Int → AdvState → Nat → Res AdvState}
    (happly : ∀ u sub s idx, u.isChange = true → apply u sub s idx = P.applyUpdate1 upd u sub s idx)
    (hlay : Lay P.subspace cs O.length) (hmap : MapOk P x.shapeNow n cs O) (hN : O.length * cs.length ≤ N) :
    ∀ {d : List (Update Rat)} {A : List Rat} {s : AdvState} {l : List Rat}, Replays A d A' → (∀ u ∈ d, u.isChange = true) →
      A.length = n → s.data = l.map some → s.track = true → RevOk s.reverse (fun t => O[t]?) →
      Shows P.subspace cs O l (fun t => if t ∈ upd then A' else A) →
      ∃ s' l', d.foldlM (P.baseUpdate x n apply) s = .ok s' ∧ Acts N dyn s s' l l' ∧
        Shows P.subspace cs O l' (fun _ => A') := by
  intro d
  induction d with
  | nil =>
    intro A s l hr _ hn hs ht hrev hsh
    simp at hr
    subst hr
    refine ⟨s, l, rfl, Acts.refl hs, hsh.length, ?_⟩
    intro t o ho c hc
    have := hsh.get t o ho c hc
    simpa using this
  | cons u d ih =>
    intro A s l hr hc hn hs ht hrev hsh
    obtain ⟨A1, h1, h2⟩ := replays_cons.1 hr
    have huc := hc u (by simp)
    obtain ⟨a, b, hget, hu, hA1⟩ : ∃ a b, A[u.index]? = some a ∧ u = Update.change u.index a b ∧ A1 = A.set u.index b := by
      rcases step_cases h1 with ⟨v, hu, hm⟩ | ⟨v, hm, hu⟩ | ⟨a, b, hi, hu, hm⟩
      · rw [hu] at huc; simp [Update.isChange] at huc
      · rw [hu] at huc; simp [Update.isChange] at huc
      · exact ⟨a, b, hi, hu, hm⟩
    have hui : u.index < n := by rw [← hn]; exact (List.getElem?_eq_some_iff.1 hget).1
    obtain ⟨mo, ms, hmi, ⟨c0, hc0, hc0s⟩, hiff⟩ := hmap u.index hui
    have hlen : A1.length = n := by rw [hA1]; simpa using hn
    have hrm : (s.reverse mo).Nodup ∧ ∀ t, t ∈ s.reverse mo ↔ O[t]? = some mo := hrev mo
    have hlt : ∀ t ∈ s.reverse mo, t < O.length := by
      intro t ht'
      exact (List.getElem?_eq_some_iff.1 ((hrm.2 t).1 ht')).1
    have hstep : P.baseUpdate x n apply s u =
        (s.reverse mo).foldlM (P.applyUpdate1 upd (Update.change u.index a b) ms) s := by
      unfold Adv.baseUpdate
      rw [if_neg (by omega), hmi]
      simp only [Res.ok_bind, Adv.offsetIdxs, guardUB_true ht]
      congr 1
      funext s idx
      rw [happly u ms s idx huc, hu]
    rw [List.foldlM_cons, hstep]
    have hmem : ∀ t o, O[t]? = some o → o ∈ O := fun t o h => List.mem_of_getElem? h
    obtain ⟨s1, l1, he1, ha1, hl1, hin1, hout1⟩ := apply_loop (N := N) (dyn := dyn) (P := P) (upd := upd) (i := u.index) (a := a) (b := b)
      (sub := ms) (s.reverse mo) hs (by rw [hsh.length]; exact hN) hrm.1
      (by intro t ht'; rw [← hc0s]; exact (hlay.bound t (hlt t ht') c0 hc0).1)
      (by
        intro t ht1 t' ht2 e
        rw [← hc0s] at e
        exact (hlay.inj t t' (hlt t ht1) (hlt t' ht2) c0 hc0 c0 hc0 e).1)
      (by
        intro t ht' hn'
        have ho := (hrm.2 t).1 ht'
        have := hsh.get t mo ho c0 hc0
        rw [if_neg hn'] at this
        rw [hc0s] at this
        rw [this, (hiff mo (hmem t mo ho) c0 hc0).2 ⟨rfl, hc0s⟩]
        exact hget)
    rw [he1]
    simp only [Res.ok_bind]
    obtain ⟨s2, l2, he2, ha2, hsh2⟩ := ih h2 (fun v hv => hc v (by simp [hv])) hlen ha1.data (by rw [ha1.track]; exact ht)
      (by rw [ha1.reverse]; exact hrev) (l := l1) ⟨by rw [hl1]; exact hsh.length, by
        intro t o ho c hcc
        have htO : t < O.length := (List.getElem?_eq_some_iff.1 ho).1
        have hg := hsh.get t o ho c hcc
        by_cases hm : t ∈ upd
        · rw [if_pos hm] at hg ⊢
          rw [hout1, hg]
          intro t' ht' hn' e
          rw [← hc0s] at e
          have hb1 := hlay.bound t htO c hcc
          have hb2 := hlay.bound t' (hlt t' ht') c0 hc0
          obtain ⟨rfl, _⟩ := hlay.inj t t' htO (hlt t' ht') c hcc c0 hc0 (by omega)
          exact hn' hm
        · rw [if_neg hm] at hg ⊢
          by_cases hsame : (o + c.1).toNat = u.index
          · obtain ⟨ho', hc'⟩ := (hiff o (hmem t o ho) c hcc).1 hsame
            have htr : t ∈ s.reverse mo := (hrm.2 t).2 (by rw [ho, ho'])
            rw [hc', hin1 t htr hm, hsame, hA1, List.getElem?_set_self (by omega)]
          · have hget1 : A1[(o + c.1).toNat]? = A[(o + c.1).toNat]? := by
              rw [hA1, List.getElem?_set_ne (fun e => hsame e.symm)]
            rw [hget1, ← hg, hout1]
            intro t' ht' hn' e
            rw [← hc0s] at e
            have hb1 := hlay.bound t htO c hcc
            have hb2 := hlay.bound t' (hlt t' ht') c0 hc0
            obtain ⟨rfl, rfl⟩ := hlay.inj t t' htO (hlt t' ht') c hcc c0 hc0 (by omega)
            have ho2 := (hrm.2 t).1 ht'
            rw [ho] at ho2
            exact hsame ((hiff o (hmem t o ho) c hcc).2 ⟨Option.some.inj ho2, hc0s⟩)⟩
    exact ⟨s2, l2, he2, ha1.trans ha2, hsh2⟩

end Verif
