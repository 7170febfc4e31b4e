import Verif.Lemmas.AdvancedFill
import Verif.Lemmas.Indexing

/-!
# Advanced indexing: the two branches of propagation (lemmas)
-/

set_option linter.unusedSimpArgs false
set_option linter.unusedVariables false

namespace Verif

variable {N : Nat} {dyn : Bool} {P : Adv} {x : Arr Rat} {cs : List (Int × Int)}

/-- All elements shown at offset `o` are inside an array of `n` elements. -/
def Inside (cs : List (Int × Int)) (n : Nat) (o : Int) : Prop := ∀ c ∈ cs, 0 ≤ o + c.1 ∧ (o + c.1).toNat < n

/-- The cells of one subspace follow one another, and so do the subspaces. -/
structure Rows (K : Int) (cs : List (Int × Int)) : Prop where
  stride : K = cs.length
  places : cs.map Prod.snd = (List.range cs.length).map (fun (n : Nat) => (n : Int))

theorem Rows.cell {K : Int} (h : Rows K cs) {c : Int × Int} (hc : c ∈ cs) : 0 ≤ c.2 ∧ c.2 < cs.length := by
  have : c.2 ∈ cs.map Prod.snd := List.mem_map.2 ⟨c, hc, rfl⟩
  rw [h.places, List.mem_map] at this
  obtain ⟨n, hn, e⟩ := this
  rw [List.mem_range] at hn
  omega

theorem Rows.cell_inj {K : Int} (h : Rows K cs) {c c' : Int × Int} (hc : c ∈ cs) (hc' : c' ∈ cs) (e : c.2 = c'.2) : c = c' := by
  have hnd : (cs.map Prod.snd).Nodup := by
    rw [h.places]
    exact List.Nodup.map (fun a b e => by simpa using e) List.nodup_range
  exact List.inj_on_of_nodup_map hnd hc hc' e

theorem Rows.lay {K : Int} (h : Rows K cs) (L : Nat) : Lay K cs L where
  bound := by
    intro t ht c hc
    have h1 := h.cell hc
    rw [h.stride]
    have h2 : (t : Int) * cs.length + cs.length ≤ (L : Int) * cs.length := by
      have : ((t : Int) + 1) * cs.length ≤ (L : Int) * cs.length :=
        Int.mul_le_mul_of_nonneg_right (by omega) (by omega)
      rw [Int.add_mul] at this
      omega
    have h3 : 0 ≤ (t : Int) * cs.length := Int.mul_nonneg (by omega) (by omega)
    refine ⟨by omega, ?_⟩
    have h4 : ((L * cs.length : Nat) : Int) = (L : Int) * cs.length := by push_cast; rfl
    omega
  inj := by
    intro t t' _ _ c hc c' hc' e
    have h1 := h.cell hc
    have h2 := h.cell hc'
    rw [h.stride] at e
    have hpos : (0 : Int) < cs.length := by omega
    have ht : (t : Int) = t' := by
      have e1 : ((t : Int) * cs.length + c.2) / cs.length = t := by
        rw [Int.add_comm, Int.add_mul_ediv_right _ _ (by omega), Int.ediv_eq_zero_of_lt h1.1 h1.2]; omega
      have e2 : ((t' : Int) * cs.length + c'.2) / cs.length = t' := by
        rw [Int.add_comm, Int.add_mul_ediv_right _ _ (by omega), Int.ediv_eq_zero_of_lt h2.1 h2.2]; omega
      rw [← e1, ← e2, e]
    refine ⟨by omega, h.cell_inj hc hc' ?_⟩
    rw [ht] at e
    omega
  surj := by
    intro i hi
    have hpos : 0 < cs.length := by
      rcases Nat.eq_zero_or_pos cs.length with h0 | h0
      · rw [h0] at hi; omega
      · exact h0
    refine ⟨i / cs.length, ?_, ?_⟩
    · rw [Nat.div_lt_iff_lt_mul hpos]; exact hi
    · have hm := Nat.mod_lt i hpos
      have : ((i % cs.length : Nat) : Int) ∈ cs.map Prod.snd := by
        rw [h.places, List.mem_map]
        exact ⟨i % cs.length, List.mem_range.2 hm, rfl⟩
      obtain ⟨c, hc, e⟩ := List.mem_map.1 this
      refine ⟨c, hc, ?_⟩
      rw [e, h.stride]
      have := Nat.div_add_mod i cs.length
      have h2 : (((i / cs.length : Nat) : Int) * (cs.length : Int) + ((i % cs.length : Nat) : Int)) = (i : Int) := by
        rw [← Nat.cast_mul, ← Nat.cast_add, Nat.mul_comm, this]
      rw [h2]; simp

/-- Rewriting one subspace. -/
theorem fillSub_change {L t : Nat} {o : Int} {s : AdvState} {l : List Rat} (hcs : P.subspaceCells x.shapeNow = cs)
    (hlay : Lay P.subspace cs L) (ht : t < L) (hin : Inside cs x.data.length o) (hs : s.data = l.map some)
    (hl : l.length = L * cs.length) (hN : L * cs.length ≤ N) :
    ∃ s' l', P.fillSubspace .change x s o t = .ok s' ∧ Acts N dyn s s' l l' ∧ l'.length = l.length ∧
      (∀ c ∈ cs, l'[((t : Int) * P.subspace + c.2).toNat]? = x.data[(o + c.1).toNat]?) ∧
      (∀ t', t' < L → t' ≠ t → ∀ c ∈ cs, l'[((t' : Int) * P.subspace + c.2).toNat]? =
        l[((t' : Int) * P.subspace + c.2).toNat]?) := by
  obtain ⟨s', l', he, ha, hl', hin', hout⟩ := fill_change (N := N) (dyn := dyn) (x := x.data)
    (cs.map fun c => (o + c.1, (t : Int) * P.subspace + c.2)) hs (by omega) (by
      intro p hp
      obtain ⟨c, hc, rfl⟩ := List.mem_map.1 hp
      have := hlay.bound t ht c hc
      exact ⟨hin c hc, this.1, by rw [hl]; exact this.2⟩) (by
      intro p hp q hq e
      obtain ⟨c, hc, rfl⟩ := List.mem_map.1 hp
      obtain ⟨c', hc', rfl⟩ := List.mem_map.1 hq
      rw [(hlay.inj t t ht ht c hc c' hc' e).2])
  refine ⟨s', l', ?_, ha, hl', ?_, ?_⟩
  · unfold Adv.fillSubspace
    rw [hcs]
    exact he
  · intro c hc
    exact hin' _ (List.mem_map.2 ⟨c, hc, rfl⟩)
  · intro t' ht' hne c hc
    apply hout
    intro p hp e
    obtain ⟨c', hc', rfl⟩ := List.mem_map.1 hp
    have h1 := hlay.bound t ht c' hc'
    have h2 := hlay.bound t' ht' c hc
    simp only at e
    exact hne (hlay.inj t' t ht' ht c hc c' hc' (by omega)).1

/-- Rewriting the subspaces whose offset changed. -/
theorem fill_rows {F : AdvState → Update Int → Res AdvState} {L : Nat} (hcs : P.subspaceCells x.shapeNow = cs)
    (hlay : Lay P.subspace cs L) (hN : L * cs.length ≤ N) :
    ∀ (us : List (Update Int)) {s : AdvState} {l : List Rat},
    (∀ u ∈ us, ∀ s, F s u = P.fillSubspace .change x s (u.value.getD 0) u.index) →
    (∀ u ∈ us, u.index < L ∧ Inside cs x.data.length (u.value.getD 0)) → us.Pairwise (fun u v => u.index ≠ v.index) →
    s.data = l.map some → l.length = L * cs.length →
    ∃ s' l', us.foldlM F s = .ok s' ∧ Acts N dyn s s' l l' ∧ l'.length = l.length ∧
      (∀ u ∈ us, ∀ c ∈ cs, l'[((u.index : Int) * P.subspace + c.2).toNat]? = x.data[(u.value.getD 0 + c.1).toNat]?) ∧
      (∀ t, t < L → t ∉ us.map Update.index → ∀ c ∈ cs, l'[((t : Int) * P.subspace + c.2).toNat]? =
        l[((t : Int) * P.subspace + c.2).toNat]?) := by
  intro us
  induction us with
  | nil => intro s l _ _ _ hs hl; exact ⟨s, l, rfl, Acts.refl hs, rfl, by simp, by simp⟩
  | cons u us ih =>
    intro s l hF hu hp hs hl
    rw [List.pairwise_cons] at hp
    obtain ⟨h1, h2⟩ := hu u (by simp)
    obtain ⟨s1, l1, he1, ha1, hl1, hin1, hout1⟩ := fillSub_change (N := N) (dyn := dyn) hcs hlay h1 h2 hs hl hN
    rw [List.foldlM_cons, hF u (by simp), he1]
    simp only [Res.ok_bind]
    obtain ⟨s2, l2, he2, ha2, hl2, hin2, hout2⟩ := ih (fun v hv => hF v (by simp [hv])) (fun v hv => hu v (by simp [hv]))
      hp.2 ha1.data (by omega)
    refine ⟨s2, l2, he2, ha1.trans ha2, by omega, ?_, ?_⟩
    · intro v hv c hc
      rcases List.mem_cons.1 hv with rfl | hv
      · rw [hout2 v.index h1 (by
          intro hm
          obtain ⟨w, hw, e⟩ := List.mem_map.1 hm
          exact hp.1 w hw e.symm) c hc]
        exact hin1 c hc
      · exact hin2 v hv c hc
    · intro t ht hm c hc
      rw [List.map_cons, List.mem_cons, not_or] at hm
      rw [hout2 t ht hm.2 c hc, hout1 t ht hm.1 c hc]

/-- Appending subspaces. -/
theorem place_rows (hcs : P.subspaceCells x.shapeNow = cs) (hrow : Rows P.subspace cs) :
    ∀ (us : List (Update Int)) {s : AdvState} {l : List Rat} {L : Nat},
    (∀ u ∈ us, u.placed = true ∧ Inside cs x.data.length (u.value.getD 0)) →
    us.map Update.index = List.range' L us.length → s.data = l.map some → l.length = L * cs.length →
    (L + us.length) * cs.length ≤ N →
    ∃ s' l', us.foldlM (P.fillUpdate1 x) s = .ok s' ∧ Acts N true s s' l l' ∧ l'.length = (L + us.length) * cs.length ∧
      (∀ u ∈ us, ∀ c ∈ cs, l'[((u.index : Int) * P.subspace + c.2).toNat]? = x.data[(u.value.getD 0 + c.1).toNat]?) ∧
      (∀ i, i < L * cs.length → l'[i]? = l[i]?) := by
  intro us
  induction us with
  | nil =>
    intro s l L _ _ hs hl hN
    exact ⟨s, l, rfl, Acts.refl hs, by simpa using hl, by simp, by simp⟩
  | cons u us ih =>
    intro s l L hu hix hs hl hN
    obtain ⟨h1, h2⟩ := hu u (by simp)
    rw [List.map_cons, List.length_cons, List.range'_succ] at hix
    obtain ⟨hi, hix⟩ := List.cons.inj hix
    have hN1 : (L + 1) * cs.length ≤ N := by
      refine Nat.le_trans (Nat.mul_le_mul_right _ ?_) hN
      simp
    obtain ⟨s1, he1, ha1⟩ := fill_place (N := N) (x := x.data)
      (cs.map fun c => (u.value.getD 0 + c.1, (u.index : Int) * P.subspace + c.2)) hs (by
        rw [hl, List.length_map, ← Nat.succ_mul]; exact hN1) (by
        intro p hp
        obtain ⟨c, hc, rfl⟩ := List.mem_map.1 hp
        exact h2 c hc) (by
        rw [List.map_map, List.length_map, hl, hi, hrow.stride]
        have : (Prod.snd ∘ fun (c : Int × Int) => (u.value.getD 0 + c.1, (L : Int) * (cs.length : Int) + c.2)) =
            (fun (n : Int) => (L : Int) * (cs.length : Int) + n) ∘ Prod.snd := rfl
        rw [this, ← List.map_map, hrow.places, List.map_map, List.range'_eq_map_range, List.map_map]
        apply List.map_congr_left
        intro n _
        simp)
    have hstep : P.fillUpdate1 x s u = .ok s1 := by
      unfold Adv.fillUpdate1 Adv.fillSubspace
      rw [h1, hcs]
      exact he1
    rw [List.foldlM_cons, hstep]
    simp only [Res.ok_bind]
    have hlen1 : (l ++ (cs.map fun c => (u.value.getD 0 + c.1, (u.index : Int) * P.subspace + c.2)).map
        (fun p => x.data.getD p.1.toNat 0)).length = (L + 1) * cs.length := by
      simp only [List.length_append, List.length_map, hl, Nat.succ_mul]
    obtain ⟨s2, l2, he2, ha2, hl2, hin2, hout2⟩ := ih (L := L + 1) (fun v hv => hu v (by simp [hv])) hix ha1.data hlen1
      (by
        have : L + 1 + us.length = L + (u :: us).length := by simp; omega
        rw [this]; exact hN)
    have hlt : L * cs.length ≤ (L + 1) * cs.length := Nat.mul_le_mul_right _ (by omega)
    refine ⟨s2, l2, he2, ha1.trans ha2, ?_, ?_, ?_⟩
    · rw [hl2]
      congr 1
      simp; omega
    · intro v hv c hc
      rcases List.mem_cons.1 hv with rfl | hv
      · have hb := (hrow.lay (L + 1)).bound v.index (by omega) c hc
        rw [hout2 _ hb.2]
        have hcell := hrow.cell hc
        obtain ⟨j, hj, hjc⟩ := List.mem_iff_getElem.1 hc
        have hj2 : c.2 = (j : Int) := by
          have := congrArg (·[j]?) hrow.places
          simp only [List.getElem?_map, List.getElem?_eq_getElem hj, List.getElem?_range hj, Option.map_some] at this
          rw [hjc] at this
          exact Option.some.inj this
        have hidx : ((v.index : Int) * P.subspace + c.2).toNat = l.length + j := by
          rw [hrow.stride, hj2, hi, hl]
          have : ((L : Int) * (cs.length : Int) + (j : Int)) = ((L * cs.length + j : Nat) : Int) := by push_cast; rfl
          rw [this, Int.toNat_natCast]
        rw [hidx, List.getElem?_append_right (by omega)]
        simp only [Nat.add_sub_cancel_left, List.getElem?_map, List.getElem?_eq_getElem hj, Option.map_some, hjc]
        have := (h2 c hc).2
        rw [List.getD_eq_getElem?_getD, List.getElem?_eq_getElem this]
        rfl
      · exact hin2 v hv c hc
    · intro i hi'
      rw [hout2 i (by omega), List.getElem?_append_left (by omega)]

/-- Removing subspaces. -/
theorem remove_rows (hcs : P.subspaceCells x.shapeNow = cs) (hrow : Rows P.subspace cs) {L : Nat} :
    ∀ (us : List (Update Int)) {s : AdvState} {l : List Rat},
    us.map Update.index = List.range' L us.length → s.data = l.map some → l.length = (L + us.length) * cs.length →
    l.length ≤ N →
    ∃ s', us.reverse.foldlM (fun s u => P.fillSubspace .remove x s 0 u.index) s = .ok s' ∧
      Acts N true s s' l (l.take (L * cs.length)) := by
  intro us
  induction us using List.reverseRecOn with
  | nil =>
    intro s l _ hs hl hN
    refine ⟨s, rfl, ?_⟩
    rw [List.take_of_length_le (by rw [hl]; simp)]
    exact Acts.refl hs
  | append_singleton us u ih =>
    intro s l hix hs hl hN
    rw [List.map_append, List.length_append, List.length_singleton, List.range'_concat, ] at hix
    obtain ⟨hix, hi⟩ := List.append_inj hix (by simp)
    simp at hi
    rw [List.length_append, List.length_singleton, ← Nat.add_assoc, Nat.succ_mul] at hl
    have hsplit : l = l.take ((L + us.length) * cs.length) ++ l.drop ((L + us.length) * cs.length) :=
      (List.take_append_drop _ _).symm
    have hl0 : (l.take ((L + us.length) * cs.length)).length = (L + us.length) * cs.length := by simp; omega
    obtain ⟨s1, he1, ha1⟩ := fill_remove (N := N) (x := x.data)
      (cs.map fun c => ((0 : Int) + c.1, (u.index : Int) * P.subspace + c.2)) (s := s)
      (l0 := l.take ((L + us.length) * cs.length)) (tail := l.drop ((L + us.length) * cs.length))
      (by rw [← hsplit]; exact hs) (by rw [← List.length_append, ← hsplit]; exact hN)
      (by simp; omega) (by
        rw [List.map_map, List.length_map, hl0, hi, hrow.stride]
        have : (Prod.snd ∘ fun (c : Int × Int) => ((0 : Int) + c.1, ((L + us.length : Nat) : Int) * (cs.length : Int) + c.2)) =
            (fun (n : Int) => ((L + us.length : Nat) : Int) * (cs.length : Int) + n) ∘ Prod.snd := rfl
        rw [this, ← List.map_map, hrow.places, List.map_map, List.range'_eq_map_range, List.map_map]
        apply List.map_congr_left
        intro n _
        simp)
    rw [← hsplit] at ha1
    have hstep : P.fillSubspace .remove x s 0 u.index = .ok s1 := by
      unfold Adv.fillSubspace
      rw [hcs]
      exact he1
    rw [List.reverse_append, List.reverse_singleton, List.singleton_append, List.foldlM_cons, hstep]
    simp only [Res.ok_bind]
    obtain ⟨s2, he2, ha2⟩ := ih hix ha1.data hl0 (by omega)
    refine ⟨s2, he2, ?_⟩
    have := ha1.trans ha2
    rw [List.take_take, Nat.min_eq_left (Nat.mul_le_mul_right _ (by omega))] at this
    exact this

/-- A list with increasing keys is cut in two by a bound. -/
theorem split_increasing {b : Nat} : ∀ {l : List (Update Int)}, l.Pairwise (fun u v => u.index < v.index) →
    l = l.filter (fun u => decide (u.index < b)) ++ l.filter (fun u => decide (b ≤ u.index))
  | [], _ => rfl
  | u :: l, h => by
    rw [List.pairwise_cons] at h
    have ih := split_increasing (b := b) h.2
    by_cases hb : u.index < b
    · rw [List.filter_cons_of_pos (by simpa using hb), List.filter_cons_of_neg (by simp; omega), List.cons_append, ← ih]
    · have h1 : l.filter (fun u => decide (u.index < b)) = [] := by
        rw [List.filter_eq_nil_iff]
        intro v hv
        have := h.1 v hv
        simp; omega
      rw [h1, List.nil_append] at ih
      rw [List.filter_cons_of_neg (by simpa using hb), List.filter_cons_of_pos (by simp; omega), h1, List.nil_append, ← ih]

section parts

variable {O O' : List Int} {r : List (Update Int)}

theorem NetEffect.index_lt (h : NetEffect O r O') {u : Update Int} (hu : u ∈ r) : u.index < max O.length O'.length := by
  obtain ⟨h1, h2, h3⟩ := h.entries u hu
  by_contra hc
  apply h3
  rw [h1, h2, List.getElem?_eq_none (by omega), List.getElem?_eq_none (by omega)]
  exact ⟨rfl, rfl⟩

theorem NetEffect.kept (h : NetEffect O r O') : r.takeWhile (fun u => !u.removed) = r.filter (fun u => decide (u.index < O'.length)) := by
  conv_lhs => rw [split_increasing (b := O'.length) h.increasing]
  rw [List.takeWhile_append_of_pos]
  · have : (r.filter (fun u => decide (O'.length ≤ u.index))).takeWhile (fun u => !u.removed) = [] := by
      cases hr : r.filter (fun u => decide (O'.length ≤ u.index)) with
      | nil => rfl
      | cons u l =>
        have hu : u ∈ r.filter (fun u => decide (O'.length ≤ u.index)) := by rw [hr]; simp
        rw [List.mem_filter] at hu
        have hv := (h.entries u hu.1).2.1
        have h2 : O'.length ≤ u.index := by simpa using hu.2
        rw [List.getElem?_eq_none h2] at hv
        rw [List.takeWhile_cons, if_neg]
        simp [Update.removed, hv]
    rw [this, List.append_nil]
  · intro u hu
    rw [List.mem_filter] at hu
    have hv := (h.entries u hu.1).2.1
    have h2 : u.index < O'.length := by simpa using hu.2
    rw [List.getElem?_eq_getElem h2] at hv
    simp [Update.removed, hv]

theorem NetEffect.gone (h : NetEffect O r O') :
    r.reverse.takeWhile Update.removed = (r.filter (fun u => decide (O'.length ≤ u.index))).reverse := by
  conv_lhs => rw [split_increasing (b := O'.length) h.increasing]
  rw [List.reverse_append, List.takeWhile_append_of_pos]
  · have : (r.filter (fun u => decide (u.index < O'.length))).reverse.takeWhile Update.removed = [] := by
      cases hr : (r.filter (fun u => decide (u.index < O'.length))).reverse with
      | nil => rfl
      | cons u l =>
        have hu : u ∈ (r.filter (fun u => decide (u.index < O'.length))).reverse := by rw [hr]; simp
        rw [List.mem_reverse, List.mem_filter] at hu
        have hv := (h.entries u hu.1).2.1
        have h2 : u.index < O'.length := by simpa using hu.2
        rw [List.getElem?_eq_getElem h2] at hv
        rw [List.takeWhile_cons, if_neg]
        simp [Update.removed, hv]
    rw [this, List.append_nil]
  · intro u hu
    rw [List.mem_reverse, List.mem_filter] at hu
    have hv := (h.entries u hu.1).2.1
    have h2 : O'.length ≤ u.index := by simpa using hu.2
    rw [List.getElem?_eq_none h2] at hv
    simp [Update.removed, hv]

theorem indices_range' {us : List (Update Int)} {a n : Nat} (hp : us.Pairwise (fun u v => u.index < v.index))
    (h : ∀ i, i ∈ us.map Update.index ↔ a ≤ i ∧ i < a + n) : us.map Update.index = List.range' a us.length ∧ us.length = n := by
  have h1 : us.map Update.index = List.range' a n := by
    apply eq_of_increasing
    · rw [List.pairwise_map]; exact hp
    · exact List.pairwise_lt_range'
    · intro i
      rw [h i, List.mem_range'_1]
  have h2 : us.length = n := by
    have := congrArg List.length h1
    simpa using this
  exact ⟨by rw [h2]; exact h1, h2⟩

/-- The first branch of the propagation. -/
theorem propagate1_spec {A : List Rat} {d : List (Update Rat)} {s : AdvState} {l : List Rat}
    (hcs : P.subspaceCells x.shapeNow = cs) (hlay : Lay P.subspace cs O.length) (hlay' : Lay P.subspace cs O'.length)
    (hdyn : O.length = O'.length ∨ (dyn = true ∧ Rows P.subspace cs)) (hnet : NetEffect O r O')
    (hin : ∀ o ∈ O', Inside cs x.data.length o) (hrep : Replays A d x.data) (hch : ∀ u ∈ d, u.isChange = true)
    (hAx : A.length = x.data.length)
    (hs : s.data = l.map some) (hod : s.offsetsDiff = r) (hsh : Shows P.subspace cs O l (fun _ => A))
    (hd : d ≠ [] → s.track = true ∧ RevOk s.reverse (fun t => O'[t]?) ∧ MapOk P x.shapeNow x.data.length cs O')
    (hN : max O.length O'.length * cs.length ≤ N) :
    ∃ s' l', P.propagate1 s x d = .ok s' ∧ Acts N dyn s s' l l' ∧ Shows P.subspace cs O' l' (fun _ => x.data) := by
  have hN1 : O.length * cs.length ≤ N := Nat.le_trans (Nat.mul_le_mul_right _ (by omega)) hN
  have hN2 : O'.length * cs.length ≤ N := Nat.le_trans (Nat.mul_le_mul_right _ (by omega)) hN
  -- the parts of the list of changes
  have hkinc : (r.filter (fun u => decide (u.index < O'.length))).Pairwise (fun u v => u.index < v.index) :=
    hnet.increasing.filter _
  have hksplit := split_increasing (b := O.length) hkinc
  generalize hkept : r.filter (fun u => decide (u.index < O'.length)) = kept at *
  generalize hchg : kept.filter (fun u => decide (u.index < O.length)) = chg at *
  generalize hpl : kept.filter (fun u => decide (O.length ≤ u.index)) = pl at *
  generalize hrm : r.filter (fun u => decide (O'.length ≤ u.index)) = rm at *
  have hkmem : ∀ u, u ∈ kept ↔ u ∈ r ∧ u.index < O'.length := by intro u; rw [← hkept, List.mem_filter]; simp
  have hcmem : ∀ u, u ∈ chg ↔ u ∈ kept ∧ u.index < O.length := by intro u; rw [← hchg, List.mem_filter]; simp
  have hpmem : ∀ u, u ∈ pl ↔ u ∈ kept ∧ O.length ≤ u.index := by intro u; rw [← hpl, List.mem_filter]; simp
  have hrmem : ∀ u, u ∈ rm ↔ u ∈ r ∧ O'.length ≤ u.index := by intro u; rw [← hrm, List.mem_filter]; simp
  have hkval : ∀ u ∈ kept, ∃ o, O'[u.index]? = some o ∧ u.value.getD 0 = o ∧ o ∈ O' := by
    intro u hu
    have h1 := (hkmem u).1 hu
    have hv := (hnet.entries u h1.1).2.1
    rw [List.getElem?_eq_getElem h1.2] at hv
    exact ⟨_, List.getElem?_eq_getElem h1.2, by rw [hv]; rfl, List.getElem_mem _⟩
  have hkin : ∀ u ∈ kept, Inside cs x.data.length (u.value.getD 0) := by
    intro u hu
    obtain ⟨o, _, e, hm⟩ := hkval u hu
    rw [e]; exact hin o hm
  -- the changed offsets
  obtain ⟨s1, l1, he1, ha1, hl1, hin1, hout1⟩ := fill_rows (N := N) (dyn := dyn) (F := P.fillUpdate1 x) hcs hlay hN1 chg (s := s) (l := l)
    (by
      intro u hu s
      have h1 := (hcmem u).1 hu
      have hold := (hnet.entries u ((hkmem u).1 h1.1).1).1
      rw [List.getElem?_eq_getElem h1.2] at hold
      unfold Adv.fillUpdate1
      rw [if_neg (by simp [Update.placed, hold])])
    (fun u hu => ⟨((hcmem u).1 hu).2, hkin u ((hcmem u).1 hu).1⟩)
    (by
      rw [← hchg]
      exact (hkinc.filter _).imp (fun h => by omega)) hs hsh.length
  -- placements and removals
  have hmid : ∃ s2, pl.foldlM (P.fillUpdate1 x) s1 = .ok s2 ∧ ∃ s3 l3,
      rm.reverse.foldlM (fun s u => P.fillSubspace .remove x s 0 u.index) s2 = .ok s3 ∧ Acts N dyn s1 s3 l1 l3 ∧
      l3.length = O'.length * cs.length ∧
      (∀ u ∈ pl, ∀ c ∈ cs, l3[((u.index : Int) * P.subspace + c.2).toNat]? = x.data[(u.value.getD 0 + c.1).toNat]?) ∧
      (∀ i, i < O.length * cs.length → i < O'.length * cs.length → l3[i]? = l1[i]?) := by
    rcases Nat.lt_trichotomy O.length O'.length with hlt | heq | hgt
    · obtain ⟨rfl, hrow⟩ := hdyn.resolve_left (by omega)
      have hrmnil : rm = [] := by
        rw [List.eq_nil_iff_forall_not_mem]
        intro u hu
        have h1 := (hrmem u).1 hu
        have := hnet.index_lt h1.1
        omega
      have hplr := indices_range' (us := pl) (a := O.length) (n := O'.length - O.length) (by
          rw [← hpl]; exact hkinc.filter _) (by
          intro i
          rw [List.mem_map]
          constructor
          · rintro ⟨u, hu, rfl⟩
            have h1 := (hpmem u).1 hu
            have h2 := (hkmem u).1 h1.1
            omega
          · intro hi
            by_contra hc
            have : ∀ u ∈ r, u.index ≠ i := by
              intro u hu e
              exact hc ⟨u, (hpmem u).2 ⟨(hkmem u).2 ⟨hu, by omega⟩, by omega⟩, e⟩
            have := hnet.complete i this
            rw [List.getElem?_eq_none (by omega), List.getElem?_eq_getElem (by omega)] at this
            cases this)
      obtain ⟨s2, l2, he2, ha2, hl2, hin2, hout2⟩ := place_rows (N := N) hcs hrow pl (s := s1) (l := l1) (L := O.length) (by
          intro u hu
          have h1 := (hpmem u).1 hu
          have hold := (hnet.entries u ((hkmem u).1 h1.1).1).1
          rw [List.getElem?_eq_none h1.2] at hold
          obtain ⟨o, ho, hv, _⟩ := hkval u h1.1
          refine ⟨?_, hkin u h1.1⟩
          have hvv := (hnet.entries u ((hkmem u).1 h1.1).1).2.1
          rw [ho] at hvv
          simp [Update.placed, hold, hvv]) hplr.1 ha1.data (by rw [hl1]; exact hsh.length) (by
          rw [hplr.2, Nat.add_sub_cancel' (by omega)]; exact hN2)
      refine ⟨s2, he2, s2, l2, by rw [hrmnil]; rfl, ha2, ?_, hin2, fun i hi _ => hout2 i hi⟩
      rw [hl2, hplr.2, Nat.add_sub_cancel' (by omega)]
    · have hrmnil : rm = [] := by
        rw [List.eq_nil_iff_forall_not_mem]
        intro u hu
        have h1 := (hrmem u).1 hu
        have := hnet.index_lt h1.1
        omega
      have hplnil : pl = [] := by
        rw [List.eq_nil_iff_forall_not_mem]
        intro u hu
        have h1 := (hpmem u).1 hu
        have := hnet.index_lt ((hkmem u).1 h1.1).1
        omega
      refine ⟨s1, by rw [hplnil]; rfl, s1, l1, by rw [hrmnil]; rfl, Acts.refl ha1.data, ?_, by simp [hplnil], fun i _ _ => rfl⟩
      rw [hl1, hsh.length, heq]
    · obtain ⟨rfl, hrow⟩ := hdyn.resolve_left (by omega)
      have hplnil : pl = [] := by
        rw [List.eq_nil_iff_forall_not_mem]
        intro u hu
        have h1 := (hpmem u).1 hu
        have := (hkmem u).1 h1.1
        omega
      have hrmr := indices_range' (us := rm) (a := O'.length) (n := O.length - O'.length) (by
          rw [← hrm]; exact hnet.increasing.filter _) (by
          intro i
          rw [List.mem_map]
          constructor
          · rintro ⟨u, hu, rfl⟩
            have h1 := (hrmem u).1 hu
            have := hnet.index_lt h1.1
            omega
          · intro hi
            by_contra hc
            have : ∀ u ∈ r, u.index ≠ i := by
              intro u hu e
              exact hc ⟨u, (hrmem u).2 ⟨hu, by omega⟩, e⟩
            have := hnet.complete i this
            rw [List.getElem?_eq_getElem (by omega), List.getElem?_eq_none (by omega)] at this
            cases this)
      obtain ⟨s3, he3, ha3⟩ := remove_rows (N := N) (x := x) hcs hrow (L := O'.length) rm (s := s1) (l := l1) hrmr.1 ha1.data (by
          rw [hl1, hsh.length, hrmr.2, Nat.add_sub_cancel' (by omega)]) (by rw [hl1, hsh.length]; exact hN1)
      have hle : O'.length * cs.length ≤ O.length * cs.length := Nat.mul_le_mul_right _ (by omega)
      refine ⟨s1, by rw [hplnil]; rfl, s3, _, he3, ha3, ?_, by simp [hplnil], fun i _ hi => List.getElem?_take_of_lt hi⟩
      rw [List.length_take, hl1, hsh.length]
      omega
  obtain ⟨s2, he2, s3, l3, he3, ha3, hl3, hin3, hout3⟩ := hmid
  have hshow : Shows P.subspace cs O' l3 (fun t => if t ∈ kept.map Update.index then x.data else A) := by
    refine ⟨hl3, ?_⟩
    intro t o ho c hc
    have ht : t < O'.length := (List.getElem?_eq_some_iff.1 ho).1
    have hb := (hlay'.bound t ht c hc).2
    by_cases hm : t ∈ kept.map Update.index
    · rw [if_pos hm]
      obtain ⟨u, hu, rfl⟩ := List.mem_map.1 hm
      obtain ⟨o', ho', e, _⟩ := hkval u hu
      rw [ho] at ho'
      obtain rfl := Option.some.inj ho'
      by_cases hlt : u.index < O.length
      · rw [hout3 _ (hlay.bound u.index hlt c hc).2 hb, hin1 u ((hcmem u).2 ⟨hu, hlt⟩) c hc, e]
      · rw [hin3 u ((hpmem u).2 ⟨hu, by omega⟩) c hc, e]
    · rw [if_neg hm]
      have hsame : O[t]? = O'[t]? := by
        apply hnet.complete
        intro u hu e
        exact hm (List.mem_map.2 ⟨u, (hkmem u).2 ⟨hu, by omega⟩, e⟩)
      rw [ho] at hsame
      have htO : t < O.length := (List.getElem?_eq_some_iff.1 hsame).1
      rw [hout3 _ (hlay.bound t htO c hc).2 hb, hout1 t htO (by
        intro hmm
        obtain ⟨u, hu, e⟩ := List.mem_map.1 hmm
        exact hm (List.mem_map.2 ⟨u, ((hcmem u).1 hu).1, e⟩)) c hc]
      exact hsh.get t o hsame c hc
  have hfirst : ∀ (upd : List Nat), P.propagate1 s x d = (d.foldlM (P.baseUpdate x x.data.length
      (P.applyUpdate1 (if d = [] then [] else kept.map Update.index))) s3) := by
    intro _
    unfold Adv.propagate1
    rw [hod]
    simp only []
    rw [hnet.kept, hnet.gone, hkept, hrm]
    have : kept.foldlM (P.fillUpdate1 x) s = .ok s2 := by
      rw [hksplit, List.foldlM_append, he1]
      exact he2
    simp only [this, Res.ok_bind, he3]
  rw [hfirst []]
  by_cases hdn : d = []
  · subst hdn
    simp at hrep
    subst hrep
    refine ⟨s3, l3, rfl, ha1.trans ha3, hshow.length, ?_⟩
    intro t o ho c hc
    have := hshow.get t o ho c hc
    simpa using this
  · obtain ⟨htr, hrev, hmap⟩ := hd hdn
    rw [if_neg hdn]
    obtain ⟨s4, l4, he4, ha4, hsh4⟩ := base_loop (N := N) (dyn := dyn) (P := P) (x := x) (A' := x.data) (upd := kept.map Update.index)
      (apply := P.applyUpdate1 (kept.map Update.index)) (fun _ _ _ _ _ => rfl) hlay' hmap hN2 hrep hch hAx
      (ha1.trans ha3).data (by rw [(ha1.trans ha3).track]; exact htr) (by rw [(ha1.trans ha3).reverse]; exact hrev) hshow
    exact ⟨s4, l4, he4, (ha1.trans ha3).trans ha4, hsh4⟩

/-- The rows of one subspace together are the subspace. -/
theorem rows_subspace (hb1 : P.bullet1 = false) (hk : P.kinds.head? = some false) (hdims : x.shapeNow ≠ [])
    (hst : itemStrides P.operand ≠ []) (hout : P.strides ≠ []) (t : Nat) (o : Int) (s : AdvState) :
    (List.range (x.shapeNow.headD 0).toNat).foldlM (fun s r => P.fillAxis0 .change x r s o t) s =
      P.fillSubspace .change x s o t := by
  obtain ⟨ks, hks⟩ : ∃ ks, P.kinds = false :: ks := by
    cases hP : P.kinds with
    | nil => rw [hP] at hk; simp at hk
    | cons k ks => rw [hP] at hk; simp at hk; subst hk; exact ⟨ks, rfl⟩
  obtain ⟨n, dims, hd⟩ := List.exists_cons_of_ne_nil hdims
  obtain ⟨st, sts, hst'⟩ := List.exists_cons_of_ne_nil hst
  obtain ⟨o0, os, ho⟩ := List.exists_cons_of_ne_nil hout
  unfold Adv.fillSubspace Adv.subspaceCells Adv.fillAxis0
  rw [hks, hd, hst', hb1, ho]
  simp only [guardUB_true, Res.ok_bind, cells, List.headD_cons, List.drop_one, List.tail_cons, Bool.false_eq_true, if_false,
    reduceCtorEq, List.map_flatMap, List.map_map, Nat.zero_add]
  generalize List.range n.toNat = rows
  induction rows generalizing s with
  | nil => rfl
  | cons r rows ih =>
    rw [List.foldlM_cons, List.flatMap_cons, List.foldlM_append]
    have : (cells false P.first 1 ks dims sts os).map (fun c => ((r : Int) * st + o + c.1, (r : Int) * o0 + (t : Int) * P.subspace + c.2)) =
        (cells false P.first 1 ks dims sts os).map ((fun c => (o + c.1, (t : Int) * P.subspace + c.2)) ∘ fun c => ((r : Int) * st + c.1, (r : Int) * o0 + c.2)) := by
      apply List.map_congr_left
      intro c _
      simp only [Function.comp_apply, Prod.mk.injEq]
      constructor <;> ring
    rw [this]
    congr 1
    funext s
    exact ih s

/-- The second branch of the propagation, for an indexed array of fixed size. -/
theorem propagate2_spec {A : List Rat} {d : List (Update Rat)} {s : AdvState} {l : List Rat}
    (hb1 : P.bullet1 = false) (hk : P.kinds.head? = some false) (hdims : x.shapeNow ≠ []) (hst : itemStrides P.operand ≠ [])
    (hout : P.strides ≠ []) (hst0 : 0 < (itemStrides P.operand).headD 0)
    (hrows : x.data.length / ((itemStrides P.operand).headD 0).toNat = (x.shapeNow.headD 0).toNat)
    (hcs : P.subspaceCells x.shapeNow = cs) (hlay : Lay P.subspace cs O.length)
    (hlen : O.length = O'.length) (hnet : NetEffect O r O')
    (hin : ∀ o ∈ O', Inside cs x.data.length o) (hrep : Replays A d x.data) (hch : ∀ u ∈ d, u.isChange = true)
    (hAx : A.length = x.data.length)
    (hs : s.data = l.map some) (hod : s.offsetsDiff = r) (hsh : Shows P.subspace cs O l (fun _ => A))
    (hd : d ≠ [] → s.track = true ∧ RevOk s.reverse (fun t => O'[t]?) ∧ MapOk P x.shapeNow x.data.length cs O')
    (hN : O.length * cs.length ≤ N) :
    ∃ s' l', P.propagate2 s x x.data.length d = .ok s' ∧ Acts N dyn s s' l l' ∧ Shows P.subspace cs O' l' (fun _ => x.data) := by
  have hlay' : Lay P.subspace cs O'.length := hlen ▸ hlay
  have hlt : ∀ u ∈ r, u.index < O.length ∧ u.index < O'.length := by
    intro u hu
    have := hnet.index_lt hu
    omega
  have hval : ∀ u ∈ r, ∃ o, O'[u.index]? = some o ∧ u.value = some o ∧ o ∈ O' := by
    intro u hu
    have hv := (hnet.entries u hu).2.1
    rw [List.getElem?_eq_getElem (hlt u hu).2] at hv
    exact ⟨_, List.getElem?_eq_getElem (hlt u hu).2, hv, List.getElem_mem _⟩
  obtain ⟨s1, l1, he1, ha1, hl1, hin1, hout1⟩ := fill_rows (N := N) (dyn := dyn) (F := P.fillUpdate2 x (x.shapeNow.headD 0).toNat)
    hcs hlay hN r (s := s) (l := l)
    (by
      intro u hu s
      have hold := (hnet.entries u hu).1
      rw [List.getElem?_eq_getElem (hlt u hu).1] at hold
      obtain ⟨o, _, hv, _⟩ := hval u hu
      rw [← rows_subspace hb1 hk hdims hst hout]
      unfold Adv.fillUpdate2
      congr 1
      funext s r
      rw [guardUB_true (by simp [Update.placed, Update.removed, hold, hv])]
      rfl)
    (fun u hu => ⟨(hlt u hu).1, by
      obtain ⟨o, _, hv, hm⟩ := hval u hu
      rw [hv]; exact hin o hm⟩)
    (hnet.increasing.imp (fun h => by omega)) hs hsh.length
  have hshow : Shows P.subspace cs O' l1 (fun t => if t ∈ r.map Update.index then x.data else A) := by
    refine ⟨by rw [hl1, hsh.length, hlen], ?_⟩
    intro t o ho c hc
    have ht : t < O'.length := (List.getElem?_eq_some_iff.1 ho).1
    by_cases hm : t ∈ r.map Update.index
    · rw [if_pos hm]
      obtain ⟨u, hu, rfl⟩ := List.mem_map.1 hm
      obtain ⟨o', ho', e, _⟩ := hval u hu
      rw [ho] at ho'
      obtain rfl := Option.some.inj ho'
      rw [hin1 u hu c hc, e]
      rfl
    · rw [if_neg hm]
      have hsame : O[t]? = O'[t]? := by
        apply hnet.complete
        intro u hu e
        exact hm (List.mem_map.2 ⟨u, hu, e⟩)
      rw [ho] at hsame
      rw [hout1 t (by omega) hm c hc]
      exact hsh.get t o hsame c hc
  have hfirst : P.propagate2 s x x.data.length d = d.foldlM (P.baseUpdate x x.data.length (P.applyUpdate2 (r.map Update.index))) s1 := by
    unfold Adv.propagate2 Adv.growRows Adv.shrinkRows
    rw [guardUB_true (by omega), hod]
    simp only [Res.ok_bind, Nat.sub_self, List.range_zero, List.foldlM_nil, Nat.min_self, hrows, he1, Res.pure_eq]
  rw [hfirst]
  by_cases hdn : d = []
  · subst hdn
    simp at hrep
    subst hrep
    refine ⟨s1, l1, rfl, ha1, hshow.length, ?_⟩
    intro t o ho c hc
    have := hshow.get t o ho c hc
    simpa using this
  · obtain ⟨htr, hrev, hmap⟩ := hd hdn
    obtain ⟨s4, l4, he4, ha4, hsh4⟩ := base_loop (N := N) (dyn := dyn) (P := P) (x := x) (A' := x.data) (upd := r.map Update.index)
      (apply := P.applyUpdate2 (r.map Update.index)) (fun _ _ _ _ hu => applyUpdate2_eq hu) hlay' hmap (hlen ▸ hN) hrep hch hAx
      ha1.data (by rw [ha1.track]; exact htr) (by rw [ha1.reverse]; exact hrev) hshow
    exact ⟨s4, l4, he4, ha1.trans ha4, hsh4⟩

end parts

end Verif
