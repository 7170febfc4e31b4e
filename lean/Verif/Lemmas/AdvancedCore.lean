import Verif.Lemmas.AdvancedGood

/-!
# Advanced indexing: initialisation, propagation, commit and revert (lemmas)
-/

set_option linter.unusedSimpArgs false
set_option linter.unusedVariables false

namespace Verif

/-- The number of entries of the index arrays. -/
def advSize (ys : List (Arr Rat)) : Nat := (ys.headD ⟨[], []⟩).data.length

/-- Index arrays of one size, within the bounds, with as many entries as the result has subspaces. -/
structure AdvIndices (P : Adv) (ys : List (Arr Rat)) : Prop where
  ne : ys ≠ []
  sizes : ∀ y ∈ ys, y.data.length = advSize ys
  count : AdvCount P (advSize ys)
  inside : ∀ t, t < advSize ys → InShape (arrayDims P.kinds P.operand) (Adv.indexAt ys t)

/-- The indexed array. -/
structure AdvBase (P : Adv) (x : Arr Rat) : Prop where
  now : x.shapeNow = P.operand
  len : (x.data.length : Int) = shapeProd P.operand

variable {P : Adv}

/-- The offsets in step with the index arrays. -/
def Adv.offsetsFor (P : Adv) (ys : List (Arr Rat)) : List Int :=
  offsetsOf P.kinds (itemStrides P.operand) ys (advSize ys)

theorem Adv.offsetsFor_length (ys : List (Arr Rat)) : (P.offsetsFor ys).length = advSize ys := by
  simp [Adv.offsetsFor, offsetsOf]

theorem Adv.offsetsFor_in {ys : List (Arr Rat)} (h : AdvIndices P ys) : ∀ o ∈ P.offsetsFor ys, AdvIn P o := by
  intro o ho
  obtain ⟨t, ht⟩ := List.getElem?_of_mem ho
  obtain ⟨h1, rfl⟩ := offsetsOf_get ht
  exact ⟨_, h.inside t h1, rfl⟩

theorem Adv.select_shows (hg : AdvGood P) {x : Arr Rat} (hx : AdvBase P x) {ys : List (Arr Rat)} (hy : AdvIndices P ys) :
    Shows P.subspace (P.subspaceCells P.operand) (P.offsetsFor ys) (P.select x ys) (fun _ => x.data) := by
  have := hg.select hy.count hy.inside hx.len
  unfold Adv.select
  rw [hx.now]
  exact this

/-- In step with the indexed array and the index arrays, nothing pending. -/
structure AdvClean (P : Adv) (track : Bool) (s : AdvState) (x : Arr Rat) (ys : List (Arr Rat)) : Prop where
  data : s.data = (P.select x ys).map some
  diff : s.diff = []
  offsets : s.offsets = P.offsetsFor ys
  offsetsDiff : s.offsetsDiff = []
  oldOffsets : s.oldOffsets = advSize ys
  oldData : s.oldData = (P.select x ys).length
  track : s.track = track
  reverse : s.track = true → RevOk s.reverse (fun t => s.offsets[t]?)

/-! ## Initialisation -/

theorem initOffsets_spec {L : Nat} : ∀ (kinds : List Bool) (strides : List Int) (ys : List (Arr Rat)) (acc : List Int),
    acc.length = L → (∀ y ∈ ys, y.data.length = L) →
    Adv.initOffsets kinds strides ys acc = .ok ((List.range L).map fun t => acc.getD t 0 + offsetAt kinds strides ys t)
  | true :: kinds, st :: strides, y :: ys, acc, hl, hy => by
    have hyl := hy y (by simp)
    have hstep : Adv.addAll acc y.data st = .ok (acc.zipWith (fun o v => o + toSS v * st) y.data) := by
      unfold Adv.addAll
      rw [guardUB_true (by omega)]
      simp only [Res.ok_bind]
      rw [List.drop_eq_nil_of_le (by omega), List.append_nil]
    simp only [Adv.initOffsets]
    rw [hstep]
    simp only [Res.ok_bind]
    rw [initOffsets_spec kinds strides ys _ (by simp; omega) (fun z hz => hy z (by simp [hz]))]
    congr 1
    apply List.map_congr_left
    intro t ht
    rw [List.mem_range] at ht
    rw [offsetAt_true]
    simp only [List.getD_eq_getElem?_getD, List.getElem?_zipWith]
    rw [List.getElem?_eq_getElem (show t < acc.length by omega), List.getElem?_eq_getElem (show t < y.data.length by omega)]
    simp only [Option.getD_some]
    ring
  | false :: kinds, st :: strides, ys, acc, hl, hy => by
    simp only [Adv.initOffsets]
    rw [initOffsets_spec kinds strides ys acc hl hy]
    rfl
  | true :: kinds, st :: strides, [], acc, hl, hy => by
    simp only [Adv.initOffsets, offsetAt, Adv.indexAt, List.map_nil, arrayDims, byteOffset, add_zero]
    congr 1
    apply List.ext_getElem?
    intro t
    by_cases ht : t < L
    · rw [List.getElem?_map, List.getElem?_range ht, List.getElem?_eq_getElem (by omega)]
      simp only [Option.map_some, List.getD_eq_getElem?_getD]
      rw [List.getElem?_eq_getElem (by omega)]; rfl
    · rw [List.getElem?_eq_none (by omega), List.getElem?_eq_none (by simp; omega)]
  | [], strides, ys, acc, hl, hy => by
    have : Adv.initOffsets [] strides ys acc = .ok acc := by
      cases strides <;> cases ys <;> rfl
    rw [this]
    congr 1
    apply List.ext_getElem?
    intro t
    by_cases ht : t < L
    · rw [List.getElem?_map, List.getElem?_range ht, List.getElem?_eq_getElem (by omega)]
      simp only [Option.map_some, List.getD_eq_getElem?_getD, offsetAt, arrayDims, byteOffset, add_zero]
      rw [List.getElem?_eq_getElem (by omega)]; rfl
    · rw [List.getElem?_eq_none (by omega), List.getElem?_eq_none (by simp; omega)]
  | true :: kinds, [], ys, acc, hl, hy => by
    have : Adv.initOffsets (true :: kinds) [] ys acc = .ok acc := by cases ys <;> rfl
    rw [this]
    congr 1
    apply List.ext_getElem?
    intro t
    by_cases ht : t < L
    · rw [List.getElem?_map, List.getElem?_range ht, List.getElem?_eq_getElem (by omega)]
      simp only [Option.map_some, List.getD_eq_getElem?_getD, offsetAt, arrayDims, byteOffset, add_zero]
      rw [List.getElem?_eq_getElem (by omega)]; rfl
    · rw [List.getElem?_eq_none (by omega), List.getElem?_eq_none (by simp; omega)]
  | false :: kinds, [], ys, acc, hl, hy => by
    have : Adv.initOffsets (false :: kinds) [] ys acc = .ok acc := by cases ys <;> rfl
    rw [this]
    congr 1
    apply List.ext_getElem?
    intro t
    by_cases ht : t < L
    · rw [List.getElem?_map, List.getElem?_range ht, List.getElem?_eq_getElem (by omega)]
      simp only [Option.map_some, List.getD_eq_getElem?_getD, offsetAt, arrayDims, byteOffset, add_zero]
      rw [List.getElem?_eq_getElem (by omega)]; rfl
    · rw [List.getElem?_eq_none (by omega), List.getElem?_eq_none (by simp; omega)]

/-- Filling the subspaces without reporting. -/
theorem silent_rows {cs : List (Int × Int)} {x : Arr Rat} {L : Nat} (hcs : P.subspaceCells x.shapeNow = cs)
    (hlay : Lay P.subspace cs L) : ∀ (os : List Int) (k : Nat) {s : AdvState} {l : List Rat},
    k + os.length = L → (∀ o ∈ os, Inside cs x.data.length o) → s.data = l.map some → l.length = L * cs.length →
    ∃ l' : List Rat, (os.zipIdx k).foldlM (fun s p => P.fillSubspace .silent x s p.1 p.2) s = .ok { s with data := l'.map some } ∧
      l'.length = l.length ∧
      (∀ (t : Nat) (o : Int), os[t]? = some o → ∀ c ∈ cs, l'[(((k + t : Nat) : Int) * P.subspace + c.2).toNat]? = x.data[(o + c.1).toNat]?) ∧
      (∀ t, t < k → ∀ c ∈ cs, l'[((t : Int) * P.subspace + c.2).toNat]? = l[((t : Int) * P.subspace + c.2).toNat]?) := by
  intro os
  induction os with
  | nil => intro k s l hk _ hs hl; exact ⟨l, by rw [← hs]; rfl, rfl, by simp, by simp⟩
  | cons o os ih =>
    intro k s l hk hin hs hl
    have hkL : k < L := by simp at hk; omega
    obtain ⟨l1, he1, hl1, hin1, hout1⟩ := fill_silent (x := x.data)
      (cs.map fun c => (o + c.1, (k : Int) * P.subspace + c.2)) hs (by
        intro p hp
        obtain ⟨c, hc, rfl⟩ := List.mem_map.1 hp
        have := hlay.bound k hkL c hc
        exact ⟨hin o (by simp) c hc, this.1, by rw [hl]; exact this.2⟩) (by
        intro p hp q hq e
        obtain ⟨c, hc, rfl⟩ := List.mem_map.1 hp
        obtain ⟨c', hc', rfl⟩ := List.mem_map.1 hq
        rw [(hlay.inj k k hkL hkL c hc c' hc' e).2])
    have hstep : P.fillSubspace .silent x s o k = .ok { s with data := l1.map some } := by
      unfold Adv.fillSubspace
      rw [hcs]
      exact he1
    rw [List.zipIdx_cons, List.foldlM_cons]
    simp only [hstep, Res.ok_bind]
    obtain ⟨l2, he2, hl2, hin2, hout2⟩ := ih (k + 1) (s := { s with data := l1.map some }) (l := l1)
      (by simp at hk; omega) (fun o' ho' => hin o' (by simp [ho'])) rfl (by omega)
    have hother : ∀ t, t < L → t ≠ k → ∀ c ∈ cs, l1[((t : Int) * P.subspace + c.2).toNat]? = l[((t : Int) * P.subspace + c.2).toNat]? := by
      intro t ht hne c hc
      apply hout1
      intro p hp e
      obtain ⟨c', hc', rfl⟩ := List.mem_map.1 hp
      have h1 := hlay.bound k hkL c' hc'
      have h2 := hlay.bound t ht c hc
      simp only at e
      exact hne (hlay.inj t k ht hkL c hc c' hc' (by omega)).1
    refine ⟨l2, he2, by omega, ?_, ?_⟩
    · intro t o' ho' c hc
      cases t with
      | zero =>
        simp at ho'
        subst ho'
        rw [Nat.add_zero, hout2 k (by omega) c hc]
        exact hin1 _ (List.mem_map.2 ⟨c, hc, rfl⟩)
      | succ t =>
        simp at ho'
        have := hin2 t o' ho' c hc
        rw [show k + 1 + t = k + (t + 1) by omega] at this
        exact this
    · intro t ht c hc
      rw [hout2 t (by omega) c hc, hother t (by omega) (by omega) c hc]

theorem AdvGood.dataSize (h : AdvGood P) {L : Nat} (hc : AdvCount P L) {x : Arr Rat} (hx : AdvBase P x) :
    (itemStrides P.operand).headD 0 ≠ 0 ∧
    (if P.bullet1 then (L : Int) * P.subspace
      else (x.data.length : Int).tdiv ((itemStrides P.operand).headD 0) * P.strides.headD 0) =
      ((L * (P.subspaceCells P.operand).length : Nat) : Int) := by
  have hlen := h.cells_length
  have hne : P.operand ≠ [] := by
    intro e
    have h1 := h.len
    rw [e] at h1
    have h2 := h.any
    rw [List.length_eq_zero_iff.1 h1] at h2
    simp at h2
  obtain ⟨d, rest, hop⟩ := List.exists_cons_of_ne_nil hne
  have hpos := h.pos
  rw [hop] at hpos
  have hS : 0 < shapeProd rest := shapeProd_pos (fun e he => hpos e (by simp [he]))
  refine ⟨by rw [hop, itemStrides_cons]; simp; omega, ?_⟩
  by_cases hb : P.bullet1 = true
  · rw [if_pos hb, (h.one hb).2.2.2.1, ← hlen]
    push_cast
    rfl
  · have hb' : P.bullet1 = false := by simpa using hb
    rw [if_neg hb]
    obtain ⟨_, _, hk, _, _⟩ := h.two hb'
    obtain ⟨ks, hks⟩ : ∃ ks, P.kinds = false :: ks := by
      cases hP : P.kinds with
      | nil => rw [hP] at hk; simp [leading] at hk
      | cons k ks =>
        cases k with
        | true => rw [hP] at hk; simp [leading, List.findIdx_cons] at hk
        | false => exact ⟨ks, rfl⟩
    have hl : leading P.kinds = leading ks + 1 := by rw [hks]; simp [leading, List.findIdx_cons]
    have hle := leading_le_slices (kinds := P.kinds) h.len
    have hsl : sliceDims P.kinds P.operand = d :: sliceDims ks rest := by rw [hks, hop]; rfl
    have hshape := hc.two hb'
    rw [hsl, hl, List.insertIdx_succ_cons] at hshape
    rw [hsl, hl] at hle
    have e1 : P.strides.headD 0 = (L : Int) * shapeProd (sliceDims ks rest) := by
      unfold Adv.strides
      rw [hshape, itemStrides_cons, List.headD_cons, shapeProd_insert (by simpa using hle)]
    have e2 : (x.data.length : Int).tdiv ((itemStrides P.operand).headD 0) = d := by
      rw [hx.len, hop, itemStrides_cons, List.headD_cons, shapeProd]
      exact Int.mul_tdiv_cancel _ (by omega)
    rw [e1, e2]
    push_cast
    rw [hlen, hsl, shapeProd]
    ring

theorem Adv.init_spec (hg : AdvGood P) (track : Bool) {x : Arr Rat} (hx : AdvBase P x) {ys : List (Arr Rat)}
    (hy : AdvIndices P ys) : ∃ s, P.init track x ys = .ok s ∧ AdvClean P track s x ys := by
  have hsel := Adv.select_shows hg hx hy
  have hOl := Adv.offsetsFor_length (P := P) ys
  have hoff : Adv.startOffsets P.kinds (itemStrides P.operand) ys (advSize ys) = Res.ok (P.offsetsFor ys) := by
    unfold Adv.startOffsets
    by_cases h0 : advSize ys = 0
    · rw [if_pos h0]
      have : P.offsetsFor ys = [] := List.length_eq_zero_iff.1 (by omega)
      rw [this]
    · rw [if_neg h0, initOffsets_spec _ _ _ _ (by simp) hy.sizes]
      congr 1
      unfold Adv.offsetsFor offsetsOf
      apply List.map_congr_left
      intro t ht
      rw [List.mem_range] at ht
      rw [List.getD_eq_getElem?_getD, List.getElem?_replicate, if_pos ht]
      simp
  obtain ⟨hst, hsize⟩ := hg.dataSize hy.count hx
  have hlay : Lay P.subspace (P.subspaceCells P.operand) (advSize ys) := hg.lay hy.count
  have hin : ∀ o ∈ P.offsetsFor ys, Inside (P.subspaceCells P.operand) x.data.length o := by
    intro o ho
    have := hg.inside (Adv.offsetsFor_in hy o ho)
    rw [← hx.len, Int.toNat_natCast] at this
    exact this
  obtain ⟨l, he, hl, hget, _⟩ := silent_rows (P := P) (x := x) (by rw [hx.now]) hlay (P.offsetsFor ys) 0
    (s := ⟨List.replicate (advSize ys * (P.subspaceCells P.operand).length) (some 0), [], [], [], fun _ => [], 0, 0, track⟩)
    (l := List.replicate (advSize ys * (P.subspaceCells P.operand).length) 0) (by omega) hin (by simp) (by simp)
  have hshow : Shows P.subspace (P.subspaceCells P.operand) (P.offsetsFor ys) l (fun _ => x.data) := by
    refine ⟨by rw [hl, hOl]; simp, ?_⟩
    intro t o ho c hc
    have := hget t o ho c hc
    rw [Nat.zero_add] at this
    exact this
  have hll : l = P.select x ys := hshow.unique (by rw [hOl]; exact hlay) hsel
  obtain ⟨rev, hmake, hrev⟩ := make_spec (P.offsetsFor ys) (l.map some) track
  refine ⟨⟨l.map some, [], P.offsetsFor ys, [], rev, (P.offsetsFor ys).length, (l.map some).length, track⟩, ?_, ?_⟩
  · unfold Adv.init
    simp only
    have hsz : (ys.headD ⟨[], []⟩).data.length = advSize ys := rfl
    rw [hsz, hoff]
    simp only [Res.ok_bind]
    rw [guardUB_true hst]
    simp only [Res.ok_bind]
    rw [hsize, guardThrow_true (by omega), Int.toNat_natCast]
    simp only [Res.ok_bind, he, hmake]
  · exact ⟨by rw [hll], rfl, rfl, rfl, hOl, by rw [hll]; simp, rfl, hrev⟩

/-! ## Propagation -/

theorem Ins.headSize {xs : List (Arr Rat)} {ins : List (Arr Rat × List (Update Rat))} {ys : List (Arr Rat)}
    (h : Ins ArrRel xs ins ys) : (ins.headD (⟨[], []⟩, [])).1.data.length = advSize ys := by
  cases h with
  | nil => rfl
  | cons _ _ => rfl

theorem sizeBefore_changes {x : Arr Rat} {d : List (Update Rat)} (h : ∀ u ∈ d, u.isChange = true) :
    Adv.sizeBefore x d = x.data.length := by
  have h1 : d.countP Update.removed = 0 := by
    rw [List.countP_eq_zero]
    intro u hu
    have := h u hu
    obtain ⟨i, o, v⟩ := u
    cases o <;> cases v <;> simp [Update.isChange, Update.removed] at this ⊢
  have h2 : d.countP Update.placed = 0 := by
    rw [List.countP_eq_zero]
    intro u hu
    have := h u hu
    obtain ⟨i, o, v⟩ := u
    cases o <;> cases v <;> simp [Update.isChange, Update.placed] at this ⊢
  unfold Adv.sizeBefore
  omega

/-- What a propagation leaves behind. -/
structure AdvPending (P : Adv) (track : Bool) (s : AdvState) (x : Arr Rat) (ys : List (Arr Rat)) (x' : Arr Rat)
    (ys' : List (Arr Rat)) : Prop where
  data : s.data = (P.select x' ys').map some
  replays : Replays (P.select x ys) s.diff (P.select x' ys')
  changes : dynamicShape P.shape = false → ∀ u ∈ s.diff, u.isChange = true
  bound : ∀ u ∈ s.diff, u.index < max (P.select x ys).length (P.select x' ys').length
  offsets : s.offsets = P.offsetsFor ys'
  net : NetEffect (P.offsetsFor ys) s.offsetsDiff (P.offsetsFor ys')
  oldOffsets : s.oldOffsets = advSize ys
  oldData : s.oldData = (P.select x ys).length
  track : s.track = track
  reverse : s.track = true → RevOk s.reverse (fun t => s.offsets[t]?)

theorem Adv.propagate_spec (hg : AdvGood P) {track : Bool} {s : AdvState} {x x' : Arr Rat} {ys ys' : List (Arr Rat)}
    {d : List (Update Rat)} {ins : List (Arr Rat × List (Update Rat))} (hc : AdvClean P track s x ys)
    (hx : AdvBase P x) (hx' : AdvBase P x') (hy : AdvIndices P ys) (hy' : AdvIndices P ys')
    (hrep : Replays x.data d x'.data) (hch : ∀ u ∈ d, u.isChange = true)
    (hd : d ≠ [] → track = true ∧ (P.bullet1 = true → leading P.kinds = 0 ∨ P.indexNdim = 0))
    (hsame : dynamicShape P.shape = false → advSize ys = advSize ys')
    (hbul : P.bullet1 = false → advSize ys = advSize ys') (hins : Ins ArrRel ys ins ys') :
    ∃ s', P.propagate s x' d ins = .ok s' ∧ AdvPending P track s' x ys x' ys' := by
  have hsel := Adv.select_shows hg hx hy
  have hsel' := Adv.select_shows hg hx' hy'
  have hOl := Adv.offsetsFor_length (P := P) ys
  have hOl' := Adv.offsetsFor_length (P := P) ys'
  have hlay : Lay P.subspace (P.subspaceCells P.operand) (advSize ys) := hg.lay hy.count
  have hlay' : Lay P.subspace (P.subspaceCells P.operand) (advSize ys') := hg.lay hy'.count
  -- the offsets
  have hoff0 : Off s (P.offsetsFor ys) (max (advSize ys) (advSize ys')) s :=
    ⟨rfl, rfl, rfl, rfl, rfl, by rw [hc.offsetsDiff, hc.offsets]; simp, by rw [hc.offsetsDiff]; simp, hc.reverse⟩
  obtain ⟨s1, he1, ho1, hl1, hv1⟩ := offsetsLoop_spec (s0 := s) (O0 := P.offsetsFor ys) (M := max (advSize ys) (advSize ys'))
    (first := P.first) (L := advSize ys) (L' := advSize ys') (by omega) (by omega) (kinds := P.kinds) (strides := itemStrides P.operand)
    (xs := ys) (ys := ys') (ins := ins) (axis := 0) (s := s) hins hy.ne hg.any (by rw [hg.len, itemStrides_length]) hy.sizes hy'.sizes (by rw [hg.first]; omega)
    hoff0 (by rw [hc.offsets, hOl]) (by
      intro t o ho
      rw [hc.offsets] at ho
      exact (offsetsOf_get ho).2)
  have hO1 : s1.offsets = P.offsetsFor ys' := offsetsOf_eq hl1 hv1
  obtain ⟨r, hdd, hnet⟩ := dedup_offsets (s0 := s) (O0 := P.offsetsFor ys) (s := s1) (by rw [hOl, hl1]; exact ho1)
  rw [hO1] at hnet
  have hfirst : P.propagate s x' d ins =
      if P.bullet1 then P.propagate1 { s1 with offsetsDiff := r } x' d
      else P.propagate2 { s1 with offsetsDiff := r } x' x'.data.length d := by
    have hinsne : ins ≠ [] := by
      intro e
      have := hins.length
      rw [e] at this
      exact hy.ne (List.length_eq_zero_iff.1 (by simp at this; omega))
    unfold Adv.propagate
    rw [guardUB_true hc.diff, guardUB_true hinsne]
    simp only [Res.ok_bind]
    rw [hins.headSize, he1]
    simp only [Res.ok_bind, hdd, sizeBefore_changes hch]
  have hdata1 : ({ s1 with offsetsDiff := r } : AdvState).data = (P.select x ys).map some := by
    simp only; rw [ho1.data, hc.data]
  have hxl : x.data.length = x'.data.length := by
    have h1 := hx.len
    have h2 := hx'.len
    omega
  have hin : ∀ o ∈ P.offsetsFor ys', Inside (P.subspaceCells P.operand) x'.data.length o := by
    intro o ho
    have := hg.inside (Adv.offsetsFor_in hy' o ho)
    rw [← hx'.len, Int.toNat_natCast] at this
    exact this
  have hbase : d ≠ [] → ({ s1 with offsetsDiff := r } : AdvState).track = true ∧
      RevOk ({ s1 with offsetsDiff := r } : AdvState).reverse (fun t => (P.offsetsFor ys')[t]?) ∧
      MapOk P x'.shapeNow x'.data.length (P.subspaceCells P.operand) (P.offsetsFor ys') := by
    intro hne
    obtain ⟨h1, h2⟩ := hd hne
    have htr : s1.track = true := by rw [ho1.track, hc.track, h1]
    refine ⟨htr, ?_, ?_⟩
    · have := ho1.reverse htr
      rw [hO1] at this
      exact this
    · have := hg.map (O := P.offsetsFor ys') (by rw [hOl']; exact hy'.count) h2 (Adv.offsetsFor_in hy')
      rw [hx'.now]
      rw [← hx'.len, Int.toNat_natCast] at this
      exact this
  have hN : max (P.select x ys).length (P.select x' ys').length =
      max (P.offsetsFor ys).length (P.offsetsFor ys').length * (P.subspaceCells P.operand).length := by
    rw [hsel.length, hsel'.length, Nat.mul_max_mul_right]
  have hmain : ∃ s' l', (if P.bullet1 then P.propagate1 { s1 with offsetsDiff := r } x' d
      else P.propagate2 { s1 with offsetsDiff := r } x' x'.data.length d) = .ok s' ∧
      Acts (max (P.select x ys).length (P.select x' ys').length) (dynamicShape P.shape) { s1 with offsetsDiff := r } s' (P.select x ys) l' ∧
      Shows P.subspace (P.subspaceCells P.operand) (P.offsetsFor ys') l' (fun _ => x'.data) := by
    by_cases hb : P.bullet1 = true
    · rw [if_pos hb]
      refine propagate1_spec (by rw [hx'.now]) (by rw [hOl]; exact hlay) (by rw [hOl']; exact hlay') ?_ hnet hin hrep hch hxl
        hdata1 rfl hsel hbase (by rw [hN])
      cases hdy : dynamicShape P.shape with
      | true => exact Or.inr ⟨rfl, hg.rows hb⟩
      | false => left; rw [hOl, hOl', hsame hdy]
    · have hb' : P.bullet1 = false := by simpa using hb
      rw [if_neg hb]
      obtain ⟨_, _, hk, _, n, hn⟩ := hg.two hb'
      have hne : P.operand ≠ [] := by
        intro e
        have h1 := hg.len
        rw [e] at h1
        have h2 := hg.any
        rw [List.length_eq_zero_iff.1 h1] at h2
        simp at h2
      have hlen := hbul hb'
      obtain ⟨d0, rest, hop⟩ := List.exists_cons_of_ne_nil hne
      have hpos := hg.pos
      rw [hop] at hpos
      have hS : 0 < shapeProd rest := shapeProd_pos (fun e he => hpos e (by simp [he]))
      have hd0 := hpos d0 (by simp)
      refine propagate2_spec hb' ?_ (by rw [hx'.now]; exact hne) ?_ ?_ ?_ ?_ (by rw [hx'.now]) (by rw [hOl]; exact hlay)
        (by rw [hOl, hOl', hlen]) hnet hin hrep hch hxl hdata1 rfl hsel hbase (by
          rw [hN]; exact Nat.mul_le_mul_right _ (by omega))
      · cases hP : P.kinds with
        | nil => rw [hP] at hk; simp [leading] at hk
        | cons k ks =>
          cases k with
          | true => rw [hP] at hk; simp [leading, List.findIdx_cons] at hk
          | false => rfl
      · intro e
        have := itemStrides_length P.operand
        rw [e] at this
        exact hne (List.length_eq_zero_iff.1 (by simpa using this.symm))
      · intro e
        have := itemStrides_length P.shape
        unfold Adv.strides at e
        rw [e, hn, List.length_insertIdx_of_le_length (leading_le_slices hg.len)] at this
        simp at this
      · rw [hop, itemStrides_cons]; exact hS
      · rw [hx'.now, hop, itemStrides_cons, List.headD_cons, List.headD_cons]
        have h1 : (x'.data.length : Int) = d0 * shapeProd rest := by rw [hx'.len, hop, shapeProd]
        have h2 : x'.data.length = d0.toNat * (shapeProd rest).toNat := by
          have : ((d0.toNat * (shapeProd rest).toNat : Nat) : Int) = d0 * shapeProd rest := by
            push_cast
            rw [Int.toNat_of_nonneg (by omega), Int.toNat_of_nonneg (by omega)]
          omega
        rw [h2, Nat.mul_div_cancel _ (by omega)]
  obtain ⟨s', l', he', ⟨dd, hs', hr, hb, hcc⟩, hsh'⟩ := hmain
  obtain rfl : l' = P.select x' ys' := hsh'.unique (by rw [hOl']; exact hlay') hsel'
  refine ⟨s', by rw [hfirst]; exact he', ?_⟩
  subst hs'
  refine ⟨rfl, ?_, ?_, ?_, hO1, hnet, ?_, ?_, ?_, ho1.reverse⟩
  · simp only [ho1.diff, hc.diff, List.nil_append]; exact hr
  · simp only [ho1.diff, hc.diff, List.nil_append]; exact hcc
  · simp only [ho1.diff, hc.diff, List.nil_append]; exact hb
  · simp only [ho1.oldOffsets, hc.oldOffsets]
  · simp only [ho1.oldData, hc.oldData]
  · simp only [ho1.track, hc.track]

/-! ## Commit and revert -/

variable {track : Bool} {s : AdvState} {x x' : Arr Rat} {ys ys' : List (Arr Rat)}

theorem AdvPending.commit (h : AdvPending P track s x ys x' ys') : AdvClean P track s.commit x' ys' where
  data := h.data
  diff := rfl
  offsets := h.offsets
  offsetsDiff := rfl
  oldOffsets := by simp only [AdvState.commit, h.offsets, Adv.offsetsFor_length]
  oldData := by simp only [AdvState.commit, h.data, List.length_map]
  track := h.track
  reverse := h.reverse

theorem AdvPending.revert (h : AdvPending P track s x ys x' ys') : ∃ r, s.revert = .ok r ∧ AdvClean P track r x ys := by
  have hOl := Adv.offsetsFor_length (P := P) ys
  have hOl' := Adv.offsetsFor_length (P := P) ys'
  -- offsets
  obtain ⟨rev, Z, he, hZ, hout, hin, hrev⟩ := revert_offsets (O := P.offsetsFor ys) (O' := P.offsetsFor ys') s.offsetsDiff.reverse
    (s.offsets ++ List.replicate (s.oldOffsets - s.offsets.length) 0)
    { s with
      offsets := s.offsets ++ List.replicate (s.oldOffsets - s.offsets.length) 0
      data := s.data ++ List.replicate (s.oldData - s.data.length) (some 0) } (fun t => (P.offsetsFor ys')[t]?) (by
      intro u hu
      rw [List.mem_reverse] at hu
      obtain ⟨h1, h2, _⟩ := h.net.entries u hu
      have := h.net.index_lt hu
      refine ⟨h1, h2, ?_, h2.symm⟩
      rw [List.length_append, List.length_replicate, h.offsets, h.oldOffsets, hOl']
      omega) (by
      rw [List.pairwise_reverse]
      exact h.net.increasing.imp (fun hlt => by omega)) rfl (by
      intro ht
      have := h.reverse ht
      rw [h.offsets] at this
      exact this)
  have hZO : Z.take s.oldOffsets = P.offsetsFor ys := by
    apply List.ext_getElem?
    intro t
    by_cases ht : t < advSize ys
    · rw [List.getElem?_take_of_lt (by rw [h.oldOffsets]; exact ht)]
      by_cases hm : ∃ u ∈ s.offsetsDiff, u.index = t
      · obtain ⟨u, hu, rfl⟩ := hm
        rw [hin u (List.mem_reverse.2 hu), (h.net.entries u hu).1, List.getElem?_eq_getElem (by omega)]
        rfl
      · have hm' : ∀ u ∈ s.offsetsDiff, u.index ≠ t := fun u hu e => hm ⟨u, hu, e⟩
        have hcm := h.net.complete t hm'
        rw [hout t (fun u hu => hm' u (List.mem_reverse.1 hu)), hcm, h.offsets]
        rw [List.getElem?_eq_getElem (by omega)] at hcm
        rw [List.getElem?_append_left]
        exact (List.getElem?_eq_some_iff.1 hcm.symm).1
    · rw [List.getElem?_eq_none (by rw [List.length_take, h.oldOffsets]; omega), List.getElem?_eq_none (by omega)]
  -- data
  obtain ⟨X, heX, hXl, hXle, hXt⟩ := revert_data (d := s.diff) (l := P.select x ys) (l' := P.select x' ys')
    (s := { s with
      offsets := Z
      reverse := rev
      data := s.data ++ List.replicate (s.oldData - s.data.length) (some 0) }) h.replays (by
      intro u hu
      have := h.bound u hu
      simp only [List.length_append, List.length_replicate, h.data, h.oldData, List.length_map]
      omega) (by
      simp only [List.length_append, h.data, List.length_map]
      omega) (by
      simp only [h.data]
      rw [List.take_append_of_le_length (by simp), List.take_of_length_le (by simp)])
  refine ⟨{ s with
      offsets := Z.take s.oldOffsets
      reverse := rev
      data := X.take s.oldData
      diff := []
      offsetsDiff := [] }, ?_, ?_⟩
  · unfold AdvState.revert
    simp only [he, Res.ok_bind, heX]
  · refine ⟨?_, rfl, hZO, rfl, h.oldOffsets, h.oldData, h.track, ?_⟩
    · simp only [h.oldData]; exact hXt
    · intro ht
      have h1 := hrev ht
      have e : (fun t => if t ∈ s.offsetsDiff.reverse.map Update.index then (P.offsetsFor ys)[t]? else (P.offsetsFor ys')[t]?) =
          fun t => (P.offsetsFor ys)[t]? := by
        funext t
        by_cases hm : t ∈ s.offsetsDiff.reverse.map Update.index
        · rw [if_pos hm]
        · rw [if_neg hm, h.net.complete t]
          intro u hu e
          exact hm (List.mem_map.2 ⟨u, List.mem_reverse.2 hu, e⟩)
      rw [e] at h1
      simp only [hZO]
      exact h1

end Verif
