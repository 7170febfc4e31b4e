import Verif.Lemmas.AdvancedPropagate
import Verif.Props.Concatenate
import Verif.Lemmas.Declared

/-!
# Advanced indexing: where the elements lie (lemmas)
-/

set_option linter.unusedSimpArgs false
set_option linter.unusedVariables false

namespace Verif

theorem itemStrides_cons (d : Int) (shape : List Int) : itemStrides (d :: shape) = shapeProd shape :: itemStrides shape := by
  unfold itemStrides
  rw [shapeToStrides_cons, List.map_cons]
  congr 1
  omega

theorem itemStrides_length : ∀ (shape : List Int), (itemStrides shape).length = shape.length
  | [] => rfl
  | d :: shape => by rw [itemStrides_cons, List.length_cons, List.length_cons, itemStrides_length shape]

theorem byteOffset_items : ∀ {shape c : List Int}, c.length = shape.length → byteOffset (itemStrides shape) c = rowMajor shape c
  | [], [], _ => by simp [itemStrides, shapeToStrides, byteOffset, rowMajor]
  | d :: shape, i :: c, h => by
    rw [itemStrides_cons, byteOffset, rowMajor, byteOffset_items (by simpa using h)]

theorem InShape.length : ∀ {shape c : List Int}, InShape shape c → c.length = shape.length
  | [], [], _ => rfl
  | d :: shape, i :: c, h => by simp only [List.length_cons]; rw [h.2.2.length]

theorem mem_allCoords {shape c : List Int} : c ∈ allCoords shape ↔ InShape shape c :=
  ⟨inShape_of_mem, fun h => List.mem_of_getElem? (allCoords_get h)⟩

theorem InShape.insert : ∀ {shape c : List Int} {k : Nat} {n t : Int}, InShape shape c → k ≤ shape.length → 0 ≤ t → t < n →
    InShape (shape.insertIdx k n) (c.insertIdx k t)
  | _, _, 0, n, t, h, _, h0, h1 => by simp only [List.insertIdx_zero]; exact ⟨h0, h1, h⟩
  | d :: shape, i :: c, k + 1, n, t, h, hk, h0, h1 => by
    simp only [List.insertIdx_succ_cons]
    exact ⟨h.1, h.2.1, h.2.2.insert (by simpa using hk) h0 h1⟩

theorem InShape.unInsert : ∀ {shape c : List Int} {k : Nat} {n : Int}, k ≤ shape.length → InShape (shape.insertIdx k n) c →
    ∃ s t, c = s.insertIdx k t ∧ InShape shape s ∧ 0 ≤ t ∧ t < n
  | shape, t :: c, 0, n, _, h => by
    simp only [List.insertIdx_zero] at h
    exact ⟨c, t, by simp, h.2.2, h.1, h.2.1⟩
  | d :: shape, i :: c, k + 1, n, hk, h => by
    simp only [List.insertIdx_succ_cons] at h
    obtain ⟨s, t, rfl, hs, h0, h1⟩ := InShape.unInsert (by simpa using hk) h.2.2
    exact ⟨i :: s, t, by simp, ⟨h.1, h.2.1, hs⟩, h0, h1⟩
  | [], _, k + 1, n, hk, h => by simp at hk
  | d :: shape, [], k + 1, n, hk, h => by simp [List.insertIdx_succ_cons, InShape] at h

theorem insertIdx_inj : ∀ {k : Nat} {s s' : List Int} {t t' : Int}, k ≤ s.length → s.length = s'.length →
    s.insertIdx k t = s'.insertIdx k t' → s = s' ∧ t = t'
  | 0, s, s', t, t', _, _, h => by
    simp only [List.insertIdx_zero] at h
    obtain ⟨h1, h2⟩ := List.cons.inj h
    exact ⟨h2, h1⟩
  | k + 1, a :: s, b :: s', t, t', hk, hl, h => by
    simp only [List.insertIdx_succ_cons] at h
    obtain ⟨h1, h2⟩ := List.cons.inj h
    obtain ⟨h3, h4⟩ := insertIdx_inj (by simpa using hk) (by simpa using hl) h2
    exact ⟨by rw [h1, h3], h4⟩
  | k + 1, [], _, _, _, hk, _, _ => by simp at hk
  | k + 1, _ :: _, [], _, _, _, hl, _ => by simp at hl

theorem shapeProd_insert : ∀ {k : Nat} {s : List Int} {n : Int}, k ≤ s.length → shapeProd (s.insertIdx k n) = n * shapeProd s
  | 0, s, n, _ => rfl
  | k + 1, d :: s, n, hk => by
    simp only [List.insertIdx_succ_cons, shapeProd]
    rw [shapeProd_insert (by simpa using hk)]
    ring
  | k + 1, [], n, hk => by simp at hk

/-- The place of an entry: its subspace, and its place in the subspace. -/
theorem rowMajor_slot : ∀ {k : Nat} {shape c : List Int} {n t : Int}, k ≤ shape.length → c.length = shape.length →
    rowMajor (shape.insertIdx k n) (c.insertIdx k t) =
      t * shapeProd (shape.drop k) + byteOffset ((itemStrides (shape.insertIdx k n)).eraseIdx k) c
  | 0, shape, c, n, t, _, hc => by
    simp only [List.insertIdx_zero, rowMajor, List.drop_zero, itemStrides_cons, List.eraseIdx_zero, List.tail_cons,
      byteOffset_items hc]
  | k + 1, d :: shape, i :: c, n, t, hk, hc => by
    simp only [List.insertIdx_succ_cons, rowMajor, List.drop_succ_cons, itemStrides_cons, List.eraseIdx_cons_succ, byteOffset]
    rw [rowMajor_slot (by simpa using hk) (by simpa using hc)]
    ring
  | k + 1, [], _, _, _, hk, _ => by simp at hk
  | k + 1, _ :: _, [], _, _, _, hc => by simp at hc

theorem itemStrides_insert : ∀ {k : Nat} {shape : List Int} {n : Int}, k ≤ shape.length →
    (itemStrides (shape.insertIdx k n)).getD k 0 = shapeProd (shape.drop k)
  | 0, shape, n, _ => by simp [itemStrides_cons]
  | k + 1, d :: shape, n, hk => by
    simp only [List.insertIdx_succ_cons, itemStrides_cons, List.drop_succ_cons]
    rw [List.getD_cons_succ]
    exact itemStrides_insert (by simpa using hk)
  | k + 1, [], n, hk => by simp at hk

/-! ## Merging coordinates -/

theorem byteOffset_merge : ∀ {kinds : List Bool} {st is ss : List Int}, kinds.length = st.length →
    is.length = (arrayDims kinds st).length → ss.length = (sliceDims kinds st).length →
    byteOffset st (mergeCoords kinds is ss) = byteOffset (arrayDims kinds st) is + byteOffset (sliceDims kinds st) ss
  | [], [], is, ss, _, h1, h2 => by simp [mergeCoords, byteOffset, arrayDims, sliceDims]
  | true :: kinds, s :: st, i :: is, ss, hl, h1, h2 => by
    simp only [mergeCoords, byteOffset, arrayDims, sliceDims]
    rw [byteOffset_merge (by simpa using hl) (by simpa [arrayDims] using h1) (by simpa [sliceDims] using h2)]
    ring
  | false :: kinds, s :: st, is, j :: ss, hl, h1, h2 => by
    simp only [mergeCoords, byteOffset, arrayDims, sliceDims]
    rw [byteOffset_merge (by simpa using hl) (by simpa [arrayDims] using h1) (by simpa [sliceDims] using h2)]
    ring
  | [], _ :: _, _, _, hl, _, _ => by simp at hl
  | _ :: _, [], _, _, hl, _, _ => by simp at hl
  | true :: kinds, s :: st, [], ss, hl, h1, h2 => by simp [arrayDims] at h1
  | false :: kinds, s :: st, is, [], hl, h1, h2 => by simp [sliceDims] at h2

theorem InShape.merge : ∀ {kinds : List Bool} {dims is ss : List Int}, kinds.length = dims.length →
    InShape (arrayDims kinds dims) is → InShape (sliceDims kinds dims) ss → InShape dims (mergeCoords kinds is ss)
  | [], [], is, ss, _, h1, h2 => by simp [mergeCoords, InShape]
  | true :: kinds, d :: dims, i :: is, ss, hl, h1, h2 => by
    simp only [mergeCoords]
    exact ⟨h1.1, h1.2.1, InShape.merge (by simpa using hl) h1.2.2 h2⟩
  | false :: kinds, d :: dims, is, j :: ss, hl, h1, h2 => by
    simp only [mergeCoords]
    exact ⟨h2.1, h2.2.1, InShape.merge (by simpa using hl) h1 h2.2.2⟩
  | [], _ :: _, _, _, hl, _, _ => by simp at hl
  | _ :: _, [], _, _, hl, _, _ => by simp at hl

theorem InShape.split : ∀ {kinds : List Bool} {dims c : List Int}, kinds.length = dims.length → InShape dims c →
    InShape (arrayDims kinds dims) (arrayDims kinds c) ∧ InShape (sliceDims kinds dims) (sliceDims kinds c) ∧
      mergeCoords kinds (arrayDims kinds c) (sliceDims kinds c) = c
  | [], [], [], _, _ => by simp [arrayDims, sliceDims, InShape, mergeCoords]
  | true :: kinds, d :: dims, i :: c, hl, h => by
    obtain ⟨h1, h2, h3⟩ := InShape.split (kinds := kinds) (by simpa using hl) h.2.2
    exact ⟨⟨h.1, h.2.1, h1⟩, h2, by simp only [arrayDims, sliceDims, mergeCoords]; rw [h3]⟩
  | false :: kinds, d :: dims, i :: c, hl, h => by
    obtain ⟨h1, h2, h3⟩ := InShape.split (kinds := kinds) (by simpa using hl) h.2.2
    exact ⟨h1, ⟨h.1, h.2.1, h2⟩, by simp only [arrayDims, sliceDims, mergeCoords]; rw [h3]⟩
  | [], _ :: _, _, hl, _ => by simp at hl
  | _ :: _, [], _, hl, _ => by simp at hl

theorem merge_inj : ∀ {kinds : List Bool} {dims is ss is' ss' : List Int}, kinds.length = dims.length →
    InShape (arrayDims kinds dims) is → InShape (sliceDims kinds dims) ss →
    InShape (arrayDims kinds dims) is' → InShape (sliceDims kinds dims) ss' →
    mergeCoords kinds is ss = mergeCoords kinds is' ss' → is = is' ∧ ss = ss'
  | [], [], [], [], [], [], _, _, _, _, _, _ => ⟨rfl, rfl⟩
  | true :: kinds, d :: dims, i :: is, ss, i' :: is', ss', hl, h1, h2, h3, h4, e => by
    simp only [mergeCoords] at e
    obtain ⟨e1, e2⟩ := List.cons.inj e
    obtain ⟨e3, e4⟩ := merge_inj (dims := dims) (by simpa using hl) h1.2.2 h2 h3.2.2 h4 e2
    exact ⟨by rw [e1, e3], e4⟩
  | false :: kinds, d :: dims, is, j :: ss, is', j' :: ss', hl, h1, h2, h3, h4, e => by
    simp only [mergeCoords] at e
    obtain ⟨e1, e2⟩ := List.cons.inj e
    obtain ⟨e3, e4⟩ := merge_inj (dims := dims) (by simpa using hl) h1 h2.2.2 h3 h4.2.2 e2
    exact ⟨e3, by rw [e1, e4]⟩
  | [], _ :: _, _, _, _, _, hl, _, _, _, _, _ => by simp at hl
  | _ :: _, [], _, _, _, _, hl, _, _, _, _, _ => by simp at hl

theorem arrayDims_length : ∀ {kinds : List Bool} {l l' : List Int}, l.length = l'.length →
    (arrayDims kinds l).length = (arrayDims kinds l').length
  | [], _, _, _ => by simp [arrayDims]
  | true :: kinds, [], [], _ => rfl
  | false :: kinds, [], [], _ => rfl
  | true :: kinds, a :: l, b :: l', h => by
    simp only [arrayDims, List.length_cons]; rw [arrayDims_length (by simpa using h)]
  | false :: kinds, a :: l, b :: l', h => by
    simp only [arrayDims]; rw [arrayDims_length (by simpa using h)]
  | _ :: _, [], _ :: _, h => by simp at h
  | _ :: _, _ :: _, [], h => by simp at h

theorem sliceDims_length : ∀ {kinds : List Bool} {l l' : List Int}, l.length = l'.length →
    (sliceDims kinds l).length = (sliceDims kinds l').length
  | [], _, _, _ => by simp [sliceDims]
  | true :: kinds, [], [], _ => rfl
  | false :: kinds, [], [], _ => rfl
  | false :: kinds, a :: l, b :: l', h => by
    simp only [sliceDims, List.length_cons]; rw [sliceDims_length (by simpa using h)]
  | true :: kinds, a :: l, b :: l', h => by
    simp only [sliceDims]; rw [sliceDims_length (by simpa using h)]
  | _ :: _, [], _ :: _, h => by simp at h
  | _ :: _, _ :: _, [], h => by simp at h

theorem leading_le_slices : ∀ {kinds : List Bool} {l : List Int}, kinds.length = l.length →
    leading kinds ≤ (sliceDims kinds l).length
  | [], _, _ => by simp [leading]
  | true :: kinds, _, _ => by simp [leading, List.findIdx_cons]
  | false :: kinds, d :: l, h => by
    have := leading_le_slices (kinds := kinds) (l := l) (by simpa using h)
    simp only [leading, List.findIdx_cons, id, cond_false, sliceDims, List.length_cons] at this ⊢
    omega
  | false :: kinds, [], h => by simp at h

theorem sliceDims_pos {kinds : List Bool} {dims : List Int} (h : ∀ d ∈ dims, 0 < d) : ∀ d ∈ sliceDims kinds dims, 0 < d := by
  induction kinds generalizing dims with
  | nil => simp [sliceDims]
  | cons k kinds ih =>
    cases dims with
    | nil => cases k <;> simp [sliceDims]
    | cons e dims =>
      have ih' := ih (dims := dims) (fun d hd => h d (by simp [hd]))
      cases k with
      | true => simpa only [sliceDims] using ih'
      | false =>
        intro d hd
        simp only [sliceDims, List.mem_cons] at hd
        rcases hd with rfl | hd
        · exact h _ (by simp)
        · exact ih' d hd

/-! ## The places of a subspace -/

theorem cells_plain {b1 : Bool} {first : Nat} : ∀ {kinds : List Bool} {dims st out : List Int} {axis : Nat},
    (b1 = true ∨ first < axis) → kinds.length = dims.length → dims.length = st.length →
    (sliceDims kinds dims).length ≤ out.length →
    cells b1 first axis kinds dims st out =
      (allCoords (sliceDims kinds dims)).map fun s => (byteOffset (sliceDims kinds st) s, byteOffset out s)
  | [], [], [], out, axis, _, _, _, _ => by
    simp [cells, allCoords, sliceDims, byteOffset]
  | true :: kinds, d :: dims, s :: st, out, axis, h, h1, h2, h3 => by
    simp only [cells, sliceDims]
    rw [if_neg (by rintro ⟨h4, h5⟩; rcases h with h | h <;> simp_all)]
    exact cells_plain (h.imp id (by omega)) (by simpa using h1) (by simpa using h2) (by simpa [sliceDims] using h3)
  | false :: kinds, d :: dims, s :: st, o :: out, axis, h, h1, h2, h3 => by
    simp only [cells, sliceDims, allCoords, List.map_flatMap]
    rw [cells_plain (h.imp id (by omega)) (by simpa using h1) (by simpa using h2) (by simpa [sliceDims] using h3)]
    apply List.flatMap_congr
    intro i _
    simp only [List.map_map]
    apply List.map_congr_left
    intro c _
    simp [byteOffset]
  | false :: kinds, d :: dims, s :: st, [], axis, h, h1, h2, h3 => by simp [sliceDims] at h3
  | [], _ :: _, _, _, _, _, h1, _, _ => by simp at h1
  | _ :: _, [], _, _, _, _, h1, _, _ => by simp at h1
  | _, [], _ :: _, _, _, _, _, h2, _ => by simp at h2
  | _, _ :: _, [], _, _, _, _, h2, _ => by simp at h2

theorem cells_erase {first : Nat} : ∀ {kinds : List Bool} {dims st out : List Int} {axis : Nat},
    kinds.any id = true → axis + leading kinds = first → kinds.length = dims.length → dims.length = st.length →
    (sliceDims kinds dims).length + 1 ≤ out.length →
    cells false first axis kinds dims st out =
      (allCoords (sliceDims kinds dims)).map fun s => (byteOffset (sliceDims kinds st) s, byteOffset (out.eraseIdx (leading kinds)) s)
  | [], _, _, _, _, h, _, _, _, _ => by simp at h
  | true :: kinds, d :: dims, s :: st, o :: out, axis, h, hf, h1, h2, h3 => by
    have hl : leading (true :: kinds) = 0 := by simp [leading, List.findIdx_cons]
    rw [hl] at hf ⊢
    simp only [cells, sliceDims]
    rw [if_pos ⟨trivial, by omega⟩]
    simp only [List.drop_one, List.tail_cons, List.eraseIdx_zero]
    exact cells_plain (Or.inr (by omega)) (by simpa using h1) (by simpa using h2) (by simpa [sliceDims] using h3)
  | false :: kinds, d :: dims, s :: st, o :: out, axis, h, hf, h1, h2, h3 => by
    have hl : leading (false :: kinds) = leading kinds + 1 := by simp [leading, List.findIdx_cons]
    rw [hl] at hf ⊢
    simp only [cells, sliceDims, allCoords, List.map_flatMap]
    rw [cells_erase (by simpa using h) (by omega) (by simpa using h1) (by simpa using h2) (by simpa [sliceDims] using h3)]
    apply List.flatMap_congr
    intro i _
    simp only [List.map_map]
    apply List.map_congr_left
    intro c _
    simp [byteOffset]
  | true :: kinds, d :: dims, s :: st, [], axis, h, hf, h1, h2, h3 => by simp at h3
  | false :: kinds, d :: dims, s :: st, [], axis, h, hf, h1, h2, h3 => by simp at h3
  | _ :: _, [], _, _, _, _, _, h1, _, _ => by simp at h1
  | _ :: _, _ :: _, [], _, _, _, _, _, h2, _ => by simp at h2

/-! ## `get_mapped_index` -/

/-- The strides `get_mapped_index` uses for the slices. -/
def mapStrides (kinds : List Bool) (ndim : Nat) (out : List Int) (hit : Bool) : List Int :=
  if hit then out else out.take (leading kinds) ++ out.drop (leading kinds + ndim)

theorem mapIndex_eq {ndim u : Nat} : ∀ {kinds : List Bool} {dims c out : List Int} {hit : Bool} {q : Int},
    kinds.length = dims.length → InShape dims c → (u : Int) = q * shapeProd dims + rowMajor dims c →
    (sliceDims kinds dims).length ≤ (mapStrides kinds ndim out hit).length →
    (hit = false → leading kinds ≤ out.length) →
    Adv.mapIndex ndim u kinds (itemStrides dims) dims out hit =
      .ok (byteOffset (arrayDims kinds (itemStrides dims)) (arrayDims kinds c),
        byteOffset (mapStrides kinds ndim out hit) (sliceDims kinds c))
  | [], [], [], out, hit, q, _, _, _, _, _ => by
    simp only [itemStrides, shapeToStrides, List.map_nil, Adv.mapIndex, arrayDims, sliceDims, byteOffset]
    cases mapStrides [] ndim out hit <;> rfl
  | k :: kinds, d :: dims, i :: c, out, hit, q, hl, hc, hu, hs, ho => by
    have hd : (0 : Int) < d := by have := hc.1; have := hc.2.1; omega
    have hS : 0 < shapeProd dims := shapeProd_pos hc.2.2.pos
    have hr := hc.2.2.rowMajor_range
    simp only [shapeProd, rowMajor] at hu
    have hdiv : (u : Int) / shapeProd dims = q * d + i := by
      rw [hu, show q * (d * shapeProd dims) + (i * shapeProd dims + rowMajor dims c) =
        rowMajor dims c + (q * d + i) * shapeProd dims by ring, Int.add_mul_ediv_right _ _ (by omega),
        Int.ediv_eq_zero_of_lt hr.1 hr.2]
      omega
    have hmod : (u : Int) / shapeProd dims % d = i := by
      rw [hdiv, Int.add_comm, Int.add_mul_emod_self_right, Int.emod_eq_of_lt hc.1 hc.2.1]
    have hu' : (u : Int) = (q * d + i) * shapeProd dims + rowMajor dims c := by rw [hu]; ring
    have hg : shapeProd dims ≠ 0 ∧ d ≠ 0 := ⟨by omega, by omega⟩
    cases k with
    | true =>
      have hm0 : mapStrides (true :: kinds) ndim out hit = if hit then out else out.drop ndim := by
        cases hit <;> simp [mapStrides, leading, List.findIdx_cons]
      have hm1 : mapStrides kinds ndim (if hit then out else out.drop ndim) true = if hit then out else out.drop ndim := by
        simp [mapStrides]
      rw [itemStrides_cons]
      simp only [Adv.mapIndex]
      rw [guardUB_true hg]
      simp only [Res.ok_bind]
      rw [mapIndex_eq (q := q * d + i) (by simpa using hl) hc.2.2 hu' (by rw [hm1, ← hm0]; simpa [sliceDims] using hs) (by simp)]
      simp only [Res.ok_bind, arrayDims, sliceDims, byteOffset, hmod]
      rw [hm1, hm0]
    | false =>
      have hlead : leading (false :: kinds) = leading kinds + 1 := by simp [leading, List.findIdx_cons]
      obtain ⟨o, out', rfl⟩ : ∃ o out', out = o :: out' := by
        cases out with
        | cons o out' => exact ⟨o, out', rfl⟩
        | nil =>
          cases hit with
          | true => simp [mapStrides, sliceDims] at hs
          | false => have := ho rfl; rw [hlead] at this; simp at this
      have hm : mapStrides (false :: kinds) ndim (o :: out') hit = o :: mapStrides kinds ndim out' hit := by
        cases hit
        · simp only [mapStrides, hlead, Bool.false_eq_true, if_false, List.take_succ_cons, List.cons_append]
          rw [show leading kinds + 1 + ndim = (leading kinds + ndim) + 1 by omega, List.drop_succ_cons]
        · simp [mapStrides]
      rw [itemStrides_cons]
      simp only [Adv.mapIndex]
      rw [guardUB_true hg]
      simp only [Res.ok_bind]
      rw [mapIndex_eq (q := q * d + i) (by simpa using hl) hc.2.2 hu' (by rw [hm] at hs; simpa [sliceDims] using hs)
        (fun h => by have := ho h; rw [hlead] at this; simpa using this)]
      simp only [Res.ok_bind, arrayDims, sliceDims, hmod]
      rw [hm]
      rfl
  | [], _ :: _, _, _, _, _, hl, _, _, _, _ => by simp at hl
  | _ :: _, [], _, _, _, _, hl, _, _, _, _ => by simp at hl

end Verif
