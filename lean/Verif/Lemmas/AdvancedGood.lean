import Verif.Lemmas.AdvancedGeometry

/-!
# Advanced indexing: a parsed node with an indexed array of fixed size (lemmas)
-/

set_option linter.unusedSimpArgs false
set_option linter.unusedVariables false

namespace Verif

/-- What the constructor establishes when all dimensions of the indexed array are positive. -/
structure AdvGood (P : Adv) : Prop where
  any : P.kinds.any id = true
  len : P.kinds.length = P.operand.length
  pos : ∀ d ∈ P.operand, 0 < d
  first : P.first = leading P.kinds
  one : P.bullet1 = true → P.indexNdim ≤ 1 ∧
    P.shape.drop P.indexNdim = sliceDims P.kinds P.operand ∧ P.shape.length = P.indexNdim + (sliceDims P.kinds P.operand).length ∧
    P.subspace = shapeProd (sliceDims P.kinds P.operand) ∧
    (separated P.kinds = true ∨ leading P.kinds = 0 ∨ P.indexNdim = 0)
  two : P.bullet1 = false → separated P.kinds = false ∧ P.indexNdim = 1 ∧ 0 < leading P.kinds ∧
    P.subspace = shapeProd ((sliceDims P.kinds P.operand).drop (leading P.kinds)) ∧
    ∃ n : Nat, P.shape = (sliceDims P.kinds P.operand).insertIdx (leading P.kinds) (n : Int)

/-- The number of subspaces the shape allows. -/
structure AdvCount (P : Adv) (L : Nat) : Prop where
  one : P.bullet1 = true → P.indexNdim = 0 → L = 1
  two : P.bullet1 = false → P.shape = (sliceDims P.kinds P.operand).insertIdx (leading P.kinds) (L : Int)

variable {P : Adv} {L : Nat}

/-- The strides of the slices in the result. -/
def Adv.sliceStrides (P : Adv) : List Int :=
  if P.bullet1 then itemStrides (sliceDims P.kinds P.operand) else P.strides.eraseIdx (leading P.kinds)

theorem itemStrides_drop : ∀ (n : Nat) (shape : List Int), (itemStrides shape).drop n = itemStrides (shape.drop n)
  | 0, _ => rfl
  | n + 1, [] => by simp [itemStrides, shapeToStrides]
  | n + 1, d :: shape => by rw [itemStrides_cons, List.drop_succ_cons, List.drop_succ_cons, itemStrides_drop n shape]

theorem AdvGood.cells (h : AdvGood P) : P.subspaceCells P.operand =
    (allCoords (sliceDims P.kinds P.operand)).map fun s =>
      (byteOffset (sliceDims P.kinds (itemStrides P.operand)) s, byteOffset P.sliceStrides s) := by
  unfold Adv.subspaceCells Adv.sliceStrides
  by_cases hb : P.bullet1 = true
  · obtain ⟨_, h2, _, _⟩ := h.one hb
    rw [if_pos hb, if_pos hb]
    have e : P.strides.drop P.indexNdim = itemStrides (sliceDims P.kinds P.operand) := by
      unfold Adv.strides; rw [itemStrides_drop, h2]
    rw [e]
    exact cells_plain (Or.inl hb) h.len (itemStrides_length _).symm (by rw [itemStrides_length])
  · rw [if_neg hb, if_neg hb]
    have hb' : P.bullet1 = false := by simpa using hb
    obtain ⟨_, _, _, _, n, hn⟩ := h.two hb'
    rw [hb']
    refine cells_erase h.any (by rw [h.first]; omega) h.len (itemStrides_length _).symm ?_
    unfold Adv.strides
    rw [itemStrides_length, hn, List.length_insertIdx_of_le_length (leading_le_slices h.len)]

theorem AdvGood.cells_length (h : AdvGood P) :
    ((P.subspaceCells P.operand).length : Int) = shapeProd (sliceDims P.kinds P.operand) := by
  rw [h.cells, List.length_map, length_allCoords (sliceDims_pos h.pos)]

theorem AdvGood.rows (h : AdvGood P) (hb : P.bullet1 = true) : Rows P.subspace (P.subspaceCells P.operand) := by
  have hlen := h.cells_length
  refine ⟨by rw [(h.one hb).2.2.2.1, hlen], ?_⟩
  have e : (P.subspaceCells P.operand).map Prod.snd = (allCoords (sliceDims P.kinds P.operand)).map
      (rowMajor (sliceDims P.kinds P.operand)) := by
    rw [h.cells, List.map_map]
    apply List.map_congr_left
    intro s hs
    simp only [Function.comp_apply, Adv.sliceStrides, if_pos hb]
    exact byteOffset_items (mem_allCoords.1 hs).length
  rw [e, allCoords_rowMajor (sliceDims_pos h.pos)]
  congr 2
  omega

/-- With the dimension of the index arrays in place. -/
theorem AdvGood.place2 (h : AdvGood P) (hc : AdvCount P L) (hb : P.bullet1 = false) {s : List Int}
    (hs : InShape (sliceDims P.kinds P.operand) s) (t : Int) :
    t * P.subspace + byteOffset P.sliceStrides s =
      rowMajor ((sliceDims P.kinds P.operand).insertIdx (leading P.kinds) (L : Int)) (s.insertIdx (leading P.kinds) t) := by
  obtain ⟨_, _, _, hsub, _⟩ := h.two hb
  rw [rowMajor_slot (leading_le_slices h.len) hs.length, hsub]
  unfold Adv.sliceStrides Adv.strides
  rw [if_neg (by rw [hb]; simp), ← hc.two hb]

theorem AdvGood.lay (h : AdvGood P) (hc : AdvCount P L) : Lay P.subspace (P.subspaceCells P.operand) L := by
  by_cases hb : P.bullet1 = true
  · exact (h.rows hb).lay L
  · have hb' : P.bullet1 = false := by simpa using hb
    have hk := leading_le_slices (kinds := P.kinds) h.len
    have hsz : ((L * (P.subspaceCells P.operand).length : Nat) : Int) =
        shapeProd ((sliceDims P.kinds P.operand).insertIdx (leading P.kinds) (L : Int)) := by
      rw [shapeProd_insert hk, ← h.cells_length]; push_cast; rfl
    have hcell : ∀ c ∈ P.subspaceCells P.operand, ∃ s, InShape (sliceDims P.kinds P.operand) s ∧
        c = (byteOffset (sliceDims P.kinds (itemStrides P.operand)) s, byteOffset P.sliceStrides s) := by
      intro c hc'
      rw [h.cells, List.mem_map] at hc'
      obtain ⟨s, hs, rfl⟩ := hc'
      exact ⟨s, mem_allCoords.1 hs, rfl⟩
    refine ⟨?_, ?_, ?_⟩
    · intro t ht c hcm
      obtain ⟨s, hs, rfl⟩ := hcell c hcm
      simp only
      rw [h.place2 hc hb' hs]
      have := (hs.insert (k := leading P.kinds) (n := (L : Int)) (t := (t : Int)) hk (by omega) (by omega)).rowMajor_range
      omega
    · intro t t' ht ht' c hcm c' hcm' e
      obtain ⟨s, hs, rfl⟩ := hcell c hcm
      obtain ⟨s', hs', rfl⟩ := hcell c' hcm'
      simp only at e
      rw [h.place2 hc hb' hs, h.place2 hc hb' hs'] at e
      have e1 := rowMajor_inj (hs.insert (k := leading P.kinds) (n := (L : Int)) (t := (t : Int)) hk (by omega) (by omega))
        (hs'.insert (k := leading P.kinds) (n := (L : Int)) (t := (t' : Int)) hk (by omega) (by omega)) e
      obtain ⟨rfl, e2⟩ := insertIdx_inj (by rw [hs.length]; exact hk) (by rw [hs.length, hs'.length]) e1
      exact ⟨by omega, rfl⟩
    · intro i hi
      have hL : 0 < L := by
        rcases Nat.eq_zero_or_pos L with h0 | h0
        · rw [h0] at hi; omega
        · exact h0
      obtain ⟨c, _, hcs, hr⟩ := unravel_spec ((sliceDims P.kinds P.operand).insertIdx (leading P.kinds) (L : Int)) (by
        intro d hd
        rcases List.eq_or_mem_of_mem_insertIdx hd with rfl | hd
        · omega
        · exact sliceDims_pos h.pos d hd) i (by omega) (by omega)
      obtain ⟨s, t, rfl, hs, h0, h1⟩ := InShape.unInsert hk hcs
      refine ⟨t.toNat, by omega, (byteOffset (sliceDims P.kinds (itemStrides P.operand)) s, byteOffset P.sliceStrides s), ?_, ?_⟩
      · rw [h.cells]; exact List.mem_map.2 ⟨s, mem_allCoords.2 hs, rfl⟩
      · simp only
        rw [Int.toNat_of_nonneg h0, h.place2 hc hb' hs, hr]
        simp

/-- Offsets which index arrays within the bounds produce. -/
def AdvIn (P : Adv) (o : Int) : Prop :=
  ∃ is, InShape (arrayDims P.kinds P.operand) is ∧ o = byteOffset (arrayDims P.kinds (itemStrides P.operand)) is

theorem AdvGood.position (h : AdvGood P) {is s : List Int} (hi : InShape (arrayDims P.kinds P.operand) is)
    (hs : InShape (sliceDims P.kinds P.operand) s) :
    byteOffset (arrayDims P.kinds (itemStrides P.operand)) is + byteOffset (sliceDims P.kinds (itemStrides P.operand)) s =
      rowMajor P.operand (mergeCoords P.kinds is s) := by
  have hl : (itemStrides P.operand).length = P.operand.length := itemStrides_length _
  rw [← byteOffset_merge (by rw [hl, h.len]) (by rw [hi.length, arrayDims_length hl]) (by rw [hs.length, sliceDims_length hl])]
  exact byteOffset_items (InShape.merge h.len hi hs).length

theorem AdvGood.inside (h : AdvGood P) {o : Int} (ho : AdvIn P o) :
    Inside (P.subspaceCells P.operand) (shapeProd P.operand).toNat o := by
  obtain ⟨is, hi, rfl⟩ := ho
  intro c hc
  rw [h.cells, List.mem_map] at hc
  obtain ⟨s, hs, rfl⟩ := hc
  simp only
  rw [h.position hi (mem_allCoords.1 hs)]
  have := (InShape.merge h.len hi (mem_allCoords.1 hs)).rowMajor_range
  omega

/-- Changes of the indexed array are taken to the right places, unless index arrays separated by a slice come after
another slice. -/
theorem AdvGood.map (h : AdvGood P) {O : List Int} (hc : AdvCount P O.length)
    (hok : P.bullet1 = true → leading P.kinds = 0 ∨ P.indexNdim = 0) (hO : ∀ o ∈ O, AdvIn P o) :
    MapOk P P.operand (shapeProd P.operand).toNat (P.subspaceCells P.operand) O := by
  have hk := leading_le_slices (kinds := P.kinds) h.len
  have hms : mapStrides P.kinds P.indexNdim P.strides false = P.sliceStrides := by
    unfold mapStrides Adv.sliceStrides
    by_cases hb : P.bullet1 = true
    · obtain ⟨_, h2, _⟩ := h.one hb
      have e : P.strides.drop P.indexNdim = itemStrides (sliceDims P.kinds P.operand) := by
        unfold Adv.strides; rw [itemStrides_drop, h2]
      rw [if_pos hb, if_neg (by simp)]
      rcases hok hb with h0 | h0
      · rw [h0, Nat.zero_add, List.take_zero, List.nil_append, e]
      · rw [h0, Nat.add_zero, List.take_append_drop, ← e, h0, List.drop_zero]
    · have hb' : P.bullet1 = false := by simpa using hb
      rw [if_neg hb, if_neg (by simp), (h.two hb').2.1, List.eraseIdx_eq_take_drop_succ]
  have hlen : (sliceDims P.kinds P.operand).length ≤ P.sliceStrides.length ∧ leading P.kinds ≤ P.strides.length := by
    unfold Adv.sliceStrides Adv.strides
    by_cases hb : P.bullet1 = true
    · rw [if_pos hb, itemStrides_length, itemStrides_length, (h.one hb).2.2.1]
      omega
    · have hb' : P.bullet1 = false := by simpa using hb
      have hl : (itemStrides P.shape).length = (sliceDims P.kinds P.operand).length + 1 := by
        rw [itemStrides_length, hc.two hb', List.length_insertIdx_of_le_length hk]
      rw [if_neg hb, List.length_eraseIdx, if_pos (by omega)]
      omega
  intro u hu
  obtain ⟨c, _, hcs, hr⟩ := unravel_spec P.operand h.pos u (by omega) (by omega)
  obtain ⟨hca, hcl, hcm⟩ := InShape.split (kinds := P.kinds) h.len hcs
  refine ⟨_, _, mapIndex_eq (q := 0) h.len hcs (by rw [hr]; simp) (by rw [hms]; exact hlen.1) (fun _ => hlen.2), ?_, ?_⟩
  · refine ⟨(byteOffset (sliceDims P.kinds (itemStrides P.operand)) (sliceDims P.kinds c),
      byteOffset P.sliceStrides (sliceDims P.kinds c)), ?_, by rw [hms]⟩
    rw [h.cells]
    exact List.mem_map.2 ⟨_, mem_allCoords.2 hcl, rfl⟩
  · intro o ho c' hc'
    obtain ⟨is, hi, rfl⟩ := hO o ho
    rw [h.cells, List.mem_map] at hc'
    obtain ⟨s, hs, rfl⟩ := hc'
    have hs := mem_allCoords.1 hs
    simp only
    rw [h.position hi hs, hms]
    have hm := InShape.merge h.len hi hs
    have hmr := hm.rowMajor_range
    constructor
    · intro e
      have e1 : mergeCoords P.kinds is s = c := rowMajor_inj hm hcs (by rw [hr]; omega)
      rw [← hcm] at e1
      obtain ⟨e2, e3⟩ := merge_inj h.len hi hs hca hcl e1
      rw [e2, e3]
      exact ⟨rfl, rfl⟩
    · rintro ⟨e1, e2⟩
      have his : is = arrayDims P.kinds c := by
        have e3 : byteOffset (arrayDims P.kinds (itemStrides P.operand)) is + byteOffset (sliceDims P.kinds (itemStrides P.operand)) s =
            byteOffset (arrayDims P.kinds (itemStrides P.operand)) (arrayDims P.kinds c) +
              byteOffset (sliceDims P.kinds (itemStrides P.operand)) s := by rw [e1]
        rw [h.position hi hs, h.position hca hs] at e3
        have e4 := rowMajor_inj hm (InShape.merge h.len hca hs) e3
        exact (merge_inj h.len hi hs hca hs e4).1
      have hss : s = sliceDims P.kinds c := by
        by_cases hb : P.bullet1 = true
        · unfold Adv.sliceStrides at e2
          rw [if_pos hb, byteOffset_items hs.length, byteOffset_items hcl.length] at e2
          exact rowMajor_inj hs hcl e2
        · have hb' : P.bullet1 = false := by simpa using hb
          have hpos : 0 < O.length := List.length_pos_of_mem ho
          have e3 : (0 : Int) * P.subspace + byteOffset P.sliceStrides s =
              0 * P.subspace + byteOffset P.sliceStrides (sliceDims P.kinds c) := by rw [e2]
          rw [h.place2 hc hb' hs, h.place2 hc hb' hcl] at e3
          have e4 := rowMajor_inj (hs.insert hk (by omega) (by omega)) (hcl.insert hk (by omega) (by omega)) e3
          exact (insertIdx_inj (by rw [hs.length]; exact hk) (by rw [hs.length, hcl.length]) e4).1
      rw [his, hss, hcm, hr]
      simp

/-! ## The specification -/

theorem allCoords_append : ∀ (a b : List Int), allCoords (a ++ b) = (allCoords a).flatMap fun p => (allCoords b).map (p ++ ·)
  | [], b => by simp [allCoords]
  | d :: a, b => by
    simp only [List.cons_append, allCoords, allCoords_append a b, List.map_flatMap, List.flatMap_assoc, List.map_map,
      List.flatMap_map]
    rfl

theorem insertIdx_append : ∀ {k : Nat} {l : List Int} {t : Int}, k ≤ l.length → l.insertIdx k t = l.take k ++ t :: l.drop k
  | 0, l, t, _ => by simp
  | k + 1, a :: l, t, h => by
    simp only [List.insertIdx_succ_cons, List.take_succ_cons, List.drop_succ_cons, List.cons_append]
    rw [insertIdx_append (by simpa using h)]
  | k + 1, [], t, h => by simp at h

theorem InShape.take_drop : ∀ {shape c : List Int} (k : Nat), InShape shape c →
    InShape (shape.take k) (c.take k) ∧ InShape (shape.drop k) (c.drop k)
  | _, _, 0, h => by simp only [List.take_zero, List.drop_zero]; exact ⟨trivial, h⟩
  | [], [], k + 1, h => by simp [InShape]
  | d :: shape, i :: c, k + 1, h => by
    obtain ⟨h1, h2⟩ := h.2.2.take_drop k
    exact ⟨⟨h.1, h.2.1, h1⟩, h2⟩

theorem advCoords_eq {kinds : List Bool} {shape : List Int} {index : Nat → List Int} {count : Nat}
    (hk : advLeft kinds ≤ (sliceDims kinds shape).length) :
    advCoords kinds shape index count =
      (allCoords ((sliceDims kinds shape).insertIdx (advLeft kinds) (count : Int))).map fun c =>
        mergeCoords kinds (index (c.getD (advLeft kinds) 0).toNat) (c.eraseIdx (advLeft kinds)) := by
  unfold advCoords
  rw [insertIdx_append hk, allCoords_append, List.map_flatMap]
  apply List.flatMap_congr
  intro p hp
  have hpl : p.length = advLeft kinds := by
    rw [(mem_allCoords.1 hp).length, List.length_take]; omega
  simp only [allCoords, Int.toNat_natCast, List.map_flatMap, List.map_map]
  apply List.flatMap_congr
  intro t _
  apply List.map_congr_left
  intro s _
  simp only [Function.comp_apply]
  congr 1
  · rw [List.getD_eq_getElem?_getD, List.getElem?_append_right (by omega), hpl]
    simp
  · rw [List.eraseIdx_append_of_length_le (by omega), hpl]
    simp

/-- The element NumPy puts at a place. -/
theorem advCoords_get {kinds : List Bool} {shape : List Int} {index : Nat → List Int} {count t : Nat} {s : List Int}
    (hk : advLeft kinds ≤ (sliceDims kinds shape).length) (ht : t < count) (hs : InShape (sliceDims kinds shape) s) :
    (advCoords kinds shape index count)[(rowMajor ((sliceDims kinds shape).insertIdx (advLeft kinds) (count : Int))
      (s.insertIdx (advLeft kinds) (t : Int))).toNat]? = some (mergeCoords kinds (index t) s) := by
  have hin := hs.insert (k := advLeft kinds) (n := (count : Int)) (t := (t : Int)) hk (by omega) (by omega)
  rw [advCoords_eq hk, List.getElem?_map, allCoords_get hin]
  have hkl : advLeft kinds ≤ s.length := by rw [hs.length]; exact hk
  simp only [Option.map_some, Option.some.injEq]
  congr 1
  · rw [insertIdx_append hkl, List.getD_eq_getElem?_getD, List.getElem?_append_right (by simp), List.length_take,
      Nat.min_eq_left hkl]
    simp
  · exact List.eraseIdx_insertIdx_self _

theorem advCoords_length {kinds : List Bool} {shape : List Int} {index : Nat → List Int} {count : Nat}
    (hk : advLeft kinds ≤ (sliceDims kinds shape).length) (hpos : ∀ d ∈ sliceDims kinds shape, 0 < d) :
    ((advCoords kinds shape index count).length : Int) = count * shapeProd (sliceDims kinds shape) := by
  rcases Nat.eq_zero_or_pos count with h0 | h0
  · subst h0
    simp [advCoords]
  · rw [advCoords_eq hk, List.length_map, length_allCoords, shapeProd_insert hk]
    intro d hd
    rcases List.eq_or_mem_of_mem_insertIdx hd with rfl | hd
    · omega
    · exact hpos d hd

theorem rowMajor_unit : ∀ {k : Nat} {shape c : List Int}, k ≤ shape.length → c.length = shape.length →
    rowMajor (shape.insertIdx k 1) (c.insertIdx k 0) = rowMajor shape c
  | 0, shape, c, _, _ => by simp [rowMajor]
  | k + 1, d :: shape, i :: c, hk, hl => by
    simp only [List.insertIdx_succ_cons, rowMajor]
    rw [rowMajor_unit (by simpa using hk) (by simpa using hl), shapeProd_insert (by simpa using hk), one_mul]
  | k + 1, [], _, hk, _ => by simp at hk
  | k + 1, _ :: _, [], _, hl => by simp at hl

/-- The place of an entry in the node is its place in NumPy's result. -/
theorem AdvGood.place (h : AdvGood P) (hc : AdvCount P L) {s : List Int} (hs : InShape (sliceDims P.kinds P.operand) s)
    {t : Nat} (ht : t < L) :
    (t : Int) * P.subspace + byteOffset P.sliceStrides s =
      rowMajor ((sliceDims P.kinds P.operand).insertIdx (advLeft P.kinds) (L : Int)) (s.insertIdx (advLeft P.kinds) (t : Int)) := by
  by_cases hb : P.bullet1 = true
  · obtain ⟨_, _, _, hsub, hcase⟩ := h.one hb
    have e : (t : Int) * P.subspace + byteOffset P.sliceStrides s = rowMajor ((L : Int) :: sliceDims P.kinds P.operand) ((t : Int) :: s) := by
      unfold Adv.sliceStrides
      rw [if_pos hb, hsub, byteOffset_items hs.length, rowMajor]
    rw [e]
    have h0 : advLeft P.kinds = 0 ∨ P.indexNdim = 0 := by
      unfold advLeft
      rcases hcase with h1 | h1 | h1
      · rw [if_pos h1]; exact Or.inl rfl
      · split_ifs
        · exact Or.inl rfl
        · exact Or.inl h1
      · exact Or.inr h1
    rcases h0 with h0 | h0
    · rw [h0]; simp only [List.insertIdx_zero]
    · have hL := hc.one hb h0
      subst hL
      have ht0 : t = 0 := by omega
      subst ht0
      have hk : advLeft P.kinds ≤ (sliceDims P.kinds P.operand).length := by
        have := leading_le_slices (kinds := P.kinds) h.len
        unfold advLeft
        split_ifs
        · omega
        · exact this
      rw [Nat.cast_one, Nat.cast_zero, rowMajor_unit hk hs.length]
      simp [rowMajor]
  · have hb' : P.bullet1 = false := by simpa using hb
    have hsep := (h.two hb').1
    rw [h.place2 hc hb' hs]
    unfold advLeft
    rw [hsep]
    rfl

theorem AdvGood.select (h : AdvGood P) (hc : AdvCount P L) {index : Nat → List Int} {data : List Rat}
    (hi : ∀ t, t < L → InShape (arrayDims P.kinds P.operand) (index t)) (hd : (data.length : Int) = shapeProd P.operand) :
    Shows P.subspace (P.subspaceCells P.operand)
      ((List.range L).map fun t => byteOffset (arrayDims P.kinds (itemStrides P.operand)) (index t))
      (advSelect P.kinds P.operand data index L) (fun _ => data) := by
  have hk : advLeft P.kinds ≤ (sliceDims P.kinds P.operand).length := by
    have := leading_le_slices (kinds := P.kinds) h.len
    unfold advLeft
    split_ifs
    · omega
    · exact this
  constructor
  · have h1 := advCoords_length (index := index) (count := L) hk (sliceDims_pos h.pos)
    rw [← h.cells_length] at h1
    unfold advSelect
    rw [List.length_map, List.length_map, List.length_range]
    exact_mod_cast h1
  · intro t o ho c hcm
    have ht : t < L := by
      have := (List.getElem?_eq_some_iff.1 ho).1
      simpa using this
    rw [List.getElem?_map, List.getElem?_range ht] at ho
    simp only [Option.map_some, Option.some.injEq] at ho
    subst ho
    rw [h.cells, List.mem_map] at hcm
    obtain ⟨s, hs, rfl⟩ := hcm
    have hs := mem_allCoords.1 hs
    simp only
    rw [h.place hc hs ht, h.position (hi t ht) hs]
    unfold advSelect
    rw [List.getElem?_map, advCoords_get hk ht hs]
    have hr := (InShape.merge h.len (hi t ht) hs).rowMajor_range
    simp only [Option.map_some, List.getD_eq_getElem?_getD]
    rw [List.getElem?_eq_getElem (by omega)]
    rfl

end Verif
