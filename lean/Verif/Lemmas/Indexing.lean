import Verif.Model.Nodes.BasicIndexing
import Verif.Lemmas.NodeBase
import Verif.Props.Slice
import Verif.Props.Shape
import Verif.Props.PartialReduce
import Verif.Lemmas.Declared
import Mathlib.Data.List.Sort
import Mathlib.Tactic.Ring

set_option linter.unusedSectionVars false
set_option linter.unusedSimpArgs false
set_option linter.unusedVariables false

/-! Helper lemmas about basic indexing: what the parser finds. -/

namespace Verif

/-- The parts of an index fit `ssize_t`. -/
def BasicIndex.Fits : BasicIndex → Prop
  | .at i => IsSS i
  | .slice a b c => (∀ x ∈ a, IsSS x) ∧ (∀ x ∈ b, IsSS x) ∧ (∀ x ∈ c, IsSS x)

theorem eq_of_increasing : ∀ {l l' : List Nat}, l.Pairwise (· < ·) → l'.Pairwise (· < ·) → (∀ x, x ∈ l ↔ x ∈ l') → l = l'
  | [], [], _, _, _ => rfl
  | [], b :: l', _, _, h => absurd ((h b).2 List.mem_cons_self) (by simp)
  | a :: l, [], _, _, h => absurd ((h a).1 List.mem_cons_self) (by simp)
  | a :: l, b :: l', h1, h2, h => by
    rw [List.pairwise_cons] at h1 h2
    have hab : a = b := by
      have ha := (h a).1 List.mem_cons_self
      have hb := (h b).2 List.mem_cons_self
      rcases List.mem_cons.1 ha with ha | ha
      · exact ha
      · rcases List.mem_cons.1 hb with hb | hb
        · exact hb.symm
        · have := h1.1 b hb
          have := h2.1 a ha
          omega
    subst hab
    congr 1
    refine eq_of_increasing h1.2 h2.2 fun x => ?_
    constructor
    · intro hx
      rcases List.mem_cons.1 ((h x).1 (List.mem_cons_of_mem _ hx)) with rfl | hx'
      · exact absurd (h1.1 x hx) (by omega)
      · exact hx'
    · intro hx
      rcases List.mem_cons.1 ((h x).2 (List.mem_cons_of_mem _ hx)) with rfl | hx'
      · exact absurd (h2.1 x hx) (by omega)
      · exact hx'

theorem shapeProd_nonneg : ∀ {shape : List Int}, (∀ d ∈ shape, 0 ≤ d) → 0 ≤ shapeProd shape
  | [], _ => by decide
  | d :: shape, h => Int.mul_nonneg (h d List.mem_cons_self)
    (shapeProd_nonneg fun e he => h e (List.mem_cons_of_mem _ he))

/-- A fitted slice runs through its positions. -/
theorem slicePositions_eq (a b c : Option Int) (n : Nat) (hn : (n : Int) ≤ ssMax) (hc : 0 < c.getD 1)
    (hf : (BasicIndex.slice a b c).Fits) :
    ∃ s k, Slice.make a b c = .ok s ∧ s.step = c.getD 1 ∧ (s.fit n).size = .ok (k : Nat) ∧ k ≤ n ∧
      0 ≤ (s.fit n).start ∧ (s.fit n).start ≤ n ∧ (s.fit n).step = s.step ∧
      slicePositions a b c n = (List.range k).map fun (m : Nat) => ((s.fit n).start + m * s.step).toNat := by
  obtain ⟨s, hs, hpy⟩ := C10_fit_python a b c n (by omega) hn (by omega)
  simp only at hpy
  have hstep : s.step = c.getD 1 := by
    unfold Slice.make at hs
    simp only [show c.getD 1 ≠ 0 by omega, if_false, Res.ok.injEq] at hs
    rw [← hs]
  have hss : IsSS s.start ∧ IsSS s.stop ∧ IsSS s.step := by
    unfold Slice.make at hs
    simp only [show c.getD 1 ≠ 0 by omega, if_false, Res.ok.injEq, show ¬ c.getD 1 < 0 by omega] at hs
    rw [← hs]
    obtain ⟨h1, h2, h3⟩ := hf
    refine ⟨?_, ?_, ?_⟩
    · cases a with
      | none => exact (by decide : IsSS 0)
      | some x => exact h1 x rfl
    · cases b with
      | none => exact (by decide : IsSS ssMax)
      | some x => exact h2 x rfl
    · cases c with
      | none => exact (by decide : IsSS 1)
      | some x => exact h3 x rfl
  have hst : (s.fit n).step = s.step := rfl
  obtain ⟨k, hk, hk0, hkn, hin⟩ := C10_fitted_size s n (by omega) hn (by omega) hss.1 hss.2.1 hss.2.2
    (by rw [hstep]; unfold ssMin; omega)
  have hb : 0 ≤ (s.fit n).start ∧ (s.fit n).start ≤ n ∧ 0 ≤ (s.fit n).stop ∧ (s.fit n).stop ≤ n := by
    unfold Slice.fit
    simp only
    refine ⟨?_, ?_, ?_, ?_⟩ <;> (repeat' split) <;> omega
  have hIS : ∀ x : Int, 0 ≤ x → x ≤ n → IsSS x := by
    intro x h0 h1
    unfold IsSS ssMin
    exact ⟨by omega, by omega⟩
  have hcount := C10_size_counts (s.fit n) (by rw [hst]; omega) (hIS _ hb.1 hb.2.1) (hIS _ hb.2.2.1 hb.2.2.2) hss.2.2 hk
  refine ⟨s, k.toNat, hs, hstep, by rw [hk]; congr 1; omega, by omega, hb.1, hb.2.1, hst, ?_⟩
  have hpos : 0 < s.step := by omega
  apply eq_of_increasing
  · exact List.Pairwise.filter _ List.pairwise_lt_range
  · rw [List.pairwise_map]
    refine List.pairwise_lt_range.imp fun {i j} hij => ?_
    have h1 : (i : Int) * s.step < j * s.step := Int.mul_lt_mul_of_pos_right (by omega) hpos
    have h2 : 0 ≤ (i : Int) * s.step := Int.mul_nonneg (by omega) (by omega)
    omega
  · intro x
    unfold slicePositions
    rw [← hpy]
    simp only [List.mem_filter, List.mem_range, decide_eq_true_eq, List.mem_map, ← hstep]
    constructor
    · rintro ⟨h1, h2, h3, h4⟩
      obtain ⟨m, hm⟩ := Int.dvd_of_emod_eq_zero h4
      have hm0 : 0 ≤ m := by
        by_contra hneg
        have : s.step * m < 0 := Int.mul_neg_of_pos_of_neg hpos (by omega)
        omega
      have e : ((m.toNat : Nat) : Int) = m := Int.toNat_of_nonneg hm0
      refine ⟨m.toNat, ?_, ?_⟩
      · have : ((m.toNat : Nat) : Int) < k := by
          rw [hcount]
          intro j hj
          rw [hst]
          refine ⟨fun _ => ?_, fun h => by omega⟩
          have : (j : Int) * s.step ≤ m * s.step := Int.mul_le_mul_of_nonneg_right (by omega) (by omega)
          have : m * s.step = s.step * m := Int.mul_comm _ _
          omega
        omega
      · rw [e, Int.mul_comm, ← hm]; omega
    · rintro ⟨m, hm, rfl⟩
      have hm' : (m : Int) < k := by omega
      obtain ⟨h1, h2⟩ := hin m hm'
      rw [hst] at h1 h2
      have h3 := (hcount m).1 hm' m (Nat.le_refl m)
      rw [hst] at h3
      have h3 := h3.1 hpos
      have h4 : 0 ≤ (m : Int) * s.step := Int.mul_nonneg (by omega) (by omega)
      have e : (((s.fit n).start + m * s.step).toNat : Int) = (s.fit n).start + m * s.step := Int.toNat_of_nonneg h1
      refine ⟨by omega, by omega, by omega, ?_⟩
      rw [e, add_sub_cancel_left]
      exact Int.mul_emod_left _ _

theorem byteOffset_eight (st : List Int) (c : List Int) : byteOffset (st.map (8 * ·)) c = 8 * byteOffset st c := by
  induction st generalizing c with
  | nil => simp [byteOffset]
  | cons s st ih =>
    cases c with
    | nil => simp [byteOffset]
    | cons i c => simp only [List.map_cons, byteOffset, ih]; ring

theorem byteOffset_tdiv (st : List Int) (c : List Int) : (byteOffset (st.map (8 * ·)) c).tdiv 8 = byteOffset st c := by
  rw [byteOffset_eight]; exact Int.mul_tdiv_cancel_left _ (by decide)

theorem tdiv_eight (a b : Int) : (a * (8 * b)).tdiv 8 = a * b := by
  rw [show a * (8 * b) = 8 * (a * b) by ring]; exact Int.mul_tdiv_cancel_left _ (by decide)

/-- As far as a start can lie. -/
def farEnd : List Int → Int
  | [] => 0
  | n :: shape => n * shapeProd shape + farEnd shape

/-- What the parser finds on axes of known size. -/
theorem parseAxes_spec : ∀ (shape : List Int) (idx : List BasicIndex), (∀ d ∈ shape, 0 ≤ d ∧ d ≤ ssMax) →
    SelectOk shape idx → (∀ i ∈ idx, i.Fits) →
    ∃ ss st start, BasicIndex.makeAll idx = .ok ss ∧ ss.length = shape.length ∧
      parseAxes shape (shapeToStrides shape) ss = .ok (selectShape shape idx, st.map (8 * ·), start) ∧
      st.length = (selectShape shape idx).length ∧ (∀ d ∈ selectShape shape idx, 0 ≤ d) ∧ (0 ≤ start ∧ start ≤ farEnd shape) ∧
      (∀ x ∈ st, 0 ≤ x) ∧
      (allCoords (selectShape shape idx)).map (fun c => start + byteOffset st c) =
        (selectCoords shape idx).map (rowMajor shape)
  | [], [], _, _, _ => ⟨[], [], 0, rfl, rfl, rfl, rfl, by simp [selectShape], ⟨le_refl _, le_refl _⟩, by simp, rfl⟩
  | [], i :: idx, _, h, _ => by cases h
  | n :: shape, [], _, h, _ => by cases h
  | n :: shape, .at i :: idx, hd, h, hf => by
    obtain ⟨ss, st, start, h1, hl, h2, h3, h4, h4', h4'', h5⟩ := parseAxes_spec shape idx
      (fun d hd' => hd d (List.mem_cons_of_mem _ hd')) h.2 (fun i hi => hf i (List.mem_cons_of_mem _ hi))
    have hp : 0 ≤ shapeProd shape := by
      exact shapeProd_nonneg fun d hd' => (hd d (List.mem_cons_of_mem _ hd')).1
    have hi := h.1
    refine ⟨.int i :: ss, st, (if i < 0 then i + n else i) * shapeProd shape + start, ?_, by simp [hl], ?_, h3, h4, ?_, h4'', ?_⟩
    · simp only [BasicIndex.makeAll, BasicIndex.make, Res.ok_bind, h1]
    · rw [shapeToStrides_cons]
      simp only [parseAxes, selectShape]
      rw [(guardThrow_eq_ok.2 (by split_ifs <;> omega) : guardThrow _ = .ok ())]
      simp only [Res.ok_bind, h2, tdiv_eight]
    · have h0 : 0 ≤ (if i < 0 then i + n else i) := by split_ifs <;> omega
      have h1 : (if i < 0 then i + n else i) ≤ n := by split_ifs <;> omega
      have := Int.mul_nonneg h0 hp
      have := Int.mul_le_mul_of_nonneg_right h1 hp
      simp only [farEnd]
      omega
    · simp only [selectShape, selectCoords, List.map_map]
      have : (rowMajor (n :: shape) ∘ fun x => (if i < 0 then i + n else i) :: x) =
          (fun z => (if i < 0 then i + n else i) * shapeProd shape + z) ∘ rowMajor shape := rfl
      rw [this, ← List.map_map, ← h5, List.map_map]
      apply List.map_congr_left
      intro c _
      simp only [Function.comp_apply]
      ring
  | n :: shape, .slice a b c :: idx, hd, h, hf => by
    obtain ⟨ss, st, start, h1, hl, h2, h3, h4, h4', h4'', h5⟩ := parseAxes_spec shape idx
      (fun d hd' => hd d (List.mem_cons_of_mem _ hd')) h.2 (fun i hi => hf i (List.mem_cons_of_mem _ hi))
    have hp : 0 ≤ shapeProd shape := by
      exact shapeProd_nonneg fun d hd' => (hd d (List.mem_cons_of_mem _ hd')).1
    have hn := hd n List.mem_cons_self
    have en : ((n.toNat : Nat) : Int) = n := Int.toNat_of_nonneg hn.1
    obtain ⟨s, k, hs, hst, hk, hkn, hb0, hb1, hfs, hpos⟩ := slicePositions_eq a b c n.toNat (by omega) h.1
      (hf _ List.mem_cons_self)
    rw [en] at hk hb0 hb1 hfs hpos
    have hlen : (slicePositions a b c n.toNat).length = k := by rw [hpos]; simp
    have hst0 : 0 < s.step := by have := h.1; omega
    refine ⟨.slice s :: ss, s.step * shapeProd shape :: st, (s.fit n).start * shapeProd shape + start, ?_, by simp [hl], ?_,
      by simp [selectShape, h3], ?_, ?_, ?_, ?_⟩
    · simp only [BasicIndex.makeAll, BasicIndex.make, hs, Res.ok_bind, h1]
    · rw [shapeToStrides_cons]
      simp only [parseAxes, selectShape]
      rw [(guardThrow_eq_ok.2 (by omega) : guardThrow (s.step ≠ 0) = .ok ()),
        (guardThrow_eq_ok.2 (by omega) : guardThrow (¬ s.step < 0) = .ok ()), guardUB_true hn.1]
      simp only [Res.ok_bind, hk, h2, tdiv_eight, hlen, hfs, List.map_cons]
      rw [show s.step * (8 * shapeProd shape) = 8 * (s.step * shapeProd shape) by ring]
    · intro d hd'
      simp only [selectShape, List.mem_cons] at hd'
      rcases hd' with rfl | hd'
      · omega
      · exact h4 d hd'
    · have := Int.mul_nonneg hb0 hp
      have := Int.mul_le_mul_of_nonneg_right hb1 hp
      simp only [farEnd]
      omega
    · intro x hx
      rcases List.mem_cons.1 hx with rfl | hx
      · exact Int.mul_nonneg (by omega) hp
      · exact h4'' x hx
    · simp only [selectShape, selectCoords, allCoords, hlen, Int.toNat_natCast, List.map_flatMap, List.map_map]
      rw [hpos, List.flatMap_map]
      apply List.flatMap_congr
      intro m hm
      have e : ((((s.fit n).start + m * s.step).toNat : Nat) : Int) = (s.fit n).start + m * s.step :=
        Int.toNat_of_nonneg (by have := Int.mul_nonneg (Int.natCast_nonneg m) (show 0 ≤ s.step by omega); omega)
      have : (rowMajor (n :: shape) ∘ fun x => ((((s.fit n).start + m * s.step).toNat : Nat) : Int) :: x) =
          (fun z => ((s.fit n).start + m * s.step) * shapeProd shape + z) ∘ rowMajor shape := by
        funext x; simp only [Function.comp_apply, rowMajor, e]
      rw [this, ← List.map_map (f := rowMajor shape), ← h5, List.map_map]
      apply List.map_congr_left
      intro c _
      simp only [Function.comp_apply, byteOffset, Int.ofNat_eq_natCast]
      ring

theorem allCoords_rowMajor {shape : List Int} (h : ∀ d ∈ shape, 0 < d) :
    (allCoords shape).map (rowMajor shape) = (List.range (shapeProd shape).toNat).map fun (i : Nat) => (i : Int) := by
  have hl := length_allCoords h
  apply List.ext_getElem?
  intro i
  by_cases hi : (i : Int) < shapeProd shape
  · obtain ⟨c, _, hc, hr⟩ := unravel_spec shape h i (by omega) hi
    have hg := allCoords_get hc
    rw [hr, Int.toNat_natCast] at hg
    rw [List.getElem?_map, hg, List.getElem?_map, List.getElem?_range (by omega)]
    simp [hr]
  · rw [List.getElem?_eq_none (by rw [List.length_map]; omega),
      List.getElem?_eq_none (by rw [List.length_map, List.length_range]; omega)]

theorem allCoords_empty : ∀ {shape : List Int}, 0 ∈ shape → allCoords shape = []
  | d :: shape, h => by
    rcases List.mem_cons.1 h with rfl | h
    · rfl
    · simp [allCoords, allCoords_empty h]

theorem shapeProd_zero : ∀ {shape : List Int}, 0 ∈ shape → shapeProd shape = 0
  | d :: shape, h => by
    rcases List.mem_cons.1 h with rfl | h
    · simp [shapeProd]
    · simp [shapeProd, shapeProd_zero h]

theorem foldl_mul_shapeProd (l : List Int) (a : Int) : l.foldl (· * ·) a = a * shapeProd l := by
  induction l generalizing a with
  | nil => simp [shapeProd]
  | cons d l ih => simp only [List.foldl_cons, ih, shapeProd]; ring

theorem shapeToSize_eq {shape : List Int} (h : ∀ d ∈ shape, 0 ≤ d) : shapeToSize shape = shapeProd shape := by
  cases shape with
  | nil => rfl
  | cons d shape =>
    have := h d List.mem_cons_self
    simp only [shapeToSize, if_neg (show ¬ d < 0 by omega), foldl_mul_shapeProd, shapeProd, one_mul]

/-- A contiguous array read from its first element on is the array read through its strides. -/
theorem consecutive_eq {α : Type} [Inhabited α] (data : List α) (D st : List Int) (o : Int) (hD : ∀ d ∈ D, 0 ≤ d)
    (hv : (∀ d ∈ D, 0 < d) → VisitsConsecutive D (st.map (8 * ·))) :
    ((List.range (shapeProd D).toNat).map fun (i : Nat) => data.getD (o + i).toNat default) =
      (allCoords D).map fun c => data.getD (o + byteOffset st c).toNat default := by
  by_cases h0 : 0 ∈ D
  · rw [allCoords_empty h0, shapeProd_zero h0]; rfl
  · have hpos : ∀ d ∈ D, 0 < d := by
      intro d hd
      have := hD d hd
      rcases Int.lt_or_eq_of_le this with h | h
      · exact h
      · exact absurd (h ▸ hd) h0
    have h1 := allCoords_rowMajor hpos
    have h2 : ∀ c ∈ allCoords D, byteOffset st c = rowMajor D c := by
      intro c hc
      have := hv hpos c (inShape_of_mem hc)
      rw [byteOffset_eight] at this
      omega
    have h3 : ((allCoords D).map fun c => data.getD (o + byteOffset st c).toNat default) =
        ((allCoords D).map (rowMajor D)).map fun i => data.getD (o + i).toNat default := by
      rw [List.map_map]
      exact List.map_congr_left fun c hc => by simp only [Function.comp_apply, h2 c hc]
    rw [h3, h1, List.map_map]
    rfl

/-- The elements of a view, read through its strides. -/
theorem elements_eq {α : Type} [DecidableEq α] [Inhabited α] (P : Parsed) (s : BasicState α) (st : List Int)
    (hst : P.strides = st.map (8 * ·)) (hD : ∀ d ∈ s.dims P, 0 ≤ d)
    (hs : s.size P = shapeProd (s.dims P))
    (hv : P.contiguous = true → (∀ d ∈ s.dims P, 0 < d) → VisitsConsecutive (s.dims P) P.strides) :
    s.elements P = (allCoords (s.dims P)).map fun c => s.now.data.getD (s.offset P + byteOffset st c).toNat default := by
  unfold BasicState.elements
  by_cases hc : P.contiguous = true
  · rw [if_pos hc, hs]
    exact consecutive_eq _ _ _ _ hD (fun h => hst ▸ hv hc h)
  · rw [if_neg hc]
    apply List.map_congr_left
    intro c _
    rw [hst, byteOffset_tdiv]

/-- Reading data at the selected coordinates. -/
theorem basicSelect_eq {α : Type} [Inhabited α] (shape : List Int) (data : List α) (idx : List BasicIndex)
    (sh st : List Int) (o : Int)
    (h : (allCoords sh).map (fun c => o + byteOffset st c) = (selectCoords shape idx).map (rowMajor shape)) :
    basicSelect shape data idx = (allCoords sh).map fun c => data.getD (o + byteOffset st c).toNat default := by
  have : ((selectCoords shape idx).map fun c => data.getD (rowMajor shape c).toNat default) =
      ((selectCoords shape idx).map (rowMajor shape)).map fun i => data.getD i.toNat default := by
    rw [List.map_map]; rfl
  unfold basicSelect
  rw [this, ← h, List.map_map]
  rfl

theorem makeAll_length : ∀ {idx : List BasicIndex} {ss : List SliceOrInt}, BasicIndex.makeAll idx = .ok ss →
    ss.length = idx.length
  | [], ss, h => by simp [BasicIndex.makeAll] at h; subst h; rfl
  | i :: idx, ss, h => by
    simp only [BasicIndex.makeAll] at h
    obtain ⟨a, _, h⟩ := Res.bind_eq_ok.1 h
    obtain ⟨b, hb, h⟩ := Res.bind_eq_ok.1 h
    simp only [Res.ok.injEq] at h
    subst h
    simp [makeAll_length hb]

end Verif
