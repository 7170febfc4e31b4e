import Verif.Lemmas.InferIndices
import Verif.Lemmas.ViewStrides

set_option linter.unusedSimpArgs false
set_option linter.unusedVariables false

/-!
# C47: the indices a view reports, and saves, describe it
-/

namespace Verif

theorem le_shapeProd : ∀ {shape : List Int} {d : Int}, (∀ d ∈ shape, 0 < d) → d ∈ shape → d ≤ shapeProd shape
  | [], _, _, h => by cases h
  | e :: shape, d, hpos, h => by
    have he := hpos e List.mem_cons_self
    have hp : 0 < shapeProd shape := shapeProd_pos fun d hd => hpos d (List.mem_cons_of_mem _ hd)
    simp only [shapeProd]
    rcases List.mem_cons.1 h with rfl | h
    · have := Int.mul_le_mul_of_nonneg_left (show 1 ≤ shapeProd shape by omega) he.le
      omega
    · have h1 := le_shapeProd (fun d hd => hpos d (List.mem_cons_of_mem _ hd)) h
      have := Int.mul_le_mul_of_nonneg_right (show 1 ≤ e by omega) hp.le
      omega

/-- C47 for arrays of fixed size.  For every index tuple that selects something, the indices reported by the symbol
are accepted when the symbol is built again from them, give a view of the same shape that is contiguous if the first one is
(only such views can be sliced or reshaped again), and select the same coordinates of the array in the same order.  The array and the strides of the view fit the address space.

Missing: selections without any element, for which it fails (`C47_rejected_fails`, `C47_shape_fails`), and arrays without
any element (`C47_division_fails`). -/
theorem C47_fixed_partial (shape : List Int) (idx : List BasicIndex) (P : Parsed) (hd : ∀ d ∈ shape, 0 < d)
    (hm : 8 * shapeProd shape ≤ ssMax) (ho : SelectOk shape idx) (hf : ∀ i ∈ idx, i.Fits)
    (hpos : ∀ d ∈ selectShape shape idx, 0 < d) (hP : basicParse shape idx = .ok P) (hst : ∀ x ∈ P.strides, x ≤ ssMax) :
    ∃ out Q, reportedIndices shape P = .ok out ∧ basicParse shape out = .ok Q ∧ Q.shape = P.shape ∧
      Q.contiguous = P.contiguous ∧ selectCoords shape out = selectCoords shape idx := by
  obtain ⟨ss, st, start, h1, h2, h3, h4, h5⟩ := infer_spec shape idx hd hm ho hf hpos
  have hprod : ∀ d ∈ shape, d ≤ ssMax := by
    intro d hd'
    have := le_shapeProd hd hd'
    have := shapeProd_pos hd
    omega
  have hd0 : ∀ d ∈ shape, 0 ≤ d ∧ d ≤ ssMax := fun d h => ⟨(hd d h).le, hprod d h⟩
  obtain ⟨st', start', g1, _⟩ := parse_fixed hd0 ho hf
  have hP' : P = ⟨selectShape shape idx, st.map (8 * ·), start, none⟩ := by
    have hl := makeAll_length h1
    have hdyn : dynamicShape shape = false := by
      cases shape with
      | nil => rfl
      | cons d shape => have := hd d List.mem_cons_self; simp [dynamicShape]; omega
    unfold basicParse parseIndex at hP
    rw [h1, hdyn] at hP
    simp only [Res.ok_bind] at hP
    obtain ⟨_, _, hP⟩ := Res.bind_eq_ok.1 hP
    rw [h2] at hP
    simp only [Res.ok_bind, Res.ok.injEq] at hP
    exact hP.symm
  subst hP'
  obtain ⟨out, o1, o2⟩ := h5 (decide ((selectShape shape idx).length < shape.length)) [] _ [] st rfl rfl rfl (by simp)
    (fun v hv => hst (8 * v) (List.mem_map.2 ⟨v, hv, rfl⟩)) (by simp)
  obtain ⟨Q, hQ, hQs⟩ := (C30_accepts shape (out.map SliceOrInt.toIndex) hd0 o2.fits).1 o2.ok
  have hdyn : Parsed.dynamic ⟨selectShape shape idx, st.map (8 * ·), start, none⟩ = false := by
    simp only [Parsed.dynamic, decide_eq_false_iff_not]
    rw [shapeToSize_eq fun d h => (hpos d h).le]
    have := shapeProd_pos hpos
    omega
  refine ⟨out.map SliceOrInt.toIndex, Q, ?_, hQ, by rw [hQs, o2.axes],
    contiguous_fixed hd0 ho hf o2.ok o2.fits hpos o2.axes o2.coords hP hQ, o2.coords⟩
  unfold reportedIndices inferIndices
  rw [hdyn, guardUB_true (selectShape_length_le shape idx)]
  simp only [Res.ok_bind, Bool.false_eq_true, if_false, o1]

/-- The elements are those the original indices select. -/
theorem basicSelect_congr {α : Type} [Inhabited α] {shape : List Int} {idx out : List BasicIndex}
    (h : selectCoords shape out = selectCoords shape idx) (data : List α) :
    basicSelect shape data out = basicSelect shape data idx := by
  unfold basicSelect; rw [h]

/-- C47 for dynamic arrays, with the same restrictions: whatever the number of rows, the reported indices select the
same coordinates as the original ones. -/
theorem C47_dynamic_partial (rest : List Int) (a b c : Option Int) (idx : List BasicIndex) (P : Parsed)
    (h : DynIndex rest a b c idx) (hm : 8 * shapeProd rest ≤ ssMax)
    (hpos : ∀ d ∈ selectShape rest idx, 0 < d) (hP : basicParse (-1 :: rest) (.slice a b c :: idx) = .ok P)
    (hst : ∀ x ∈ P.strides, x ≤ ssMax) :
    ∃ out Q, reportedIndices (-1 :: rest) P = .ok out ∧ basicParse (-1 :: rest) out = .ok Q ∧ Q.shape = P.shape ∧
      Q.axis0 = P.axis0 ∧ Q.contiguous = P.contiguous ∧
      ∀ n : Nat, (n : Int) ≤ ssMax → selectShape (n :: rest) out = selectShape (n :: rest) (.slice a b c :: idx) ∧
        selectCoords (n :: rest) out = selectCoords (n :: rest) (.slice a b c :: idx) := by
  obtain ⟨ss, st, start, h1, h2, h3, h4, h5⟩ := infer_spec rest idx (fun d hd => (h.dims d hd).1) hm h.row
    (fun i hi => h.fits i (List.mem_cons_of_mem _ hi)) hpos
  obtain ⟨s, k0, hs, hstep, _⟩ := slicePositions_eq a b c 0 (by decide) h.step (h.fits _ List.mem_cons_self)
  have hc := h.step
  have hP' : P = ⟨-1 :: selectShape rest idx, s.step * (8 * shapeProd rest) :: st.map (8 * ·), start, some s⟩ := by
    have hdyn : dynamicShape (-1 :: rest) = true := by simp [dynamicShape]
    unfold basicParse parseIndex at hP
    simp only [BasicIndex.makeAll, BasicIndex.make, hs, Res.ok_bind, h1] at hP
    obtain ⟨_, _, hP⟩ := Res.bind_eq_ok.1 hP
    rw [hdyn, shapeToStrides_cons] at hP
    simp only at hP
    rw [(guardThrow_eq_ok.2 (by omega) : guardThrow (s.step ≠ 0) = .ok ()),
      (guardThrow_eq_ok.2 (by omega) : guardThrow (¬ s.step < 0) = .ok ())] at hP
    simp only [Res.ok_bind, h2, Res.ok.injEq] at hP
    exact hP.symm
  subst hP'
  have hss : s = ⟨a.getD 0, b.getD ssMax, c.getD 1⟩ := by
    unfold Slice.make at hs
    simp only [show c.getD 1 ≠ 0 by omega, if_false, Res.ok.injEq, show ¬ c.getD 1 < 0 by omega] at hs
    exact hs.symm
  obtain ⟨out, o1, o2⟩ := h5 (decide ((-1 :: selectShape rest idx).length < (-1 :: rest).length)) [] _ [] st rfl rfl rfl
    (by simp) (fun v hv => hst (8 * v) (List.mem_cons_of_mem _ (List.mem_map.2 ⟨v, hv, rfl⟩))) (by simp)
  have hmk : Slice.make (some s.start) (some s.stop) (some s.step) = .ok s := by
    unfold Slice.make
    simp only [Option.getD_some, show s.step ≠ 0 by omega, if_false]
  have hfit : (BasicIndex.slice (some s.start) (some s.stop) (some s.step)).Fits := by
    obtain ⟨f1, f2, f3⟩ := h.fits _ List.mem_cons_self
    rw [hss]
    refine ⟨?_, ?_, ?_⟩ <;> intro x hx <;> cases hx
    · cases a with
      | none => exact (by decide : IsSS 0)
      | some a => exact f1 a rfl
    · cases b with
      | none => exact (by decide : IsSS ssMax)
      | some b => exact f2 b rfl
    · cases c with
      | none => exact (by decide : IsSS 1)
      | some c => exact f3 c rfl
  have hD : DynIndex rest (some s.start) (some s.stop) (some s.step) (out.map SliceOrInt.toIndex) :=
    ⟨h.dims, by simp only [Option.getD_some]; omega, o2.ok, by
      intro i hi
      rcases List.mem_cons.1 hi with rfl | hi
      · exact hfit
      · exact o2.fits i hi⟩
  obtain ⟨s', st', start', q1, q2, q3, _⟩ := hD.parse
  rw [hmk] at q1
  cases q1
  refine ⟨.slice (some s.start) (some s.stop) (some s.step) :: out.map SliceOrInt.toIndex, _, ?_, q3, ?_, rfl,
    contiguous_dynamic h hD hpos o2.axes o2.coords (by simp only [Option.getD_some]; exact hstep) hP q3, ?_⟩
  · unfold reportedIndices inferIndices
    have hdyn := dynamic_parsed (selectShape rest idx) (s.step * (8 * shapeProd rest) :: st.map (8 * ·)) start (some s)
    rw [hdyn, guardUB_true (by have := selectShape_length_le rest idx; simp only [List.length_cons]; omega), shapeToStrides_cons]
    simp only [Res.ok_bind, if_true, List.drop_succ_cons, List.drop_zero, o1]
    rfl
  · simp only [o2.axes]
  · intro n hn
    obtain ⟨t1, k1, u1, _, v1, _, _, _, _, w1⟩ := slicePositions_eq a b c n hn h.step (h.fits _ List.mem_cons_self)
    obtain ⟨t2, k2, u2, _, v2, _, _, _, _, w2⟩ := slicePositions_eq (some s.start) (some s.stop) (some s.step) n hn
      (by simp only [Option.getD_some]; omega) hfit
    rw [hs] at u1
    rw [hmk] at u2
    cases u1
    cases u2
    rw [v1] at v2
    have hk : k1 = k2 := by have := Res.ok.inj v2; omega
    subst hk
    simp only [selectShape, selectCoords, Int.toNat_natCast, w1, w2, o2.axes, o2.coords, and_self]

/-! ## Where the property fails -/

/-- Builds a view, asks for its indices and builds it again from them: the shape of the view and of the second one. -/
def rebuild (shape : List Int) (idx : List BasicIndex) : Res (List Int × List BasicIndex × List Int) := do
  let P ← basicParse shape idx
  let out ← reportedIndices shape P
  let Q ← basicParse shape out
  .ok (P.shape, out, Q.shape)

/-- **C47 fails**: `A[1, 3:]` of a (2, 3) array reports `A[2, 0:0]`, which is rejected: a saved model with this symbol
cannot be loaded. -/
theorem C47_rejected_fails :
    SelectOk [2, 3] [.at 1, sl (some 3) none none] ∧
    (∃ P, basicParse [2, 3] [.at 1, sl (some 3) none none] = .ok P ∧
      reportedIndices [2, 3] P = .ok [.at 2, sl (some 0) (some 0) (some 1)]) ∧
    rebuild [2, 3] [.at 1, sl (some 3) none none] = .throw :=
  ⟨⟨by decide, by decide, trivial⟩, ⟨_, rfl, by decide +kernel⟩, by decide +kernel⟩

/-- **C47 fails**: `A[:, 3:, 2]` of a (2, 3, 4) array has the shape (2, 0), and becomes one of shape (1, 0). -/
theorem C47_shape_fails :
    SelectOk [2, 3, 4] [colon, sl (some 3) none none, .at 2] ∧
    rebuild [2, 3, 4] [colon, sl (some 3) none none, .at 2] =
      .ok ([2, 0], [sl (some 1) (some 2) (some 1), sl (some 0) (some 0) (some 1), .at 2], [1, 0]) :=
  ⟨⟨by decide, by decide, by decide, trivial⟩, by decide +kernel⟩

/-- **C47 fails**: for an array of shape (3, 0) a number is divided by zero. -/
theorem C47_division_fails : SelectOk [3, 0] [colon, colon] ∧ rebuild [3, 0] [colon, colon] = .ub :=
  ⟨⟨by decide, by decide, trivial⟩, by decide +kernel⟩

/-! ## Cases that meet the hypotheses -/

-- `A[1, ::3]` of a (3, 2) array comes back as `A[1:2:1, 0]`
example : rebuild [3, 2] [.at 1, sl none none (some 3)] =
    .ok ([1], [sl (some 1) (some 2) (some 1), .at 0], [1]) := by decide +kernel
example : selectCoords [3, 2] [.at 1, sl none none (some 3)] = [[1, 0]] ∧
    selectCoords [3, 2] [sl (some 1) (some 2) (some 1), .at 0] = [[1, 0]] := ⟨by decide, by decide⟩
-- `A[-1, 1:4:2, :]` of a (2, 5, 3) array
example : rebuild [2, 5, 3] [.at (-1), sl (some 1) (some 4) (some 2), colon] =
    .ok ([2, 3], [.at 1, sl (some 1) (some 5) (some 2), sl (some 0) (some 3) (some 1)], [2, 3]) := by decide +kernel
example : (∀ d ∈ ([2, 5, 3] : List Int), 0 < d) ∧ 8 * shapeProd [2, 5, 3] ≤ ssMax ∧
    SelectOk [2, 5, 3] [.at (-1), sl (some 1) (some 4) (some 2), colon] ∧
    (∀ i ∈ [BasicIndex.at (-1), sl (some 1) (some 4) (some 2), colon], i.Fits) ∧
    (∀ d ∈ selectShape [2, 5, 3] [.at (-1), sl (some 1) (some 4) (some 2), colon], 0 < d) :=
  ⟨by decide, by decide, ⟨by decide, by decide, by decide, trivial⟩, by decide, by decide⟩
-- `A[-2:, 1]` of a dynamic array with rows of two
example : rebuild [-1, 2] [sl (some (-2)) none none, .at 1] =
    .ok ([-1], [sl (some (-2)) (some ssMax) (some 1), .at 1], [-1]) := by decide +kernel
example : DynIndex [2] (some (-2)) none none [.at 1] ∧ 8 * shapeProd [2] ≤ ssMax ∧ (∀ d ∈ selectShape [2] [.at 1], 0 < d) :=
  ⟨⟨by decide, by decide, ⟨by decide, trivial⟩, by decide⟩, by decide, by decide⟩

end Verif
