import Verif.Props.BasicIndexing

set_option linter.unusedSectionVars false
set_option linter.unusedSimpArgs false
set_option linter.unusedVariables false

/-!
# C31: basic indexing of dynamic arrays
-/

namespace Verif

variable {α : Type} [DecidableEq α] [Inhabited α]

/-- An index tuple for a dynamic array whose rows have the shape `rest`: a slice with positive step for the first
axis, and an acceptable index for a row; all numbers fit `ssize_t`. -/
structure DynIndex (rest : List Int) (a b c : Option Int) (idx : List BasicIndex) : Prop where
  dims : ∀ d ∈ rest, 0 < d ∧ d ≤ ssMax
  step : 0 < c.getD 1
  row : SelectOk rest idx
  fits : ∀ i ∈ BasicIndex.slice a b c :: idx, i.Fits

namespace DynIndex

variable {rest : List Int} {a b c : Option Int} {idx : List BasicIndex}

theorem pos (h : DynIndex rest a b c idx) : 0 < shapeProd rest := shapeProd_pos fun d hd => (h.dims d hd).1

/-- What the parser finds. -/
theorem parse (h : DynIndex rest a b c idx) : ∃ s st start, Slice.make a b c = .ok s ∧ s.step = c.getD 1 ∧
    basicParse (-1 :: rest) (.slice a b c :: idx) =
      .ok ⟨-1 :: selectShape rest idx, (s.step * shapeProd rest :: st).map (8 * ·), start, some s⟩ ∧
    st.length = (selectShape rest idx).length ∧ (∀ d ∈ selectShape rest idx, 0 ≤ d) ∧ 0 ≤ start ∧
    (allCoords (selectShape rest idx)).map (fun c => start + byteOffset st c) =
      (selectCoords rest idx).map (rowMajor rest) ∧
    ∀ n : Nat, (n : Int) ≤ ssMax → ∃ k : Nat, (s.fit n).size = .ok (k : Int) ∧ 0 ≤ (s.fit n).start ∧ k ≤ n ∧
      selectShape ((n : Int) :: rest) (.slice a b c :: idx) = (k : Int) :: selectShape rest idx ∧
      (allCoords ((k : Int) :: selectShape rest idx)).map
        (fun e => start + (s.fit n).start * shapeProd rest + byteOffset (s.step * shapeProd rest :: st) e) =
      (selectCoords ((n : Int) :: rest) (.slice a b c :: idx)).map (rowMajor ((n : Int) :: rest)) := by
  obtain ⟨ss, st, start, h1, hl, h2, h3, h4, h5, h6, h7⟩ := parseAxes_spec rest idx
    (fun d hd => ⟨(h.dims d hd).1.le, (h.dims d hd).2⟩) h.row (fun i hi => h.fits i (List.mem_cons_of_mem _ hi))
  obtain ⟨s, k0, hs, hst, _⟩ := slicePositions_eq a b c 0 (by decide) h.step (h.fits _ List.mem_cons_self)
  have hstep := h.step
  have hm : BasicIndex.makeAll (.slice a b c :: idx) = .ok (.slice s :: ss) := by
    simp only [BasicIndex.makeAll, BasicIndex.make, hs, Res.ok_bind, h1]
  refine ⟨s, st, start, hs, hst, ?_, h3, h4, h5.1, h7, fun n hn => ?_⟩
  · unfold basicParse parseIndex
    rw [hm]
    simp only [Res.ok_bind]
    rw [(guardThrow_eq_ok.2 (by simp [hl]) : guardThrow ((SliceOrInt.slice s :: ss).length = (-1 :: rest).length) = .ok ()),
      shapeToStrides_cons]
    have hdyn : dynamicShape (-1 :: rest) = true := by simp [dynamicShape]
    rw [hdyn]
    simp only [Res.ok_bind]
    rw [(guardThrow_eq_ok.2 (by omega) : guardThrow (s.step ≠ 0) = .ok ()),
      (guardThrow_eq_ok.2 (by omega) : guardThrow (¬ s.step < 0) = .ok ())]
    simp only [Res.ok_bind, h2, List.map_cons]
    rw [show s.step * (8 * shapeProd rest) = 8 * (s.step * shapeProd rest) by ring]
  · obtain ⟨ss', st', start', g1, gl, g2, g3, g4, g5, g6, g7⟩ := parseAxes_spec ((n : Int) :: rest) (.slice a b c :: idx)
      (by
        intro d hd
        rcases List.mem_cons.1 hd with rfl | hd
        · exact ⟨by omega, hn⟩
        · exact ⟨(h.dims d hd).1.le, (h.dims d hd).2⟩) ⟨h.step, h.row⟩ h.fits
    obtain ⟨s', k, hs', hst', hk, hkn, hb0, hb1, hfs, hpos⟩ := slicePositions_eq a b c n hn h.step
      (h.fits _ List.mem_cons_self)
    rw [hs] at hs'
    cases hs'
    rw [hm] at g1
    cases g1
    rw [shapeToStrides_cons] at g2
    simp only [parseAxes] at g2
    rw [(guardThrow_eq_ok.2 (by omega) : guardThrow (s.step ≠ 0) = .ok ()),
      (guardThrow_eq_ok.2 (by omega) : guardThrow (¬ s.step < 0) = .ok ()), guardUB_true (by omega)] at g2
    simp only [Res.ok_bind, hk, h2, tdiv_eight, hfs, Res.ok.injEq, Prod.mk.injEq] at g2
    obtain ⟨e1, e2, e3⟩ := g2
    refine ⟨k, hk, hb0, hkn, e1.symm, ?_⟩
    have est : st' = s.step * shapeProd rest :: st := by
      have : (s.step * shapeProd rest :: st).map (fun x => 8 * x) = st'.map (fun x => 8 * x) := by
        rw [← e2, List.map_cons]
        congr 1
        ring
      refine (List.map_injective_iff.2 ?_ this).symm
      intro x y hxy
      simp only at hxy
      omega
    rw [e1, ← g7, ← e3, est]
    apply List.map_congr_left
    intro x _
    ring

end DynIndex

/-- The number of rows of a dynamic array. -/
theorem rows_of {rest : List Int} (hp : 0 < shapeProd rest) {x : Arr α} (hs : x.shape = -1 :: rest) (hw : x.WF)
    (hl : (x.data.length : Int) ≤ ssMax) : ∃ n : Nat, (n : Int) ≤ ssMax ∧ (x.data.length : Int) = n * shapeProd rest ∧
      x.shapeNow = (n : Int) :: rest := by
  have hdyn : x.dynamic = true := by unfold Arr.dynamic; rw [hs]; simp [dynamicShape]
  have hr : rowSize x.shape = shapeProd rest := by rw [hs, shapeProd_eq]; rfl
  unfold Arr.WF at hw
  rw [hdyn, if_pos rfl, hr] at hw
  obtain ⟨n, hn⟩ := hw
  have hn0 : 0 ≤ n := by
    by_contra hneg
    have : shapeProd rest * n < 0 := Int.mul_neg_of_pos_of_neg hp (by omega)
    omega
  have hle : n ≤ shapeProd rest * n := by
    have := Int.mul_le_mul_of_nonneg_right (show 1 ≤ shapeProd rest by omega) hn0
    omega
  refine ⟨n.toNat, by omega, ?_, ?_⟩
  · rw [Int.toNat_of_nonneg hn0, hn]; ring
  · unfold Arr.shapeNow
    rw [hdyn, if_pos rfl, hr, hn, Int.mul_ediv_cancel_left _ (by omega), hs, Int.toNat_of_nonneg hn0]
    rfl

/-- The state knows the present number of rows. -/
def BasicState.InStep (P : Parsed) (s : BasicState α) : Prop :=
  s.fitted = P.slice.fit (s.now.shapeNow.headD 0) ∧ s.fitted.size = .ok s.dim0

theorem updateShape_ok {P : Parsed} {s : BasicState α} {k : Int}
    (h : (P.slice.fit (s.now.shapeNow.headD 0)).size = .ok k) :
    ∃ s', s.updateShape P = .ok s' ∧ s' = { s with fitted := P.slice.fit (s.now.shapeNow.headD 0), dim0 := k } ∧ s'.InStep P := by
  refine ⟨_, ?_, rfl, rfl, h⟩
  unfold BasicState.updateShape
  rw [h]; rfl

/-- The elements of a view of a dynamic array. -/
theorem elements_dynamic {rest : List Int} {a b c : Option Int} {idx : List BasicIndex} (h : DynIndex rest a b c idx)
    {P : Parsed} (hP : basicParse (-1 :: rest) (.slice a b c :: idx) = .ok P) {s : BasicState α} (hs : s.InStep P)
    (hsh : s.now.shape = -1 :: rest) (hw : s.now.WF) (hl : (s.now.data.length : Int) ≤ ssMax)
    (hoff : c.getD 1 = 1 ∨ s.fitted.start = 0) :
    s.elements P = basicSelect s.now.shapeNow s.now.data (.slice a b c :: idx) := by
  obtain ⟨sl, st, start, h1, h2, h3, h4, h5, h6, h7, h8⟩ := h.parse
  rw [hP] at h3
  cases h3
  obtain ⟨n, hn, hlen, hnow⟩ := rows_of h.pos hsh hw hl
  obtain ⟨k, hk, hb0, hkn, hsel, hco⟩ := h8 n hn
  obtain ⟨e1, e2⟩ := hs
  rw [hnow, List.headD_cons] at e1
  have e1' : s.fitted = sl.fit n := e1
  rw [e1', hk] at e2
  have e2' : s.dim0 = k := (Res.ok.inj e2).symm
  have hdyn : Parsed.dynamic ⟨-1 :: selectShape rest idx, (sl.step * shapeProd rest :: st).map (8 * ·), start, some sl⟩ = true := by
    simp [Parsed.dynamic, shapeToSize]
  have hd : s.dims ⟨-1 :: selectShape rest idx, (sl.step * shapeProd rest :: st).map (8 * ·), start, some sl⟩ =
      (k : Int) :: selectShape rest idx := by
    unfold BasicState.dims
    rw [hdyn, if_pos rfl, e2']
    rfl
  have hd0 : ∀ d ∈ (k : Int) :: selectShape rest idx, 0 ≤ d := by
    intro d hd
    rcases List.mem_cons.1 hd with rfl | hd
    · omega
    · exact h5 d hd
  have ho : s.offset ⟨-1 :: selectShape rest idx, (sl.step * shapeProd rest :: st).map (8 * ·), start, some sl⟩ =
      start + (sl.fit n).start * shapeProd rest := by
    unfold BasicState.offset
    rw [hdyn, if_pos rfl]
    simp only [List.map_cons, List.headD_cons, tdiv_eight, e1']
    rcases hoff with hoff | hoff
    · rw [h2, hoff]; ring
    · rw [e1'] at hoff; rw [hoff]; ring
  rw [elements_eq _ s (sl.step * shapeProd rest :: st) rfl (by rw [hd]; exact hd0) (by
      rw [hd]
      unfold BasicState.size
      rw [hdyn, if_pos rfl, e2', ← shapeToSize_eq hd0]
      rfl) (by
      rw [hd]
      intro hc hp
      exact (C13_contiguous_dynamic_iff _ _ (by simp [h4]) (fun d hd => hp d (List.mem_cons_of_mem _ hd))).1 hc k),
    hd, ho, hnow]
  exact (basicSelect_eq ((n : Int) :: rest) s.now.data _ _ _ _ hco).symm


theorem dynamic_parsed (sh strides : List Int) (start : Int) (sl : Option Slice) :
    Parsed.dynamic ⟨-1 :: sh, strides, start, sl⟩ = true := by simp [Parsed.dynamic, shapeToSize]

/-- The first position of the fitted slice is 0 if the slice has none or 0. -/
theorem fit_start_zero {a b c : Option Int} {s : Slice} (hs : Slice.make a b c = .ok s) (hc : 0 < c.getD 1)
    (ha : a.getD 0 = 0) (n : Nat) : (s.fit n).start = 0 := by
  unfold Slice.make at hs
  simp only [show c.getD 1 ≠ 0 by omega, if_false, Res.ok.injEq, show ¬ c.getD 1 < 0 by omega] at hs
  subst hs
  simp only [Slice.fit, ha]
  split_ifs <;> omega

/-- The state after initialisation or after a commit. -/
structure BasicState.Fresh (P : Parsed) (s : BasicState α) (x : Arr α) : Prop where
  now : s.now = x
  committed : s.committed = x
  diff : s.diff = []
  step : s.InStep P
  size : s.previousSize = s.size P
  cache : P.slice.start < 0 → s.cache = s.elements P

theorem init_dynamic {P : Parsed} (hdyn : P.dynamic = true) {x : Arr α} {k : Int}
    (hk : (P.slice.fit (x.shapeNow.headD 0)).size = .ok k) :
    ∃ s, BasicState.init P x = .ok s ∧ s.Fresh P x := by
  obtain ⟨s', hs', he, hin⟩ := updateShape_ok (s := ⟨x, x, [], 0, 0, ⟨0, 0, 1⟩, []⟩) hk
  refine ⟨{ s' with previousSize := s'.size P, cache := if P.slice.start < 0 then s'.elements P else [] }, ?_, ?_⟩
  · unfold BasicState.init
    rw [hdyn, if_pos rfl, hs']
    rfl
  · refine ⟨by rw [he], by rw [he], by rw [he], hin, rfl, fun h => ?_⟩
    simp only [h, if_true]
    rfl

/-- C31, the view.  For a slice of a dynamic array, with any index for its rows, the view built on an array has
exactly the elements that NumPy selects from the array's contents, whatever its number of rows.

Missing: the step of the slice is one, or its start is absent or 0; otherwise the view is wrong
(`C31_view_fails`). -/
theorem C31_view_partial (rest : List Int) (a b c : Option Int) (idx : List BasicIndex) (h : DynIndex rest a b c idx)
    (x : Arr α) (hx : x.shape = -1 :: rest) (hw : x.WF) (hl : (x.data.length : Int) ≤ ssMax)
    (hoff : c.getD 1 = 1 ∨ a.getD 0 = 0) :
    ∃ P s, basicParse (-1 :: rest) (.slice a b c :: idx) = .ok P ∧ BasicState.init P x = .ok s ∧
      s.elements P = basicSelect x.shapeNow x.data (.slice a b c :: idx) := by
  obtain ⟨sl, st, start, h1, h2, h3, h4, h5, h6, h7, h8⟩ := h.parse
  obtain ⟨n, hn, hlen, hnow⟩ := rows_of h.pos hx hw hl
  obtain ⟨k, hk, hb0, hkn, hsel, hco⟩ := h8 n hn
  have hdyn := dynamic_parsed (selectShape rest idx) ((sl.step * shapeProd rest :: st).map (8 * ·)) start (some sl)
  obtain ⟨s, hs, hF⟩ := init_dynamic hdyn (x := x) (k := k) (by rw [hnow]; exact hk)
  refine ⟨_, s, h3, hs, ?_⟩
  rw [elements_dynamic h h3 hF.step (by rw [hF.now, hx]) (by rw [hF.now]; exact hw) (by rw [hF.now]; exact hl) ?_, hF.now]
  rcases hoff with hoff | hoff
  · exact Or.inl hoff
  · right
    rw [hF.step.1, hF.now, hnow]
    exact fit_start_zero h1 h.step hoff n

/-! ## Contiguous views of dynamic arrays -/

theorem selectShape_le {rest : List Int} : ∀ {idx : List BasicIndex}, (∀ d ∈ rest, 0 < d ∧ d ≤ ssMax) → SelectOk rest idx →
    (∀ i ∈ idx, i.Fits) → shapeProd (selectShape rest idx) ≤ shapeProd rest := by
  induction rest with
  | nil => intro idx _ h _; cases idx <;> simp_all [SelectOk, selectShape]
  | cons d rest ih =>
    intro idx hd h hf
    have hp := shapeProd_pos fun e he => (hd e (List.mem_cons_of_mem _ he)).1
    have hd0 := hd d List.mem_cons_self
    match idx, h with
    | .at i :: idx, h =>
      have := ih (fun e he => hd e (List.mem_cons_of_mem _ he)) h.2 fun i hi => hf i (List.mem_cons_of_mem _ hi)
      simp only [selectShape, shapeProd]
      have := Int.mul_le_mul_of_nonneg_right (show 1 ≤ d by omega) hp.le
      omega
    | .slice a b c :: idx, h =>
      have := ih (fun e he => hd e (List.mem_cons_of_mem _ he)) h.2 fun i hi => hf i (List.mem_cons_of_mem _ hi)
      simp only [selectShape, shapeProd]
      obtain ⟨s, k, _, _, _, hk, _, _, _, hpos⟩ := slicePositions_eq a b c d.toNat (by omega) h.1 (hf _ List.mem_cons_self)
      refine Int.mul_le_mul ?_ this ?_ hd0.1.le
      · rw [hpos]; simp; omega
      · refine shapeProd_nonneg ?_
        obtain ⟨_, _, _, _, _, _, _, h0, _⟩ := parseAxes_spec rest idx
          (fun e he => ⟨(hd e (List.mem_cons_of_mem _ he)).1.le, (hd e (List.mem_cons_of_mem _ he)).2⟩) h.2
          fun i hi => hf i (List.mem_cons_of_mem _ hi)
        exact h0

/-- Contiguous views of dynamic arrays take whole rows, one after the other. -/
theorem contiguous_rows {rest : List Int} {a b c : Option Int} {idx : List BasicIndex} (h : DynIndex rest a b c idx)
    {P : Parsed} (hP : basicParse (-1 :: rest) (.slice a b c :: idx) = .ok P) (hc : P.contiguous = true)
    (hpos : ∀ d ∈ selectShape rest idx, 0 < d) :
    c.getD 1 = 1 ∧ P.start = 0 ∧ shapeProd (selectShape rest idx) = shapeProd rest := by
  obtain ⟨sl, st, start, h1, h2, h3, h4, h5, h6, h7, h8⟩ := h.parse
  rw [hP] at h3
  cases h3
  have hv := (C13_contiguous_dynamic_iff _ _ (by simp [h4]) hpos).1 hc
  have hQ := shapeProd_pos hpos
  have hR := h.pos
  have hle := selectShape_le h.dims h.row fun i hi => h.fits i (List.mem_cons_of_mem _ hi)
  -- the last element of the first row
  obtain ⟨e, _, he1, he2⟩ := unravel_spec _ hpos (shapeProd (selectShape rest idx) - 1) (by omega) (by omega)
  obtain ⟨z, _, hz1, hz2⟩ := unravel_spec _ hpos 0 (by omega) (by omega)
  have g0 : InShape ((1 : Nat) :: selectShape rest idx : List Int) (0 :: e) := ⟨by decide, by decide, he1⟩
  have g1 : InShape ((2 : Nat) :: selectShape rest idx : List Int) (1 :: z) := ⟨by decide, by decide, hz1⟩
  have g2 : InShape ((1 : Nat) :: selectShape rest idx : List Int) (0 :: z) := ⟨by decide, by decide, hz1⟩
  have v0 := hv 1 _ g0
  have v1 := hv 2 _ g1
  have v2 := hv 1 _ g2
  rw [byteOffset_eight] at v0 v1 v2
  simp only [byteOffset, rowMajor, he2, hz2] at v0 v1 v2
  have hin := (view_inside h.row h7 (List.mem_of_getElem? (allCoords_get he1))).2
  have hs1 : sl.step * shapeProd rest = shapeProd (selectShape rest idx) := by omega
  have hstep : sl.step = 1 := by
    have : 0 < sl.step := by rw [h2]; exact h.step
    by_contra hne
    have := Int.mul_le_mul_of_nonneg_right (show 2 ≤ sl.step by omega) hR.le
    omega
  rw [hstep, one_mul] at hs1
  refine ⟨by omega, ?_, hs1.symm⟩
  simp only
  omega


/-- A slice with step one, fitted. -/
theorem fit_one {s : Slice} (hs : s.step = 1) (n : Nat) (hn : (n : Int) ≤ ssMax) :
    ∃ lo k : Nat, (s.fit n).start = lo ∧ (s.fit n).size = .ok (k : Int) ∧ (k = 0 ∨ lo + k ≤ n) ∧
      (k ≠ 0 → (s.fit n).stop = lo + k ∧ (0 ≤ s.start → s.start = lo)) := by
  have h0 : 0 ≤ (s.fit n).start ∧ (s.fit n).start ≤ n ∧ (0 ≤ s.start → (s.fit n).start < n → s.start = (s.fit n).start) := by
    simp only [Slice.fit, hs]
    split_ifs <;> omega
  have h1 : 0 ≤ (s.fit n).stop ∧ (s.fit n).stop ≤ n := by
    simp only [Slice.fit, hs]
    split_ifs <;> omega
  have h2 : (s.fit n).step = 1 := hs
  generalize s.fit n = t at *
  obtain ⟨lo, hi, st⟩ := t
  simp only at h0 h1 h2
  subst h2
  have hm : ssMax = 9223372036854775807 := rfl
  by_cases hlt : lo < hi
  · refine ⟨lo.toNat, (hi - lo).toNat, by simp only; omega, ?_, by omega, fun _ => ⟨by simp only; omega, fun h => ?_⟩⟩
    · simp only [Slice.size]
      rw [if_neg (by decide), if_pos hlt, if_pos (by omega), Res.pure_eq]
      congr 1
      rw [Int.emod_eq_of_lt (by omega) (by norm_num; omega), Int.ediv_one, Int.emod_eq_of_lt (by omega) (by norm_num; omega)]
      omega
    · have := h0.2.2 h (by omega)
      omega
  · refine ⟨lo.toNat, 0, by simp only; omega, ?_, Or.inl rfl, fun h => absurd rfl h⟩
    simp only [Slice.size]
    rw [if_neg (by decide), if_neg hlt]
    rfl

theorem size_window {S k : Nat} (h : k = 0 ∨ ((S + k : Nat) : Int) ≤ ssMax) :
    (⟨S, (S : Int) + k, 1⟩ : Slice).size = .ok (k : Int) := by
  have hm : ssMax = 9223372036854775807 := rfl
  simp only [Slice.size]
  by_cases hk : k = 0
  · subst hk; rw [if_neg (by decide), if_neg (by omega)]; rfl
  · rw [if_neg (by decide), if_pos (by omega), if_pos (by omega), Res.pure_eq]
    congr 1
    rw [Int.emod_eq_of_lt (by omega) (by norm_num; omega), Int.ediv_one, Int.emod_eq_of_lt (by omega) (by norm_num; omega)]
    omega

theorem fitOrEmpty_one {s : Slice} (hs : s.step = 1) {S : Nat} (h0 : s.start = S) (n : Nat) (hn : (n : Int) ≤ ssMax) :
    ∃ k : Nat, (s.fit n).size = .ok (k : Int) ∧ fitOrEmpty s n = .ok ⟨S, (S : Int) + k, 1⟩ ∧ (k = 0 ∨ S + k ≤ n) := by
  obtain ⟨lo, k, e1, e2, e3, e4⟩ := fit_one hs n hn
  refine ⟨k, e2, ?_, ?_⟩
  · unfold fitOrEmpty
    rw [e2]
    simp only [Res.ok_bind]
    by_cases hk : k = 0
    · subst hk; simp [h0]
    · obtain ⟨e5, e6⟩ := e4 hk
      have e7 := e6 (by omega)
      rw [if_neg (by omega)]
      congr 1
      have e8 : (s.fit n).step = 1 := hs
      generalize s.fit n = t at *
      obtain ⟨t1, t2, t3⟩ := t
      simp only at e1 e5 e8
      rw [e1, e5, e8]
      simp only [Slice.mk.injEq]
      exact ⟨by omega, by omega, trivial⟩
  · by_cases hk : k = 0
    · exact Or.inl hk
    · have := (e4 hk).2 (by omega)
      omega

/-- The ranges are those of the window. -/
theorem ranges_eq {s : Slice} (hs : s.step = 1) {S : Nat} (h0 : s.start = S) {P0 P1 : List α} {d : List (Update α)}
    (hr : Replays P0 d P1) (hl0 : (P0.length : Int) ≤ ssMax) (hl1 : (P1.length : Int) ≤ ssMax) :
    ∃ a b m : Nat, (s.fit P0.length).size = .ok (a : Int) ∧ (s.fit P1.length).size = .ok (b : Int) ∧
      (a = 0 ∨ S + a ≤ P0.length) ∧ (b = 0 ∨ S + b ≤ P1.length) ∧
      ranges s P0.length P1.length d = .ok (windowRanges S a b m) ∧
      (∀ u ∈ d, u.index < m → u.isChange = true) ∧ (∀ j : Nat, m ≤ j → j < P0.length → touched d j = true) := by
  obtain ⟨a, a1, a2, a3⟩ := fitOrEmpty_one hs h0 P0.length hl0
  obtain ⟨b, b1, b2, b3⟩ := fitOrEmpty_one hs h0 P1.length hl1
  obtain ⟨m, m1, m2, m3, m4⟩ := smallestLoop_spec hr P0.length (le_refl _) (by omega)
  refine ⟨a, b, m, a1, b1, a3, b3, ?_, m3, fun j h1 h2 => m4 j h1 (by omega)⟩
  unfold ranges
  rw [a2, b2, m1]
  simp only [Res.ok_bind]
  rw [size_window (by omega), size_window (by omega)]
  simp only [Res.ok_bind]
  congr 1
  unfold windowRanges
  rcases Nat.lt_trichotomy a b with hab | hab | hab
  · rw [if_pos (by omega)]
    simp only [Ranges.mk.injEq]
    refine ⟨trivial, ?_, ?_, ?_, ?_, ?_, ?_⟩ <;> first | omega | (apply decide_eq_decide.2; omega)
  · subst hab
    rw [if_neg (by omega), if_neg (by omega)]
    simp only [Ranges.mk.injEq]
    refine ⟨trivial, ?_, ?_, ?_, ?_, ?_, ?_⟩ <;> first | omega | (apply decide_eq_decide.2; omega)
  · rw [if_neg (by omega), if_pos (by omega)]
    simp only [Ranges.mk.injEq]
    refine ⟨trivial, ?_, ?_, ?_, ?_, ?_, ?_⟩ <;> first | omega | (apply decide_eq_decide.2; omega)

/-- The old and the new contents compared. -/
theorem compare_replays (b v : List α) :
    Replays b (ArrayState.assignOverlap 0 b v ++ ArrayState.placements (min b.length v.length) (v.drop (min b.length v.length))
      ++ ArrayState.removals (min b.length v.length) (b.drop (min b.length v.length))) v := by
  have h1 := ArrayState.assignOverlap_replays [] b v
  simp only [List.nil_append, List.length_nil] at h1
  have hlen : (v.take (min b.length v.length)).length = min b.length v.length := by simp
  rcases Nat.le_total b.length v.length with hle | hle
  · have e : min b.length v.length = b.length := by omega
    rw [e] at h1 hlen ⊢
    rw [List.drop_length, List.append_nil] at h1
    have h2 := ArrayState.placements_replays (v.take b.length) (v.drop b.length)
    rw [hlen, List.take_append_drop] at h2
    simpa [ArrayState.removals] using h1.trans h2
  · have e : min b.length v.length = v.length := by omega
    rw [e] at h1 hlen ⊢
    have h2 := ArrayState.removals_replays (v.take v.length) (b.drop v.length)
    rw [hlen] at h2
    simpa [ArrayState.placements] using h1.trans h2

/-- The elements of a contiguous view are consecutive rows. -/
theorem elements_window {rest : List Int} {a b c : Option Int} {idx : List BasicIndex} (h : DynIndex rest a b c idx)
    {P : Parsed} (hP : basicParse (-1 :: rest) (.slice a b c :: idx) = .ok P) (hc : P.contiguous = true)
    (hpos : ∀ d ∈ selectShape rest idx, 0 < d) {s : BasicState α} (hs : s.InStep P)
    (hsh : s.now.shape = -1 :: rest) (hw : s.now.WF) (hl : (s.now.data.length : Int) ≤ ssMax) :
    ∃ n lo k : Nat, (s.now.data.length : Int) = n * shapeProd rest ∧ (P.slice.fit n).size = .ok (k : Int) ∧
      (P.slice.fit n).start = lo ∧ (k = 0 ∨ lo + k ≤ n) ∧ s.size P = k * shapeProd rest ∧
      s.elements P = (s.now.data.drop (lo * (shapeProd rest).toNat)).take (k * (shapeProd rest).toNat) := by
  obtain ⟨hstep, hst, hQ⟩ := contiguous_rows h hP hc hpos
  obtain ⟨sl, st, start, h1, h2, h3, h4, h5, h6, h7, h8⟩ := h.parse
  rw [hP] at h3
  cases h3
  obtain ⟨n, hn, hlen, hnow⟩ := rows_of h.pos hsh hw hl
  obtain ⟨lo, k, f1, f2, f3, f4⟩ := fit_one (s := sl) (h2.trans hstep) n hn
  obtain ⟨e1, e2⟩ := hs
  rw [hnow, List.headD_cons] at e1
  have e1' : s.fitted = sl.fit n := e1
  rw [e1', f2] at e2
  have e2' : s.dim0 = k := (Res.ok.inj e2).symm
  have hdyn := dynamic_parsed (selectShape rest idx) ((sl.step * shapeProd rest :: st).map (8 * ·)) start (some sl)
  have hsz : s.size ⟨-1 :: selectShape rest idx, (sl.step * shapeProd rest :: st).map (8 * ·), start, some sl⟩ =
      k * shapeProd rest := by
    unfold BasicState.size
    rw [hdyn, if_pos rfl, e2', ← hQ]
    exact shapeToSize_eq (shape := (k : Int) :: selectShape rest idx) (by
      intro d hd
      rcases List.mem_cons.1 hd with rfl | hd
      · omega
      · exact h5 d hd)
  have ho : s.offset ⟨-1 :: selectShape rest idx, (sl.step * shapeProd rest :: st).map (8 * ·), start, some sl⟩ =
      lo * shapeProd rest := by
    unfold BasicState.offset
    rw [hdyn, if_pos rfl]
    simp only [List.map_cons, List.headD_cons, tdiv_eight, e1', f1]
    simp only at hst
    rw [hst, h2, hstep]; ring
  refine ⟨n, lo, k, hlen, f2, f1, f3, hsz, ?_⟩
  unfold BasicState.elements
  rw [if_pos hc, hsz, ho]
  obtain ⟨R, hR⟩ : ∃ R : Nat, shapeProd rest = R := ⟨(shapeProd rest).toNat, by have := h.pos; omega⟩
  rw [hR] at hlen ⊢
  have hlen' : s.now.data.length = n * R := by exact_mod_cast hlen
  have ek : ((k : Int) * (R : Int)).toNat = k * R := by rw [← Int.natCast_mul]; rfl
  rw [ek, Int.toNat_natCast]
  have hin : k = 0 ∨ lo * R + k * R ≤ s.now.data.length := by
    rcases f3 with f3 | f3
    · exact Or.inl f3
    · right; rw [hlen', ← Nat.add_mul]; exact Nat.mul_le_mul_right _ f3
  rcases hin with rfl | hin
  · simp
  · apply List.ext_getElem
    · simp; omega
    · intro i h1 h2
      have hi : i < k * R := by simpa using h1
      have ei : ((lo : Int) * (R : Int) + (i : Int)).toNat = lo * R + i := by
        rw [← Int.natCast_mul, ← Int.natCast_add]; rfl
      simp only [List.getElem_map, List.getElem_range, List.getElem_take, List.getElem_drop, ei]
      rw [List.getD_eq_getElem?_getD, List.getElem?_eq_getElem (by omega)]
      rfl


/-- Contiguous views of dynamic arrays keep the symbol contract. -/
theorem dynamic_contract_fresh (rest : List Int) (a b c : Option Int) (idx : List BasicIndex) (P : Parsed)
    (h : DynIndex rest a b c idx) (hP : basicParse (-1 :: rest) (.slice a b c :: idx) = .ok P)
    (hc : P.contiguous = true) (hpos : ∀ d ∈ selectShape rest idx, 0 < d)
    (hrow : shapeProd rest = 1 ∨ (a.getD 0 = 0 ∧ b = none)) :
    ∃ C : Contract ArrRel [] (basicNode (α := α) (-1 :: rest) (.slice a b c :: idx) P), ∀ s xs, C.Clean s xs →
      ∃ x, xs = [x] ∧ s.Fresh P x ∧ x.shape = -1 :: rest ∧ x.WF ∧ (x.data.length : Int) ≤ ssMax := by
  obtain ⟨hstep, hst, hQ⟩ := contiguous_rows h hP hc hpos
  obtain ⟨sl, st, start, h1, h2, h3, h4, h5, h6, h7, h8⟩ := h.parse
  rw [hP] at h3
  have hdyn : P.dynamic = true := by cases h3; exact dynamic_parsed _ _ _ _
  have hsl : P.slice = sl := by cases h3; rfl
  have hsh : P.shape = -1 :: selectShape rest idx := by cases h3; rfl
  have hone : P.slice.step = 1 := by rw [hsl, h2, hstep]
  have hel : ∀ s : BasicState α, s.InStep P → s.now.shape = -1 :: rest → s.now.WF → (s.now.data.length : Int) ≤ ssMax →
      s.elements P = basicSelect s.now.shapeNow s.now.data (.slice a b c :: idx) :=
    fun s g1 g2 g3 g4 => elements_dynamic h hP g1 g2 g3 g4 (Or.inl hstep)
  have hsize : ∀ x : Arr α, x.shape = -1 :: rest → x.WF → (x.data.length : Int) ≤ ssMax →
      ∃ k : Int, (P.slice.fit (x.shapeNow.headD 0)).size = .ok k := by
    intro x g1 g2 g3
    obtain ⟨n, hn, _, hnow⟩ := rows_of h.pos g1 g2 g3
    obtain ⟨lo, k, _, f2, _⟩ := fit_one hone n hn
    rw [hnow, List.headD_cons]
    exact ⟨k, f2⟩
  -- the window in terms of the contents
  have hwin : ∀ s : BasicState α, s.InStep P → s.now.shape = -1 :: rest → s.now.WF → (s.now.data.length : Int) ≤ ssMax →
      ∃ lo k : Nat, (P.slice.fit s.now.data.length).size = .ok (k : Int) ∧ (P.slice.fit s.now.data.length).start = lo ∧
        (s.elements P).length = k ∧ s.elements P = (s.now.data.drop lo).take k ∧ s.size P = k := by
    intro s g1 g2 g3 g4
    obtain ⟨n, lo, k, w1, w2, w3, w4, w5, w6⟩ := elements_window h hP hc hpos g1 g2 g3 g4
    rcases hrow with hR | ⟨ha, hb⟩
    · rw [hR] at w1 w5 w6
      have hn : s.now.data.length = n := by omega
      simp only [Int.toNat_one, Nat.mul_one] at w6
      refine ⟨lo, k, by rw [hn]; exact w2, by rw [hn]; exact w3, ?_, w6, by omega⟩
      rw [w6]; simp; omega
    · have hs0 : P.slice.start = 0 ∧ P.slice.stop = ssMax := by
        rw [hsl]
        unfold Slice.make at h1
        rw [hstep] at h1
        simp only [hb, Option.getD_none, if_neg (show ¬ (1 : Int) = 0 by decide), if_neg (show ¬ (1 : Int) < 0 by decide),
          Res.ok.injEq] at h1
        rw [← h1]
        exact ⟨ha, rfl⟩
      have hall : ∀ m : Nat, (m : Int) ≤ ssMax → P.slice.fit m = ⟨0, m, 1⟩ := by
        intro m hm
        simp only [Slice.fit, hs0.1, hs0.2, hone, Slice.mk.injEq]
        refine ⟨?_, ?_, trivial⟩
        · split_ifs <;> omega
        · rw [if_neg (by decide), if_pos hm]; rfl
      have hsz : ∀ m : Nat, (m : Int) ≤ ssMax → (P.slice.fit m).size = .ok (m : Int) := by
        intro m hm
        rw [hall m hm]
        have := size_window (S := 0) (k := m) (by right; simpa using hm)
        simpa using this
      have hnm : (n : Int) ≤ ssMax := by
        have := Int.mul_le_mul_of_nonneg_left (show 1 ≤ shapeProd rest by have := h.pos; omega) (show (0 : Int) ≤ n by omega)
        omega
      rw [hsz n hnm] at w2
      rw [hall n hnm] at w3
      have ek : k = n := by have := Res.ok.inj w2; omega
      have el : lo = 0 := by simp only at w3; omega
      subst ek el
      have hln : s.now.data.length = k * (shapeProd rest).toNat := by
        have : ((shapeProd rest).toNat : Int) = shapeProd rest := Int.toNat_of_nonneg h.pos.le
        rw [← this] at w1
        exact_mod_cast w1
      rw [← hln, Nat.zero_mul, List.drop_zero, List.take_length] at w6
      exact ⟨0, s.now.data.length, hsz _ g4, by rw [hall _ g4]; rfl, by rw [w6], by rw [w6]; simp, by rw [w5, w1]⟩
  refine ⟨
    { Clean := fun s xs => ∃ x, xs = [x] ∧ s.Fresh P x ∧ x.shape = -1 :: rest ∧ x.WF ∧ (x.data.length : Int) ≤ ssMax
      init := ?_, view := ?_, diff := ?_, propagate := ?_ }, fun _ _ hc => hc⟩
  · rintro xs ⟨x, rfl, g1, g2, g3⟩
    obtain ⟨k, hk⟩ := hsize x g1 g2 g3
    obtain ⟨s, hs, hF⟩ := init_dynamic hdyn hk
    exact ⟨s, hs, x, rfl, hF, g1, g2, g3⟩
  · rintro s xs ⟨x, rfl, hF, g1, g2, g3⟩
    have := hel s hF.step (by rw [hF.now]; exact g1) (by rw [hF.now]; exact g2) (by rw [hF.now]; exact g3)
    simp only [List.headD_cons]
    rw [this, hF.now]
  · rintro s xs ⟨x, rfl, hF, _⟩
    exact hF.diff
  · rintro s xs ins ys ⟨x, rfl, hF, g1, g2, g3⟩ _ ⟨y', hy, k1, k2, k3⟩ hi
    obtain ⟨d, y, rfl, rfl, hr⟩ := hi.one
    obtain rfl : y = y' := by simpa using hy
    have e0 := hel s hF.step (by rw [hF.now]; exact g1) (by rw [hF.now]; exact g2) (by rw [hF.now]; exact g3)
    obtain ⟨lo0, n0, p1, p2, p3, p4, p5⟩ :=
      hwin s hF.step (by rw [hF.now]; exact g1) (by rw [hF.now]; exact g2) (by rw [hF.now]; exact g3)
    obtain ⟨ky, hky⟩ := hsize y k1 k2 k3
    obtain ⟨kx, hkx⟩ := hsize x g1 g2 g3
    -- whatever the diff, the rest is the same
    have key : ∀ (dd : List (Update α)) (s' : BasicState α), s.propagate P y d = .ok s' →
        (∃ s1 : BasicState α, s1.updateShape P = .ok { s' with diff := s1.diff } ∧ s1.now = y ∧ s1.committed = x ∧
          s1.previousSize = s.previousSize ∧ s1.cache = s.cache) → s'.diff = dd →
        Replays (s.elements P) dd (s'.elements P) →
        ∃ s', (basicNode (-1 :: rest) (.slice a b c :: idx) P).propagate s [(y, d)] = .ok s' ∧
          (basicNode (-1 :: rest) (.slice a b c :: idx) P).view s' = (basicNode (-1 :: rest) (.slice a b c :: idx) P).f [y] ∧
          ArrRel ((basicNode (-1 :: rest) (.slice a b c :: idx) P).f [x])
            ((basicNode (-1 :: rest) (.slice a b c :: idx) P).diff s')
            ((basicNode (-1 :: rest) (.slice a b c :: idx) P).f [y]) ∧
          (∃ c', (basicNode (-1 :: rest) (.slice a b c :: idx) P).commit s' = .ok c' ∧
            ∃ x, [y] = [x] ∧ c'.Fresh P x ∧ x.shape = -1 :: rest ∧ x.WF ∧ (x.data.length : Int) ≤ ssMax) ∧
          (∃ r, (basicNode (-1 :: rest) (.slice a b c :: idx) P).revert s' = .ok r ∧
            ∃ x', [x] = [x'] ∧ r.Fresh P x' ∧ x'.shape = -1 :: rest ∧ x'.WF ∧ (x'.data.length : Int) ≤ ssMax) := by
      rintro dd s' hp ⟨s1, q1, q2, q3, q4, q5⟩ rfl hrep
      obtain ⟨s2, r1, r2, r3⟩ := updateShape_ok (P := P) (s := s1) (k := ky) (by rw [q2]; exact hky)
      rw [q1] at r1
      have r1 := Res.ok.inj r1
      have in' : s'.InStep P := by rw [← r1] at r3; exact r3
      have hn' : s'.now = y := by
        have : ({ s' with diff := s1.diff } : BasicState α).now = y := by rw [r1, r2]; exact q2
        exact this
      have hcm' : s'.committed = x := by
        have : ({ s' with diff := s1.diff } : BasicState α).committed = x := by rw [r1, r2]; exact q3
        exact this
      have hps' : s'.previousSize = s.previousSize := by
        have : ({ s' with diff := s1.diff } : BasicState α).previousSize = s.previousSize := by rw [r1, r2]; exact q4
        exact this
      have hca' : s'.cache = s.cache := by
        have : ({ s' with diff := s1.diff } : BasicState α).cache = s.cache := by rw [r1, r2]; exact q5
        exact this
      have e1 := hel s' in' (by rw [hn']; exact k1) (by rw [hn']; exact k2) (by rw [hn']; exact k3)
      refine ⟨s', hp, ?_, ⟨rfl, ?_, ?_⟩, ⟨_, rfl, y, rfl, ?_, k1, k2, k3⟩, ?_⟩
      · simp only [List.headD_cons]
        rw [e1, hn']
      · simp only [List.headD_cons]
        rw [e0, e1, hn', hF.now] at hrep
        exact hrep
      · intro hfix
        simp [Arr.dynamic, dynamicShape, hsh] at hfix
      · exact ⟨hn', hn', rfl, in', rfl, fun _ => rfl⟩
      · obtain ⟨s3, t1, t2, t3⟩ := updateShape_ok (P := P) (s := { s' with diff := [], now := s'.committed }) (k := kx)
          (by simp only [hcm']; exact hkx)
        simp only at t2
        have f3 : s3.fitted = s.fitted ∧ s3.dim0 = s.dim0 := by
          have u1 := hF.step
          have u2 := t3
          have hf : s3.fitted = s.fitted := by
            rw [u1.1, u2.1, t2]
            simp only [hcm', hF.now]
          refine ⟨hf, ?_⟩
          have v1 := u1.2
          rw [← hf, u2.2] at v1
          exact Res.ok.inj v1
        have sz : s3.size P = s.size P := by simp only [BasicState.size, f3.2]
        have n3 : s3.now = x ∧ s3.committed = x ∧ s3.diff = [] ∧ s3.previousSize = s.previousSize ∧ s3.cache = s.cache := by
          rw [t2]; exact ⟨hcm', hcm', rfl, hps', hca'⟩
        have el3 : s3.elements P = s.elements P := by
          simp only [BasicState.elements, sz, BasicState.offset, BasicState.dims, f3.1, f3.2, n3.1, hF.now]
        by_cases hneg : P.slice.start < 0
        · refine ⟨{ s3 with cache := resizeVec s3.cache s3.previousSize.toNat }, ?_, x, rfl,
            ⟨n3.1, n3.2.1, n3.2.2.1, t3, ?_, ?_⟩, g1, g2, g3⟩
          · simp only [BasicState.revert, hdyn, if_true, t1, Res.ok_bind, hneg, hc]
            rfl
          · show s3.previousSize = s3.size P
            rw [n3.2.2.2.1, sz, hF.size]
          · intro _
            show resizeVec s3.cache s3.previousSize.toNat = s3.elements P
            rw [n3.2.2.2.2, n3.2.2.2.1, hF.cache hneg, el3, hF.size, p5]
            unfold resizeVec
            rw [Int.toNat_natCast, ← p3, List.take_length]
            simp
        · refine ⟨s3, ?_, x, rfl, ⟨n3.1, n3.2.1, n3.2.2.1, t3, ?_, fun hh => absurd hh hneg⟩, g1, g2, g3⟩
          · simp only [BasicState.revert, hdyn, if_true, t1, Res.ok_bind, hneg, if_false]
          · rw [n3.2.2.2.1, sz, hF.size]
    by_cases hneg : P.slice.start < 0
    · obtain ⟨s2, r1, r2, r3⟩ := updateShape_ok (P := P) (s := { s with now := y }) (k := ky) hky
      simp only at r2
      refine key _ { s2 with diff := ArrayState.assignOverlap 0 s2.cache (s2.elements P)
        ++ ArrayState.placements (min s2.cache.length (s2.elements P).length) ((s2.elements P).drop (min s2.cache.length (s2.elements P).length))
        ++ ArrayState.removals (min s2.cache.length (s2.elements P).length) (s2.cache.drop (min s2.cache.length (s2.elements P).length)) } ?_
        ⟨{ s with now := y }, ?_, rfl, hF.committed, rfl, rfl⟩ rfl ?_
      · unfold BasicState.propagate
        rw [guardUB_true hF.diff, hc, hdyn, decide_eq_true hneg, guardUB_true hst, p1]
        simp only [Res.ok_bind, Bool.and_self, if_true]
        rw [guardUB_true (by rw [hF.cache hneg, p3]), r1]
        rfl
      · rw [r1]
        congr 1
        rw [r2]
      · have : s2.cache = s.elements P := by rw [r2]; exact hF.cache hneg
        rw [this]
        exact compare_replays (s.elements P) (s2.elements P)
    · obtain ⟨S, hS⟩ : ∃ S : Nat, P.slice.start = S := ⟨P.slice.start.toNat, by omega⟩
      have hrr : Replays s.now.data d y.data := by rw [hF.now]; exact hr.replays
      obtain ⟨a', b', m, q1, q2, q3, q4, q5, q6, q7⟩ := ranges_eq hone hS hrr (by rw [hF.now]; exact g3) k3
      obtain ⟨s2, r1, r2, r3⟩ := updateShape_ok (P := P)
        (s := { s with now := y, diff := (windowRanges S a' b' m).finish y.data (windowDiff S a' b' m s.now.data y.data y.data d) })
        (k := ky) hky
      simp only at r2
      have hn2 : s2.now = y := by rw [r2]
      obtain ⟨lo1, n1, w1, w2, w3, w4, w5⟩ := hwin s2 r3 (by rw [hn2]; exact k1) (by rw [hn2]; exact k2) (by rw [hn2]; exact k3)
      refine key _ s2 ?_ ⟨{ s with now := y, diff := (windowRanges S a' b' m).finish y.data (windowDiff S a' b' m s.now.data y.data y.data d) },
        ?_, rfl, hF.committed, rfl, rfl⟩ rfl ?_
      · unfold BasicState.propagate
        rw [guardUB_true hF.diff, hc, hdyn, decide_eq_false hneg, guardUB_true hst]
        simp only [Res.ok_bind, Bool.and_self, Bool.and_false, Bool.false_eq_true, if_false, if_true]
        rw [q5]
        simp only [Res.ok_bind]
        rw [initial_eq S a' b' m s.now.data y.data,
          update_fold q3 d [] s.now.data y.data (Replays.refl _) hrr]
        simp only [Res.ok_bind, List.nil_append]
        exact r1
      · rw [r1]
        congr 1
        rw [r2]
      · have hd2 : s2.diff = (windowRanges S a' b' m).finish y.data (windowDiff S a' b' m s.now.data y.data y.data d) := by rw [r2]
        have ea : a' = n0 := by rw [q1] at p1; have := Res.ok.inj p1; omega
        have eb : b' = n1 := by rw [hn2, q2] at w1; have := Res.ok.inj w1; omega
        have start_eq : ∀ (m lo k : Nat), (m : Int) ≤ ssMax → (P.slice.fit m).size = .ok (k : Int) → (P.slice.fit m).start = lo →
            k = 0 ∨ lo = S := by
          intro m lo k hm z1 z2
          obtain ⟨lo', k', f1, f2, f3, f4⟩ := fit_one hone m hm
          rw [f2] at z1
          have := Res.ok.inj z1
          by_cases hk : k = 0
          · exact Or.inl hk
          · have := (f4 (by omega)).2 (by omega)
            omega
        rw [hd2, p4, w4, hn2]
        have hx0 : (s.now.data.drop lo0).take n0 = (s.now.data.drop S).take a' := by
          rw [ea]
          rcases start_eq _ lo0 n0 (by rw [hF.now]; exact g3) p1 p2 with z | z
          · rw [z]; simp
          · rw [z]
        have hy1 : (y.data.drop lo1).take n1 = (y.data.drop S).take b' := by
          rw [eb]
          rw [hn2] at w1 w2
          rcases start_eq _ lo1 n1 k3 w1 w2 with z | z
          · rw [z]; simp
          · rw [z]
        rw [hx0, hy1]
        exact finish_replays hrr q3 q4 q6 q7

/-- The same without the states. -/
theorem dynamic_contract (rest : List Int) (a b c : Option Int) (idx : List BasicIndex) (P : Parsed)
    (h : DynIndex rest a b c idx) (hP : basicParse (-1 :: rest) (.slice a b c :: idx) = .ok P)
    (hc : P.contiguous = true) (hpos : ∀ d ∈ selectShape rest idx, 0 < d)
    (hrow : shapeProd rest = 1 ∨ (a.getD 0 = 0 ∧ b = none)) :
    Nonempty (Contract ArrRel [] (basicNode (α := α) (-1 :: rest) (.slice a b c :: idx) P)) :=
  let ⟨C, _⟩ := dynamic_contract_fresh rest a b c idx P h hP hc hpos hrow
  ⟨C⟩

/-- C31, following changes.  For every dynamic array and every index `[a:b]` (followed by an index that takes whole rows)
whose view is contiguous in memory: after every history of growing, shrinking and changing, commits and reverts, the view
has the elements that NumPy selects from the present contents, and reports exactly their changes.

This is not yet C31: the rows have one element, or the slice takes every row (otherwise it fails,
`C31_rows_fails`, `C31_rows_negative_fails`); the step is one (implied by contiguity; otherwise it fails,
`C31_view_fails`, `C31_shrinking_fails`); no part of a row is selected (`C31_column_fails`); the selection from a row
is not empty (`C31_empty_fails`). -/
theorem C31_tracks_partial (rest : List Int) (a b c : Option Int) (idx : List BasicIndex) (P : Parsed)
    (h : DynIndex rest a b c idx) (hP : basicParse (-1 :: rest) (.slice a b c :: idx) = .ok P)
    (hc : P.contiguous = true) (hpos : ∀ d ∈ selectShape rest idx, 0 < d)
    (hrow : shapeProd rest = 1 ∨ (a.getD 0 = 0 ∧ b = none)) :
    Incremental ArrRel [] (basicNode (α := α) (-1 :: rest) (.slice a b c :: idx) P)
      (basicNode (α := α) (-1 :: rest) (.slice a b c :: idx) P).f
      (basicNode (α := α) (-1 :: rest) (.slice a b c :: idx) P).ok := by
  obtain ⟨C⟩ := dynamic_contract (α := α) rest a b c idx P h hP hc hpos hrow
  exact C.incremental

/-! ## Where the property fails -/

/-- **C31 fails**: `x[1::2]` of the list 0, …, 6 has the elements 2, 4, 6 instead of 1, 3, 5. -/
theorem C31_view_fails :
    DynIndex [] (some 1) none (some 2) [] ∧
    basicRun [sl (some 1) none (some 2)] (⟨[-1], [0, 1, 2, 3, 4, 5, 6]⟩ : Arr Nat) ⟨[-1], [0, 1, 2, 3, 4, 5, 6]⟩ [] =
      .ok (⟨[-1], [2, 4, 6]⟩, []) ∧
    basicSelect [7] [0, 1, 2, 3, 4, 5, 6] [sl (some 1) none (some 2)] = [1, 3, 5] := by
  refine ⟨⟨by decide, by decide, trivial, by decide⟩, ?_, ?_⟩ <;> decide +kernel

/-- **C31 fails**: `x[::2]` does not report that it loses its last element when `x` loses its own. -/
theorem C31_shrinking_fails :
    DynIndex [] none none (some 2) [] ∧
    ArrRel (⟨[-1], [0, 1, 2, 3, 4]⟩ : Arr Nat) [Update.removal 4 4] ⟨[-1], [0, 1, 2, 3]⟩ ∧
    basicSelect [5] [0, 1, 2, 3, 4] [sl none none (some 2)] = [0, 2, 4] ∧
    basicRun [sl none none (some 2)] (⟨[-1], [0, 1, 2, 3, 4]⟩ : Arr Nat) ⟨[-1], [0, 1, 2, 3]⟩ [Update.removal 4 4] =
      .ok (⟨[-1], [0, 2]⟩, []) := by
  refine ⟨⟨by decide, by decide, trivial, by decide⟩, ?_, ?_, ?_⟩ <;> decide +kernel

/-- **C31 fails**: `x[-2::2]` stops at an assertion ("not yet implemented") when `x` does not change at all. -/
theorem C31_negative_strided_fails :
    DynIndex [] (some (-2)) none (some 2) [] ∧
    basicRun [sl (some (-2)) none (some 2)] (⟨[-1], [0, 1, 2, 3]⟩ : Arr Nat) ⟨[-1], [0, 1, 2, 3]⟩ [] = .ub := by
  exact ⟨⟨by decide, by decide, trivial, by decide⟩, by decide +kernel⟩

/-- **C31 fails**: for `A` with rows of two elements, `A[-1:]` violates an assertion when `A` does not change at all. -/
theorem C31_rows_negative_fails :
    DynIndex [2] (some (-1)) none none [colon] ∧
    basicRun [sl (some (-1)) none none, colon] (⟨[-1, 2], [0, 1, 2, 3]⟩ : Arr Nat) ⟨[-1, 2], [0, 1, 2, 3]⟩ [] = .ub := by
  exact ⟨⟨by decide, by decide, ⟨by decide, trivial⟩, by decide⟩, by decide +kernel⟩

/-- **C31 fails**: for `A` with rows of two elements, `A[1:]` reports the change of its second element as one of its
third, which it does not have; and `A[:1]` does not report the change of its second element. -/
theorem C31_rows_fails :
    DynIndex [2] (some 1) none none [colon] ∧ DynIndex [2] none (some 1) none [colon] ∧
    ArrRel (⟨[-1, 2], [0, 1, 2, 3]⟩ : Arr Nat) [Update.change 3 3 9] ⟨[-1, 2], [0, 1, 2, 9]⟩ ∧
    basicRun [sl (some 1) none none, colon] (⟨[-1, 2], [0, 1, 2, 3]⟩ : Arr Nat) ⟨[-1, 2], [0, 1, 2, 9]⟩
      [Update.change 3 3 9] = .ok (⟨[-1, 2], [2, 9]⟩, [Update.change 2 3 9]) ∧
    ArrRel (⟨[-1, 2], [0, 1, 2, 3]⟩ : Arr Nat) [Update.change 1 1 9] ⟨[-1, 2], [0, 9, 2, 3]⟩ ∧
    basicRun [sl none (some 1) none, colon] (⟨[-1, 2], [0, 1, 2, 3]⟩ : Arr Nat) ⟨[-1, 2], [0, 9, 2, 3]⟩
      [Update.change 1 1 9] = .ok (⟨[-1, 2], [0, 9]⟩, []) := by
  refine ⟨⟨by decide, by decide, ⟨by decide, trivial⟩, by decide⟩, ⟨by decide, by decide, ⟨by decide, trivial⟩, by decide⟩,
    ?_, ?_, ?_, ?_⟩ <;> decide +kernel

/-- **C31 fails**: `A[:, 0:0]` has no elements, and reports the change of one. -/
theorem C31_empty_fails :
    DynIndex [2] none none none [sl (some 0) (some 0) none] ∧
    ArrRel (⟨[-1, 2], [0, 1, 2, 3]⟩ : Arr Nat) [Update.change 1 1 9] ⟨[-1, 2], [0, 9, 2, 3]⟩ ∧
    basicRun [colon, sl (some 0) (some 0) none] (⟨[-1, 2], [0, 1, 2, 3]⟩ : Arr Nat) ⟨[-1, 2], [0, 9, 2, 3]⟩
      [Update.change 1 1 9] = .ok (⟨[-1, 0], []⟩, [Update.change 1 1 9]) := by
  refine ⟨⟨by decide, by decide, ⟨by decide, trivial⟩, by decide⟩, ?_, ?_⟩ <;> decide +kernel

/-- **C31 fails**: `A[:, 1]` does not report that it loses its last element when `A` loses its last row. -/
theorem C31_column_fails :
    DynIndex [2] none none none [.at 1] ∧
    ArrRel (⟨[-1, 2], [0, 1, 2, 3]⟩ : Arr Nat) [Update.removal 3 3, Update.removal 2 2] ⟨[-1, 2], [0, 1]⟩ ∧
    basicSelect [2, 2] [0, 1, 2, 3] [colon, .at 1] = [1, 3] ∧
    basicRun [colon, .at 1] (⟨[-1, 2], [0, 1, 2, 3]⟩ : Arr Nat) ⟨[-1, 2], [0, 1]⟩ [Update.removal 3 3, Update.removal 2 2] =
      .ok (⟨[-1], [1]⟩, []) := by
  refine ⟨⟨by decide, by decide, ⟨by decide, trivial⟩, by decide⟩, ?_, ?_, ?_⟩ <;> decide +kernel

/-! ## Cases that meet the hypotheses -/

-- `x[1:-1]`, `x[-3:]` and `x[:5]` of a list, and `A[:]` for rows of two
example : DynIndex [] (some 1) (some (-1)) none [] ∧ DynIndex [] (some (-3)) none none [] ∧
    DynIndex [2] none none none [colon] :=
  ⟨⟨by decide, by decide, trivial, by decide⟩, ⟨by decide, by decide, trivial, by decide⟩,
    ⟨by decide, by decide, ⟨by decide, trivial⟩, by decide⟩⟩
example : ∃ P, basicParse [-1] [sl (some 1) (some (-1)) none] = .ok P ∧ P.contiguous = true ∧ shapeProd [] = 1 :=
  ⟨_, rfl, by decide, by decide⟩
example : ∃ P, basicParse [-1, 2] [colon, colon] = .ok P ∧ P.contiguous = true ∧
    (∀ d ∈ selectShape [2] [colon], 0 < d) := ⟨_, rfl, by decide, by decide⟩
-- `x[1:-1]` when `x` shrinks: the elements 1, 2, 3 become 1, 2
example : basicRun [sl (some 1) (some (-1)) none] (⟨[-1], [0, 1, 2, 3, 4]⟩ : Arr Nat) ⟨[-1], [0, 1, 2, 3]⟩
    [Update.removal 4 4] = .ok (⟨[-1], [1, 2]⟩, [Update.removal 2 3]) := by decide +kernel
-- `x[-2:]` when `x` grows: the elements 1, 2 become 2, 7
example : basicRun [sl (some (-2)) none none] (⟨[-1], [0, 1, 2]⟩ : Arr Nat) ⟨[-1], [0, 1, 2, 7]⟩
    [Update.placement 3 7] = .ok (⟨[-1], [2, 7]⟩, [Update.change 0 1 2, Update.change 1 2 7]) := by decide +kernel
-- a column, and every other element: the view alone
example : DynIndex [2] none none none [.at 1] ∧ DynIndex [] none none (some 2) [] :=
  ⟨⟨by decide, by decide, ⟨by decide, trivial⟩, by decide⟩, ⟨by decide, by decide, trivial, by decide⟩⟩

end Verif
