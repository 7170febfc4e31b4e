import Verif.Lemmas.IndexingWindow

set_option linter.unusedSectionVars false
set_option linter.unusedSimpArgs false
set_option linter.unusedVariables false

/-!
# C30: basic indexing of arrays of fixed size
-/

namespace Verif

variable {α : Type} [DecidableEq α] [Inhabited α]

/-! ## What the constructor accepts -/

/-- What the parser finds for an array of fixed size. -/
theorem parse_fixed {shape : List Int} {idx : List BasicIndex} (hd : ∀ d ∈ shape, 0 ≤ d ∧ d ≤ ssMax)
    (ho : SelectOk shape idx) (hf : ∀ i ∈ idx, i.Fits) :
    ∃ st start, basicParse shape idx = .ok ⟨selectShape shape idx, st.map (8 * ·), start, none⟩ ∧
      st.length = (selectShape shape idx).length ∧ (∀ d ∈ selectShape shape idx, 0 ≤ d) ∧ (0 ≤ start ∧ start ≤ farEnd shape) ∧
      (∀ x ∈ st, 0 ≤ x) ∧
      (allCoords (selectShape shape idx)).map (fun c => start + byteOffset st c) =
        (selectCoords shape idx).map (rowMajor shape) := by
  obtain ⟨ss, st, start, h1, hl, h2, h3, h4, h5, h6, h7⟩ := parseAxes_spec shape idx hd ho hf
  refine ⟨st, start, ?_, h3, h4, h5, h6, h7⟩
  have hdyn : dynamicShape shape = false := by
    cases shape with
    | nil => rfl
    | cons d shape => have := (hd d List.mem_cons_self).1; simp [dynamicShape]; omega
  unfold basicParse parseIndex
  rw [h1]
  simp only [Res.ok_bind]
  rw [(guardThrow_eq_ok.2 hl : guardThrow _ = .ok ()), hdyn]
  simp only [Res.ok_bind, h2]

theorem makeAll_throw : ∀ {idx : List BasicIndex}, (∀ ss, BasicIndex.makeAll idx ≠ .ok ss) → BasicIndex.makeAll idx = .throw
  | [], h => absurd rfl (h [])
  | i :: idx, h => by
    cases hi : i.make with
    | ok a =>
      cases hr : BasicIndex.makeAll idx with
      | ok b => exact absurd (by simp [BasicIndex.makeAll, hi, hr]) (h (a :: b))
      | throw => simp [BasicIndex.makeAll, hi, hr]
      | ub =>
        have := makeAll_throw (idx := idx) (fun ss => by rw [hr]; simp)
        rw [hr] at this; cases this
    | throw => simp [BasicIndex.makeAll, hi]
    | ub =>
      cases i with
      | «at» i => simp [BasicIndex.make] at hi
      | slice a b c =>
        simp only [BasicIndex.make, Slice.make] at hi
        split_ifs at hi <;> simp at hi

theorem parseAxes_throw : ∀ {shape : List Int} {idx : List BasicIndex} {ss : List SliceOrInt},
    (∀ d ∈ shape, 0 ≤ d ∧ d ≤ ssMax) → (∀ i ∈ idx, i.Fits) → BasicIndex.makeAll idx = .ok ss → ¬ SelectOk shape idx →
    parseAxes shape (shapeToStrides shape) ss = .throw
  | [], [], ss, _, _, _, hn => absurd trivial hn
  | [], i :: idx, ss, _, _, hm, _ => by
    have hl := makeAll_length hm
    match ss, hl with
    | s :: ss, _ => rfl
  | n :: shape, [], ss, _, _, hm, _ => by
    simp [BasicIndex.makeAll] at hm
    subst hm
    rw [shapeToStrides_cons]; rfl
  | n :: shape, i :: idx, ss, hd, hf, hm, hn => by
    simp only [BasicIndex.makeAll] at hm
    obtain ⟨s, hs, hm⟩ := Res.bind_eq_ok.1 hm
    obtain ⟨ss', hs', hm⟩ := Res.bind_eq_ok.1 hm
    simp only [Res.ok.injEq] at hm
    subst hm
    rw [shapeToStrides_cons]
    have hdn := hd n List.mem_cons_self
    have ih := fun h => parseAxes_throw (shape := shape) (idx := idx) (ss := ss')
      (fun d h => hd d (List.mem_cons_of_mem _ h)) (fun i h => hf i (List.mem_cons_of_mem _ h)) hs' h
    cases i with
    | «at» i =>
      simp only [BasicIndex.make, Res.ok.injEq] at hs
      subst hs
      simp only [parseAxes]
      by_cases hr : -n ≤ i ∧ i < n
      · rw [(guardThrow_eq_ok.2 (by split_ifs <;> omega) : guardThrow _ = .ok ())]
        simp only [Res.ok_bind, ih (fun h => hn ⟨hr, h⟩), Res.throw_bind]
      · unfold guardThrow
        rw [if_neg (by split_ifs <;> omega)]
        rfl
    | slice a b c =>
      simp only [BasicIndex.make] at hs
      obtain ⟨s', hs1, hs2⟩ := Res.bind_eq_ok.1 hs
      simp only [Res.ok.injEq] at hs2
      subst hs2
      have hstep : s'.step = c.getD 1 ∧ s'.step ≠ 0 := by
        unfold Slice.make at hs1
        by_cases h0 : c.getD 1 = 0
        · simp [h0] at hs1
        · simp only [h0, if_false, Res.ok.injEq] at hs1
          rw [← hs1]
          exact ⟨rfl, h0⟩
      simp only [parseAxes]
      rw [(guardThrow_eq_ok.2 hstep.2 : guardThrow _ = .ok ())]
      simp only [Res.ok_bind]
      by_cases hp : 0 < c.getD 1
      · rw [(guardThrow_eq_ok.2 (by omega) : guardThrow (¬ s'.step < 0) = .ok ()), guardUB_true hdn.1]
        have en : ((n.toNat : Nat) : Int) = n := Int.toNat_of_nonneg hdn.1
        obtain ⟨s2, k, h1, _, hk, _⟩ := slicePositions_eq a b c n.toNat (by omega) hp (hf _ List.mem_cons_self)
        rw [hs1] at h1
        cases h1
        rw [en] at hk
        simp only [Res.ok_bind, hk, ih (fun h => hn ⟨hp, h⟩), Res.throw_bind]
      · unfold guardThrow
        rw [if_neg (by omega)]
        rfl

/-- C30, what can be indexed.  For every fixed shape and every index tuple, the constructor accepts exactly the
tuples with one index per axis whose integers are in range and whose steps are positive; the others raise an
exception. -/
theorem C30_accepts (shape : List Int) (idx : List BasicIndex) (hd : ∀ d ∈ shape, 0 ≤ d ∧ d ≤ ssMax)
    (hf : ∀ i ∈ idx, i.Fits) :
    (SelectOk shape idx → ∃ P, basicParse shape idx = .ok P ∧ P.shape = selectShape shape idx) ∧
    (¬ SelectOk shape idx → basicParse shape idx = .throw) := by
  refine ⟨fun ho => ?_, fun hn => ?_⟩
  · obtain ⟨st, start, h, _⟩ := parse_fixed hd ho hf
    exact ⟨_, h, rfl⟩
  · unfold basicParse
    by_cases hm : ∃ ss, BasicIndex.makeAll idx = .ok ss
    · obtain ⟨ss, hm⟩ := hm
      rw [hm]
      simp only [Res.ok_bind, parseIndex]
      have hdyn : dynamicShape shape = false := by
        cases shape with
        | nil => rfl
        | cons d shape => have := (hd d List.mem_cons_self).1; simp [dynamicShape]; omega
      rw [hdyn]
      unfold guardThrow
      split_ifs
      · simp only [Res.ok_bind, parseAxes_throw hd hf hm hn, Res.throw_bind]
      · rfl
    · rw [makeAll_throw (fun ss h => hm ⟨ss, h⟩)]; rfl

/-! ## The view -/

theorem dynamic_fixed {P : Parsed} (h : ∀ d ∈ P.shape, 0 ≤ d) : P.dynamic = false := by
  unfold Parsed.dynamic
  rw [shapeToSize_eq h, decide_eq_false_iff_not]
  have := shapeProd_nonneg h
  omega

/-- The elements seen through the view of an array of fixed size. -/
theorem elements_fixed {P : Parsed} {st : List Int} (h : ∀ d ∈ P.shape, 0 ≤ d) (hst : P.strides = st.map (8 * ·))
    (hl : st.length = P.shape.length) (s : BasicState α) :
    s.elements P = (allCoords P.shape).map fun c => s.now.data.getD (P.start + byteOffset st c).toNat default := by
  have hdyn := dynamic_fixed h
  have e1 : s.dims P = P.shape := by simp [BasicState.dims, hdyn]
  have e2 : s.offset P = P.start := by simp [BasicState.offset, hdyn]
  have e3 : s.size P = shapeProd P.shape := by simp [BasicState.size, hdyn, shapeToSize_eq h]
  have := elements_eq P s st hst (by rw [e1]; exact h) (by rw [e1, e3]) (by
    rw [e1]
    intro hc hp
    refine (C13_contiguous_iff _ _ ?_ hp).1 hc
    rw [hst, List.length_map, hl])
  rw [this, e1, e2]

theorem shapeNow_fixed {x : Arr α} (h : ∀ d ∈ x.shape, 0 ≤ d) : x.shapeNow = x.shape := by
  unfold Arr.shapeNow
  have : x.dynamic = false := by
    unfold Arr.dynamic
    cases hs : x.shape with
    | nil => rfl
    | cons d shape => have := h d (by rw [hs]; exact List.mem_cons_self); simp [dynamicShape]; omega
  rw [this]; rfl

/-- C30, the view.  For every fixed shape and every index tuple which the constructor accepts, and every array of
that shape, the view has the shape and exactly the elements that NumPy selects, in the same order. -/
theorem C30_view (shape : List Int) (idx : List BasicIndex) (x : Arr α) (hd : ∀ d ∈ shape, 0 ≤ d ∧ d ≤ ssMax)
    (ho : SelectOk shape idx) (hf : ∀ i ∈ idx, i.Fits) (hx : x.shape = shape) :
    ∃ P s, basicParse shape idx = .ok P ∧ (basicNode shape idx P).init [x] = .ok s ∧
      (basicNode shape idx P).view s = ⟨selectShape shape idx, basicSelect shape x.data idx⟩ := by
  obtain ⟨st, start, hP, hl, h0, h1, h2, h3⟩ := parse_fixed hd ho hf
  have hdyn := dynamic_fixed (P := ⟨selectShape shape idx, st.map (8 * ·), start, none⟩) h0
  refine ⟨_, _, hP, by simp only [BasicState.init, hdyn]; rfl, ?_⟩
  simp only
  rw [elements_fixed (P := ⟨selectShape shape idx, st.map (8 * ·), start, none⟩) h0 rfl hl,
    basicSelect_eq shape x.data idx _ st start h3]

/-! ## Changes -/

theorem slicePositions_lt {a b c : Option Int} {n p : Nat} (h : p ∈ slicePositions a b c n) : p < n :=
  List.mem_range.1 (List.mem_filter.1 h).1

/-- Selected coordinates are coordinates of the array. -/
theorem selectCoords_inShape : ∀ {shape : List Int} {idx : List BasicIndex} {c : List Int}, SelectOk shape idx →
    c ∈ selectCoords shape idx → InShape shape c
  | [], [], c, _, h => by simp only [selectCoords, List.mem_singleton] at h; subst h; trivial
  | n :: shape, .at i :: idx, c, ho, h => by
    simp only [selectCoords, List.mem_map] at h
    obtain ⟨c', hc', rfl⟩ := h
    have := ho.1
    exact ⟨by split_ifs <;> omega, by split_ifs <;> omega, selectCoords_inShape ho.2 hc'⟩
  | n :: shape, .slice a b e :: idx, c, ho, h => by
    simp only [selectCoords, List.mem_flatMap, List.mem_map] at h
    obtain ⟨p, hp, c', hc', rfl⟩ := h
    have := slicePositions_lt hp
    exact ⟨by omega, by omega, selectCoords_inShape ho.2 hc'⟩

/-- All positions read by the view are inside the array. -/
theorem view_inside {shape sh st : List Int} {idx : List BasicIndex} {start : Int} (ho : SelectOk shape idx)
    (h : (allCoords sh).map (fun c => start + byteOffset st c) = (selectCoords shape idx).map (rowMajor shape))
    {c : List Int} (hc : c ∈ allCoords sh) :
    0 ≤ start + byteOffset st c ∧ start + byteOffset st c < shapeProd shape := by
  have : start + byteOffset st c ∈ (selectCoords shape idx).map (rowMajor shape) := by
    rw [← h]; exact List.mem_map.2 ⟨c, hc, rfl⟩
  obtain ⟨c', hc', e⟩ := List.mem_map.1 this
  rw [← e]
  exact (selectCoords_inShape ho hc').rowMajor_range

/-- `BasicIndexingNode` on an array of fixed size keeps the symbol contract as soon as it translates changes
correctly. -/
def basicFixedContract (shape : List Int) (idx : List BasicIndex) (P : Parsed) (hd : ∀ d ∈ shape, 0 ≤ d ∧ d ≤ ssMax)
    (hs : ∀ d ∈ P.shape, 0 ≤ d)
    (hv : ∀ s : BasicState α, s.now.shape = shape → s.elements P = basicSelect shape s.now.data idx)
    (hp : ∀ (s : BasicState α) (y : Arr α) (d : List (Update α)), s.diff = [] → (s.now.data.length : Int) = shapeProd shape →
      Replays s.now.data d y.data → (∀ u ∈ d, u.isChange = true) → (y.data.length : Int) = shapeProd shape →
      ∃ dd, s.propagate P y d = .ok { s with now := y, diff := dd } ∧
        Replays (s.elements P) dd (BasicState.elements P { s with now := y }) ∧ ∀ u ∈ dd, u.isChange = true) :
    Contract ArrRel [] (basicNode (α := α) shape idx P) where
  Clean := fun s xs => ∃ x, xs = [x] ∧ s.now = x ∧ s.committed = x ∧ s.diff = [] ∧ x.shape = shape
  init := by
    rintro xs ⟨x, rfl, hx, _⟩
    refine ⟨⟨x, x, [], 0, 0, ⟨0, 0, 1⟩, []⟩, ?_, x, rfl, rfl, rfl, rfl, hx⟩
    simp only [BasicState.init, dynamic_fixed hs]
    rfl
  view := by
    rintro s xs ⟨x, rfl, h1, h2, h3, h4⟩
    simp only [List.headD_cons]
    rw [hv s (by rw [h1]; exact h4), shapeNow_fixed (by rw [h4]; exact fun d h => (hd d h).1), h4, h1]
  diff := by rintro s xs ⟨x, rfl, h1, h2, h3, h4⟩; exact h3
  propagate := by
    rintro s xs ins ys ⟨x, rfl, h1, h2, h3, h4⟩ ⟨_, hx, _, hw, _⟩ ⟨y', hy, hys, hyw, _⟩ hi
    cases hx
    obtain ⟨d, y, rfl, rfl, hr⟩ := hi.one
    obtain rfl : y = y' := by simpa using hy
    have hfix : ∀ z : Arr α, z.shape = shape → z.dynamic = false := by
      intro z hz
      unfold Arr.dynamic
      rw [hz]
      cases shape with
      | nil => rfl
      | cons e shape => have := (hd e List.mem_cons_self).1; simp [dynamicShape]; omega
    have hlen : ∀ z : Arr α, z.shape = shape → z.WF → (z.data.length : Int) = shapeProd shape := by
      intro z hz hw
      unfold Arr.WF at hw
      rw [hfix z hz, hz] at hw
      rw [shapeProd_eq]; simpa using hw
    obtain ⟨dd, hp1, hp2, hp3⟩ := hp s y d h3 (by rw [h1]; exact hlen x h4 hw) (by rw [h1]; exact hr.replays)
      (hr.fixed (hfix x h4)) (hlen y hys hyw)
    have v1 := hv s (by rw [h1]; exact h4)
    have v2 := hv { s with now := y, diff := dd } hys
    refine ⟨_, hp1, ?_, ⟨rfl, ?_, fun _ => hp3⟩, ⟨_, rfl, y, rfl, rfl, rfl, rfl, hys⟩, ?_⟩
    · simp only [List.headD_cons]
      rw [v2, shapeNow_fixed (by rw [hys]; exact fun d h => (hd d h).1), hys]
    · simp only [List.headD_cons]
      rw [shapeNow_fixed (x := y) (by rw [hys]; exact fun d h => (hd d h).1),
        shapeNow_fixed (x := x) (by rw [h4]; exact fun d h => (hd d h).1), hys, h4]
      rw [v1, h1] at hp2
      rw [← v2]
      exact hp2
    · simp only [BasicState.revert, dynamic_fixed hs]
      exact ⟨_, rfl, x, rfl, h2, h2, rfl, h4⟩

/-- The window of a contiguous view. -/
theorem window_filterMap (P : Parsed) (k : Int) (hs : 0 ≤ P.start) (d : List (Update α)) :
    ((d.filter fun u => !(decide ((u.index : Int) < P.start) || decide (P.start + k ≤ u.index))).map
        fun u => (⟨((u.index : Int) - P.start).toNat, u.old, u.value⟩ : Update α)) =
      d.filterMap fun u => (if P.start ≤ (u.index : Int) ∧ (u.index : Int) < P.start + k
        then some (u.index - P.start.toNat) else none).map fun i => ⟨i, u.old, u.value⟩ := by
  induction d with
  | nil => rfl
  | cons u d ih =>
    rw [List.filter_cons, List.filterMap_cons]
    by_cases h : P.start ≤ (u.index : Int) ∧ (u.index : Int) < P.start + k
    · rw [if_pos (by simp; omega), List.map_cons, ih, if_pos h]
      simp only [Option.map_some, List.cons.injEq, and_true]
      congr 1
      omega
    · rw [if_neg (by simp; omega), ih, if_neg h]
      rfl

theorem elements_through {P : Parsed} (h : ∀ d ∈ P.shape, 0 ≤ d) (hc : P.contiguous = true) (h0 : 0 ≤ P.start)
    (s : BasicState α) :
    s.elements P = through (fun i => P.start.toNat + i) (shapeProd P.shape).toNat s.now.data := by
  have hdyn := dynamic_fixed h
  unfold BasicState.elements through
  rw [if_pos hc]
  have e2 : s.offset P = P.start := by simp [BasicState.offset, hdyn]
  have e3 : s.size P = shapeProd P.shape := by simp [BasicState.size, hdyn, shapeToSize_eq h]
  rw [e2, e3]
  apply List.map_congr_left
  intro i _
  rw [show (P.start + (i : Int)).toNat = P.start.toNat + i by omega]

/-- Contiguous views end inside the array, unless they are empty. -/
theorem contiguous_inside {shape : List Int} {idx : List BasicIndex} {P : Parsed} (hd : ∀ d ∈ shape, 0 ≤ d ∧ d ≤ ssMax)
    (ho : SelectOk shape idx) (hf : ∀ i ∈ idx, i.Fits) (hP : basicParse shape idx = .ok P)
    (hc : P.contiguous = true) (hne : (∀ d ∈ selectShape shape idx, 0 < d) ∨ shape.length = 1) :
    P.start + shapeProd P.shape ≤ shapeProd shape := by
  obtain ⟨st, start, hP', hl, h0, h1, h2, h3⟩ := parse_fixed hd ho hf
  rw [hP] at hP'
  cases hP'
  by_cases hz : 0 ∈ selectShape shape idx
  · have hlen : shape.length = 1 := by
      rcases hne with hne | hne
      · exact absurd (hne 0 hz) (by decide)
      · exact hne
    match shape, hlen with
    | [n], _ =>
      have := h1.2
      simp only [farEnd, shapeProd] at this ⊢
      have := shapeProd_zero hz
      omega
  · have hpos : ∀ d ∈ selectShape shape idx, 0 < d := by
      intro d hd'
      have := h0 d hd'
      rcases Int.lt_or_eq_of_le this with h | h
      · exact h
      · exact absurd (h ▸ hd') hz
    have hp := shapeProd_pos hpos
    obtain ⟨c, _, hc1, hc2⟩ := unravel_spec _ hpos (shapeProd (selectShape shape idx) - 1) (by omega) (by omega)
    have hv := (C13_contiguous_iff _ _ (by simp [hl]) hpos).1 hc c hc1
    rw [byteOffset_eight, hc2] at hv
    have hmem : c ∈ allCoords (selectShape shape idx) := List.mem_of_getElem? (allCoords_get hc1)
    have := (view_inside ho h3 hmem).2
    simp only
    omega

/-- Contiguous views that end inside the array keep the symbol contract. -/
theorem inside_contract (shape : List Int) (idx : List BasicIndex) (P : Parsed)
    (hd : ∀ d ∈ shape, 0 ≤ d ∧ d ≤ ssMax) (ho : SelectOk shape idx) (hf : ∀ i ∈ idx, i.Fits)
    (hP : basicParse shape idx = .ok P) (hc : P.contiguous = true)
    (hin : P.start + shapeProd P.shape ≤ shapeProd shape) :
    Nonempty (Contract ArrRel [] (basicNode (α := α) shape idx P)) := by
  obtain ⟨st, start, hP', hl, h0, h1, h2, h3⟩ := parse_fixed hd ho hf
  rw [hP] at hP'
  cases hP'
  have hdyn := dynamic_fixed (P := ⟨selectShape shape idx, st.map (8 * ·), start, none⟩) h0
  refine ⟨basicFixedContract shape idx _ hd h0 ?_ ?_⟩
  · intro s hs
    rw [elements_fixed h0 rfl hl, basicSelect_eq shape s.now.data idx _ st start h3]
  · intro s y d hsd hlen hr hch hylen
    have hsz : s.size ⟨selectShape shape idx, st.map (8 * ·), start, none⟩ = shapeProd (selectShape shape idx) := by
      simp [BasicState.size, hdyn, shapeToSize_eq h0]
    have hpn := shapeProd_nonneg h0
    refine ⟨d.filterMap fun u => (if start ≤ (u.index : Int) ∧ (u.index : Int) < start + shapeProd (selectShape shape idx)
        then some (u.index - start.toNat) else none).map fun i => ⟨i, u.old, u.value⟩, ?_, ?_, ?_⟩
    rotate_left
    · rw [elements_through h0 hc h1.1, elements_through h0 hc h1.1]
      refine through_replays _ _ (fun j => if start ≤ (j : Int) ∧ (j : Int) < start + shapeProd (selectShape shape idx)
        then some (j - start.toNat) else none) hr hch ?_
      intro j i hj
      have := h1.1
      simp only
      constructor
      · intro h
        by_cases hjs : start ≤ (j : Int) ∧ (j : Int) < start + shapeProd (selectShape shape idx)
        · rw [if_pos hjs] at h
          have := Option.some.inj h
          omega
        · rw [if_neg hjs] at h; cases h
      · rintro ⟨hi, rfl⟩
        rw [if_pos (by omega)]
        congr 1
        omega
    · intro u hu
      obtain ⟨v, hv, e⟩ := List.mem_filterMap.1 hu
      obtain ⟨i, _, e⟩ := Option.map_eq_some_iff.1 e
      have := hch v hv
      rw [← e]
      exact this
    · simp only [BasicState.propagate]
      rw [guardUB_true hsd]
      simp only [Res.ok_bind, hc, hdyn, Bool.and_false, Bool.false_and, Bool.false_eq_true, if_false, if_true]
      rw [hsz, guardUB_true ⟨h1.1, hpn, by simp only at hin; omega⟩]
      simp only [Res.ok_bind]
      rw [window_filterMap (P := ⟨selectShape shape idx, st.map (8 * ·), start, none⟩) _ h1.1]

/-- Contiguous views keep the symbol contract. -/
theorem contiguous_contract (shape : List Int) (idx : List BasicIndex) (P : Parsed)
    (hd : ∀ d ∈ shape, 0 ≤ d ∧ d ≤ ssMax) (ho : SelectOk shape idx) (hf : ∀ i ∈ idx, i.Fits)
    (hP : basicParse shape idx = .ok P) (hc : P.contiguous = true)
    (hne : (∀ d ∈ selectShape shape idx, 0 < d) ∨ shape.length = 1) :
    Nonempty (Contract ArrRel [] (basicNode (α := α) shape idx P)) :=
  inside_contract shape idx P hd ho hf hP hc (contiguous_inside hd ho hf hP hc hne)

/-- C30, contiguous views.  For every array of fixed size and every accepted index whose view is contiguous in memory
(and is not an empty view of an array with several axes): after every history of changes, commits and reverts, the
view has the elements that NumPy selects from the present contents, and reports exactly their changes.

This is not yet C30: it says nothing about views that are not contiguous (`C30_strided_partial`; most of them are
wrong, see below). -/
theorem C30_contiguous_partial (shape : List Int) (idx : List BasicIndex) (P : Parsed)
    (hd : ∀ d ∈ shape, 0 ≤ d ∧ d ≤ ssMax) (ho : SelectOk shape idx) (hf : ∀ i ∈ idx, i.Fits)
    (hP : basicParse shape idx = .ok P) (hc : P.contiguous = true)
    (hne : (∀ d ∈ selectShape shape idx, 0 < d) ∨ shape.length = 1) :
    Incremental ArrRel [] (basicNode (α := α) shape idx P)
      (fun xs => ⟨selectShape shape idx, basicSelect (xs.headD ⟨[], []⟩).shapeNow (xs.headD ⟨[], []⟩).data idx⟩)
      (fun xs => ∃ x, xs = [x] ∧ x.shape = shape ∧ x.WF ∧ (x.data.length : Int) ≤ ssMax) := by
  obtain ⟨C⟩ := contiguous_contract (α := α) shape idx P hd ho hf hP hc hne
  obtain ⟨st, start, hP', _⟩ := parse_fixed hd ho hf
  rw [hP] at hP'
  cases hP'
  exact C.incremental

/-- The positions a strided one-dimensional view translates. -/
def stridePos (start t k : Int) (j : Nat) : Option Nat :=
  if start ≤ (j : Int) ∧ (j : Int) < k * t ∧ ((j : Int) - start) % t = 0 then some (((j : Int) - start) / t).toNat else none

theorem stridedDiff_eq {P : Parsed} {t k : Int} (ht : 0 < t) (hst : P.strides = [8 * t]) (h0 : 0 ≤ P.start) (hk : 0 ≤ k)
    (d : List (Update α)) :
    stridedDiff P k (k * t) d = .ok (d.filterMap fun u => (stridePos P.start t k u.index).map fun i => ⟨i, u.old, u.value⟩) := by
  induction d with
  | nil => rfl
  | cons u d ih =>
    simp only [stridedDiff]
    rw [List.filterMap_cons]
    by_cases hin : (u.index : Int) < P.start ∨ k * t ≤ u.index
    · rw [if_pos hin, ih]
      have : stridePos P.start t k u.index = none := by
        unfold stridePos; rw [if_neg (by omega)]
      rw [this]
      rfl
    · rw [if_neg hin, hst]
      have h8 : (8 * t).tdiv 8 = t := Int.mul_tdiv_cancel_left _ (by decide)
      have hge : 0 ≤ (u.index : Int) - P.start := by omega
      simp only [strideLoop, h8]
      rw [guardUB_true (by omega)]
      simp only [Res.ok_bind]
      rw [Int.tmod_eq_emod_of_nonneg hge, Int.tdiv_eq_ediv_of_nonneg hge]
      by_cases hm : ((u.index : Int) - P.start) % t = 0
      · rw [if_neg (by simpa using hm)]
        have hs : stridePos P.start t k u.index = some (((u.index : Int) - P.start) / t).toNat := by
          unfold stridePos; rw [if_pos (by omega)]
        have hq : 0 ≤ ((u.index : Int) - P.start) / t := Int.ediv_nonneg hge (by omega)
        have hq2 : ((u.index : Int) - P.start) / t < k := Int.ediv_lt_of_lt_mul ht (by omega)
        rw [hs]
        simp only [Res.ok_bind, ih, guardUB_true (⟨hq, hq2⟩ : _ ∧ _), Option.map_some]
      · rw [if_pos hm]
        have hs : stridePos P.start t k u.index = none := by
          unfold stridePos; rw [if_neg (by omega)]
        rw [hs]
        simp only [Res.ok_bind, ih, Option.map_none]

/-- C30, one-dimensional strided views.  For every array of fixed size and every accepted index whose view has one
axis (`x[s::step]`, `A[:, j]`) and starts before its stride: the same.

This is not yet C30: views with several axes that are not contiguous, and views that start later, are excluded, and
indeed wrong (`C30_columns_fails`, `C30_late_start_fails`, `C30_column_fails`). -/
theorem C30_strided_partial (shape : List Int) (idx : List BasicIndex) (P : Parsed) (k t : Int)
    (hd : ∀ d ∈ shape, 0 ≤ d ∧ d ≤ ssMax) (ho : SelectOk shape idx) (hf : ∀ i ∈ idx, i.Fits)
    (hP : basicParse shape idx = .ok P) (hc : P.contiguous = false) (h1d : P.shape = [k]) (hst : P.strides = [8 * t])
    (hlt : P.start < t) :
    Incremental ArrRel [] (basicNode (α := α) shape idx P)
      (fun xs => ⟨selectShape shape idx, basicSelect (xs.headD ⟨[], []⟩).shapeNow (xs.headD ⟨[], []⟩).data idx⟩)
      (fun xs => ∃ x, xs = [x] ∧ x.shape = shape ∧ x.WF ∧ (x.data.length : Int) ≤ ssMax) := by
  obtain ⟨st, start, hP', hl, h0, h1, h2, h3⟩ := parse_fixed hd ho hf
  rw [hP] at hP'
  cases hP'
  simp only at h1d hst hlt
  have hst' : st = [t] := by
    match st, hl with
    | [t'], _ => simp at hst; rw [hst]
    | [], hl => rw [h1d] at hl; simp at hl
    | _ :: _ :: _, hl => rw [h1d] at hl; simp at hl
  subst hst'
  have hk0 : 0 ≤ k := h0 k (by rw [h1d]; simp)
  have hk : 0 < k := by
    rcases Int.lt_or_eq_of_le hk0 with h | h
    · exact h
    · exfalso
      rw [← h] at h1d
      simp only [Parsed.contiguous, h1d, isContiguous, isContiguousRev] at hc
      simp [isContiguousRev] at hc
  have ht : 0 < t := by have := h1.1; omega
  have hdyn := dynamic_fixed (P := ⟨selectShape shape idx, [t].map (8 * ·), start, none⟩) h0
  have hkt : t ≤ k * t := by
    have := Int.mul_le_mul_of_nonneg_right (show 1 ≤ k by omega) (show 0 ≤ t by omega)
    omega
  -- the last element is inside
  have hlast : start + (k - 1) * t < shapeProd shape := by
    have hin : InShape (selectShape shape idx) [k - 1] := by rw [h1d]; exact ⟨by omega, by omega, trivial⟩
    have := (view_inside ho h3 (List.mem_of_getElem? (allCoords_get hin))).2
    simpa [byteOffset] using this
  have hmul : (k - 1) * t = k * t - t := by ring
  have hel : ∀ s : BasicState α, s.elements ⟨selectShape shape idx, [t].map (8 * ·), start, none⟩ =
      through (fun i => (start + i * t).toNat) k.toNat s.now.data := by
    intro s
    rw [elements_fixed h0 rfl hl]
    simp only [h1d, allCoords, through]
    simp only [List.map_flatMap, List.map_cons, List.map_nil, byteOffset, Int.ofNat_eq_natCast, add_zero]
    exact (List.map_eq_flatMap ..).symm
  refine (basicFixedContract shape idx _ hd h0 ?_ ?_).incremental
  · intro s hs
    rw [elements_fixed h0 rfl hl, basicSelect_eq shape s.now.data idx _ [t] start h3]
  · intro s y d hsd hlen hr hch hylen
    have hsz : ∀ s : BasicState α, s.size ⟨selectShape shape idx, [t].map (8 * ·), start, none⟩ = k := by
      intro s
      unfold BasicState.size
      rw [hdyn, if_neg (by decide), shapeToSize_eq h0]
      simp only [h1d, shapeProd, mul_one]
    have hext : ∀ s : BasicState α, s.extent ⟨selectShape shape idx, [t].map (8 * ·), start, none⟩ = k * t := by
      intro s
      unfold BasicState.extent
      rw [hsz, if_neg (by omega)]
      unfold BasicState.dims
      rw [hdyn, if_neg (by decide)]
      simp only [h1d, List.headD_cons, List.map_cons]
      rw [Int.mul_tdiv_cancel_left _ (by decide)]
    refine ⟨d.filterMap fun u => (stridePos start t k u.index).map fun i => ⟨i, u.old, u.value⟩, ?_, ?_, ?_⟩
    · simp only [BasicState.propagate]
      rw [guardUB_true hsd]
      simp only [Res.ok_bind, hc, hdyn, Bool.and_false, Bool.false_and, Bool.false_eq_true, if_false, Bool.not_false,
        Bool.true_or, if_true]
      have h8 : (([t].map (8 * ·)).headD 0).tdiv 8 = t := by
        simp only [List.map_cons, List.headD_cons]
        exact Int.mul_tdiv_cancel_left _ (by decide)
      rw [hext, guardUB_true ⟨h1.1, by omega, by rw [h1d]; simp, by rw [h8]; omega⟩, hsz,
        stridedDiff_eq (P := ⟨selectShape shape idx, [t].map (8 * ·), start, none⟩) ht rfl h1.1 hk0]
      rfl
    · rw [hel, hel]
      refine through_replays _ _ _ hr hch ?_
      intro j i hj
      unfold stridePos
      constructor
      · intro h
        by_cases hjs : start ≤ (j : Int) ∧ (j : Int) < k * t ∧ ((j : Int) - start) % t = 0
        · rw [if_pos hjs] at h
          have e := Option.some.inj h
          have hge : 0 ≤ (j : Int) - start := by omega
          have hq : 0 ≤ ((j : Int) - start) / t := Int.ediv_nonneg hge (by omega)
          have hq2 : ((j : Int) - start) / t < k := Int.ediv_lt_of_lt_mul ht (by have := h1.1; omega)
          have hd : ((j : Int) - start) / t * t = (j : Int) - start :=
            Int.ediv_mul_cancel (Int.dvd_of_emod_eq_zero hjs.2.2)
          have hi : (i : Int) = ((j : Int) - start) / t := by omega
          refine ⟨by omega, ?_⟩
          rw [hi, hd]
          omega
        · rw [if_neg hjs] at h; cases h
      · rintro ⟨hi, rfl⟩
        have hi0 : 0 ≤ (i : Int) * t := Int.mul_nonneg (by omega) (by omega)
        have hi1 : (i : Int) * t ≤ (k - 1) * t := Int.mul_le_mul_of_nonneg_right (by omega) (by omega)
        have e : (((start + (i : Int) * t).toNat : Nat) : Int) = start + i * t := Int.toNat_of_nonneg (by have := h1.1; omega)
        rw [e, add_sub_cancel_left, if_pos ⟨by omega, by omega, Int.mul_emod_left _ _⟩, Int.mul_ediv_cancel _ (by omega)]
        rfl
    · intro u hu
      obtain ⟨v, hv, e⟩ := List.mem_filterMap.1 hu
      obtain ⟨i, _, e⟩ := Option.map_eq_some_iff.1 e
      have := hch v hv
      rw [← e]
      exact this

/-! ## Concrete cases -/

/-- Build the view of `x`, then let `x` become `y`: what the view shows and reports. -/
def basicRun (idx : List BasicIndex) (x y : Arr α) (d : List (Update α)) : Res (Arr α × List (Update α)) := do
  let P ← basicParse x.shape idx
  let s ← BasicState.init P x
  let s ← s.propagate P y d
  .ok ((basicNode x.shape idx P).view s, (basicNode x.shape idx P).diff s)

/-- `a:b:c`. -/
abbrev sl (a b c : Option Int) : BasicIndex := .slice a b c
/-- `:`. -/
abbrev colon : BasicIndex := .slice none none none

/-- **C30 fails** for `A[:, ::2]`, with `A` of shape (2, 4): the change of `A[0, 2]` is not reported. -/
theorem C30_columns_fails :
    SelectOk [2, 4] [colon, sl none none (some 2)] ∧
    ArrRel (⟨[2, 4], [0, 1, 2, 3, 4, 5, 6, 7]⟩ : Arr Nat) [Update.change 2 2 9] ⟨[2, 4], [0, 1, 9, 3, 4, 5, 6, 7]⟩ ∧
    basicRun [colon, sl none none (some 2)] (⟨[2, 4], [0, 1, 2, 3, 4, 5, 6, 7]⟩ : Arr Nat) ⟨[2, 4], [0, 1, 9, 3, 4, 5, 6, 7]⟩
      [Update.change 2 2 9] = .ok (⟨[2, 2], [0, 9, 4, 6]⟩, []) ∧
    basicSelect [2, 4] [0, 1, 2, 3, 4, 5, 6, 7] [colon, sl none none (some 2)] = [0, 2, 4, 6] := by
  refine ⟨⟨by decide, by decide, trivial⟩, ?_, ?_, ?_⟩ <;> decide +kernel

/-- **C30 fails** for `x[3:9:2]`, with `x` of size 10: the change of `x[7]` is not reported. -/
theorem C30_late_start_fails :
    SelectOk [10] [sl (some 3) (some 9) (some 2)] ∧
    ArrRel (⟨[10], [0, 1, 2, 3, 4, 5, 6, 7, 8, 9]⟩ : Arr Nat) [Update.change 7 7 70] ⟨[10], [0, 1, 2, 3, 4, 5, 6, 70, 8, 9]⟩ ∧
    basicRun [sl (some 3) (some 9) (some 2)] (⟨[10], [0, 1, 2, 3, 4, 5, 6, 7, 8, 9]⟩ : Arr Nat)
      ⟨[10], [0, 1, 2, 3, 4, 5, 6, 70, 8, 9]⟩ [Update.change 7 7 70] = .ok (⟨[3], [3, 5, 70]⟩, []) ∧
    basicSelect [10] [0, 1, 2, 3, 4, 5, 6, 7, 8, 9] [sl (some 3) (some 9) (some 2)] = [3, 5, 7] := by
  refine ⟨⟨by decide, trivial⟩, ?_, ?_, ?_⟩ <;> decide +kernel

/-- **C30 fails** for `A[2:4, 1]`, with `A` of shape (4, 3): any propagation violates an assertion. -/
theorem C30_column_fails :
    SelectOk [4, 3] [sl (some 2) (some 4) none, .at 1] ∧
    ArrRel (⟨[4, 3], [0, 1, 2, 3, 4, 5, 6, 7, 8, 9, 10, 11]⟩ : Arr Nat) [] ⟨[4, 3], [0, 1, 2, 3, 4, 5, 6, 7, 8, 9, 10, 11]⟩ ∧
    basicRun [sl (some 2) (some 4) none, .at 1] (⟨[4, 3], [0, 1, 2, 3, 4, 5, 6, 7, 8, 9, 10, 11]⟩ : Arr Nat)
      ⟨[4, 3], [0, 1, 2, 3, 4, 5, 6, 7, 8, 9, 10, 11]⟩ [] = .ub := by
  refine ⟨⟨by decide, by decide, trivial⟩, ?_, ?_⟩ <;> decide +kernel

/-- **C30 fails** for the empty view `A[2:, 3:]`, with `A` of shape (2, 3): any propagation violates an assertion. -/
theorem C30_empty_fails :
    SelectOk [2, 3] [sl (some 2) none none, sl (some 3) none none] ∧
    ArrRel (⟨[2, 3], [0, 1, 2, 3, 4, 5]⟩ : Arr Nat) [] ⟨[2, 3], [0, 1, 2, 3, 4, 5]⟩ ∧
    basicRun [sl (some 2) none none, sl (some 3) none none] (⟨[2, 3], [0, 1, 2, 3, 4, 5]⟩ : Arr Nat)
      ⟨[2, 3], [0, 1, 2, 3, 4, 5]⟩ [] = .ub := by
  refine ⟨⟨by decide, by decide, trivial⟩, ?_, ?_⟩ <;> decide +kernel

instance : ∀ i : BasicIndex, Decidable i.Fits
  | .at i => inferInstanceAs (Decidable (IsSS i))
  | .slice a b c => inferInstanceAs (Decidable ((∀ x ∈ a, IsSS x) ∧ (∀ x ∈ b, IsSS x) ∧ (∀ x ∈ c, IsSS x)))

-- `A[1, -3:]` of a (3, 5) array is contiguous
example : basicParse [3, 5] [.at 1, sl (some (-3)) none none] = .ok ⟨[3], [8], 7, none⟩ := by decide
example : (⟨[3], [8], 7, none⟩ : Parsed).contiguous = true ∧ SelectOk [3, 5] [.at 1, sl (some (-3)) none none] ∧
    (∀ i ∈ [BasicIndex.at 1, sl (some (-3)) none none], i.Fits) ∧
    (∀ d ∈ selectShape [3, 5] [.at 1, sl (some (-3)) none none], 0 < d) :=
  ⟨by decide, ⟨by decide, by decide, trivial⟩, by decide, by decide⟩
-- `A[:, 2]` of a (3, 5) array and `x[1::3]` have one axis and start before their stride
example : basicParse [3, 5] [colon, .at 2] = .ok ⟨[3], [40], 2, none⟩ ∧ (⟨[3], [40], 2, none⟩ : Parsed).contiguous = false :=
  ⟨by decide, by decide⟩
example : basicParse [7] [sl (some 1) none (some 3)] = .ok ⟨[2], [24], 1, none⟩ := by decide
example : basicSelect [2, 3] [10, 11, 12, 13, 14, 15] [colon, sl none (some (-1)) none] = [10, 11, 13, 14] := by decide
example : basicParse [3] [.at 3] = .throw ∧ basicParse [3] [sl none none (some (-1))] = .throw ∧
    basicParse [3] [colon, colon] = .throw := ⟨by decide, by decide, by decide⟩
example : basicRun [colon, .at 2] (⟨[2, 3], [0, 1, 2, 3, 4, 5]⟩ : Arr Nat) ⟨[2, 3], [0, 1, 2, 3, 4, 50]⟩
    [Update.change 5 5 50] = .ok (⟨[2], [2, 50]⟩, [Update.change 1 5 50]) := by decide +kernel

end Verif
