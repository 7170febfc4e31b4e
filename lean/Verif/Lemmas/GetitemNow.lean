import Verif.Lemmas.Getitem
import Verif.Lemmas.NumpyValues
import Verif.Props.Programs

set_option linter.unusedSectionVars false
set_option linter.unusedSimpArgs false
set_option linter.unusedVariables false

/-! Helper lemmas: `x[...]` in a model, also for arrays `x` whose size varies. -/

namespace Verif

open Graph PyModel Script MixedIndex

/-- `x[...]` for `x` of fixed size, and `A[i, :][:, i]`. -/
theorem getitem_picks {p : Program} {M : Generated} (hp : p.run = .ok M) {T : Nat → Prop} (h : M.rows.Supported T) {m : PyModel}
    (hm : PyModel.new.run M.ops = .ok m) {vals : Nat → Val} (hv : M.Visible m vals)
    {s s' : Script} {x j : Nat} {idx : List PyIndex} (hg : s.getitem x idx = .ok (s', j)) (hs : s' <+: M.rows)
    (hfixed : s.permutes x idx ≠ none ∨ ∀ d ∈ (M.rows.row x).out.shape, 0 ≤ d)
    (hl : SameLayout (padded (idx.map PyIndex.mixed) (M.rows.row x).out.shape.length) ∨
      ∀ i ∈ PyIndex.symbols idx, (M.rows.row i).out.shape = []) :
    ∃ v ys, vals x = [v] ∧ (PyIndex.symbols idx).map vals = ys.map (fun y => [y]) ∧
      Picks v.shape (padded (idx.map PyIndex.mixed) v.shape.length) ys ∧
      vals j = [numpyIndex v.shape v.data (padded (idx.map PyIndex.mixed) v.shape.length) ys] ∧
      (s.permutes x idx ≠ none → ∀ d ∈ v.shape, 0 ≤ d) := by
  obtain ⟨hmade, _, hf, _⟩ := Ready.facts hp h hm hv
  have hshapes := C40_program_shapes_partial hp h hm hv
  by_cases hperm : s.permutes x idx = none
  swap
  · have hx : x < s.length := by
      obtain ⟨⟨u, i⟩, he⟩ := Option.ne_none_iff_exists'.1 hperm
      obtain ⟨f, P, a, ho, _⟩ := permutes_some he
      by_contra hlt
      unfold Script.row at ho
      rw [List.getD_eq_getElem?_getD, List.getElem?_eq_none (by omega)] at ho
      cases ho
    have hx' : x < M.rows.length := lt_of_lt_of_le hx (by
      unfold Script.getitem at hg
      split at hg
      · exact (add_made hg hs).2.1.length_le
      · rename_i e
        exact absurd e hperm)
    obtain ⟨v, y, h1, h2, ⟨n, h3⟩, h4, h5, h6⟩ := hmade.permutation_value hf hshapes hperm hg hs hx (h.regular x hx')
      (C56_in_bounds_partial hp h hm hv x hx')
    have hpad : padded (idx.map PyIndex.mixed) v.shape.length = idx.map PyIndex.mixed := by simp [padded, h3, h4]
    refine ⟨v, [y], h1, by rw [h2]; rfl, by rw [hpad]; exact h5, by rw [hpad]; exact h6, fun _ d hd => ?_⟩
    rw [h3] at hd
    simp only [List.mem_cons, List.not_mem_nil, or_false, or_self] at hd
    rw [hd]
    exact Int.natCast_nonneg _
  have hg' : s.getitemArray x idx = .ok (s', j) := by
    unfold Script.getitem at hg
    rw [hperm] at hg
    exact hg
  have hfixed := hfixed.resolve_left (fun h => h hperm)
  refine Exists.imp (fun v => Exists.imp fun ys ⟨h1, h2, h3, h4⟩ => ⟨h1, h2, h3, h4, fun h => absurd hperm h⟩)
    (hmade.getitem_value hf (fun i hi => (hshapes i hi).1) ?_ ?_ ?_ (C56_in_bounds_partial hp h hm hv) hg' hs hfixed hl)
  · intro i hi a ha e
    have := (hshapes i hi).2 a ha
    obtain ⟨sh, data⟩ := a
    obtain rfl : sh = [] := e
    have : (data.length : Int) = ([] : List Int).prod := this
    simpa using this
  · intro i hi sh idx P hb hd
    have := h.regular i hi
    unfold Row.Regular at this
    rw [hb] at this
    obtain ⟨_, h1 | ⟨rest, a, b, c, more, e, _⟩⟩ := this
    · exact ⟨h1.1, h1.2.1⟩
    · have := hd (-1) (by rw [e]; simp)
      omega
  · intro i hi idx P base hb
    have := h.regular i hi
    unfold Row.Regular at this
    rw [hb] at this
    exact this.1

/-! ## What is seen of the result -/

theorem choices_length : ∀ ls : List (List Nat), ((choices ls).length : Int) = (ls.map fun l => (l.length : Int)).prod
  | [] => rfl
  | l :: ls => by
    have ih := choices_length ls
    rw [choices, List.length_flatMap]
    simp only [List.length_map, List.map_const', List.sum_replicate, List.map_cons, List.prod_cons, ← ih, nsmul_eq_mul]
    push_cast
    rfl

theorem numpyIndex_congr {shape : List Int} {data : List Rat} {idx : List MixedIndex} {ys : List (Arr Rat)} :
    (numpyIndex shape data idx (ys.map Arr.present)).data = (numpyIndex shape data idx ys).data := by
  unfold numpyIndex
  cases ys with
  | nil => rfl
  | cons y ys =>
    simp only [List.map_map, List.map_cons, List.headD_cons]
    rfl

/-- The open dimension of the index arrays is the open dimension of the result. -/
theorem numpyIndex_present {shape : List Int} {data : List Rat} {idx : List MixedIndex} {ys : List (Arr Rat)} (h : Picks shape idx ys)
    (hf : ∀ y ∈ ys, y.Fine) (hg : GoodShape (numpyIndex shape data idx ys).shape) :
    (numpyIndex shape data idx ys).present = numpyIndex shape data idx (ys.map Arr.present) := by
  have hdata := numpyIndex_congr (shape := shape) (data := data) (idx := idx) (ys := ys)
  suffices hs : (numpyIndex shape data idx ys).shapeNow = (numpyIndex shape data idx (ys.map Arr.present)).shape by
    show (⟨_, _⟩ : Arr Rat) = _
    rw [hs, ← hdata]
  have dims0 : ∀ d ∈ (positions shape idx).map (fun l => (l.length : Int)), 0 ≤ d := by
    intro d hd
    obtain ⟨l, _, rfl⟩ := List.mem_map.1 hd
    exact Int.natCast_nonneg _
  have fixed : ∀ a : List Int, (∀ d ∈ a, 0 ≤ d) → ∀ d ∈ mixedShape shape idx a, 0 ≤ d := by
    intro a ha d hd
    unfold mixedShape at hd
    simp only [List.mem_append] at hd
    rcases hd with (hd | hd) | hd
    · exact dims0 d (List.mem_of_mem_take hd)
    · exact ha d hd
    · exact dims0 d (List.mem_of_mem_drop hd)
  cases ys with
  | nil => exact present_shape_fixed (fixed_of_nonneg (fixed [] (by simp)))
  | cons y ys =>
    have hy := hf y (by simp)
    cases hd : dynamicShape y.shape with
    | false =>
      rw [List.map_cons, present_fixed hd]
      exact present_shape_fixed (fixed_of_nonneg (fixed y.shape (Kind.nonneg_of_good hy.good hd)))
    | true =>
      have hrank := (h.alike y (by simp)).2.2
      obtain ⟨a, hya, ha⟩ : ∃ a, y.shape = [a] ∧ a < 0 := by
        match e : y.shape, hrank, hd with
        | [a], _, hd => exact ⟨a, rfl, by simpa [dynamicShape] using hd⟩
      have hynow : y.shapeNow = [(y.data.length : Int)] := by
        unfold Arr.shapeNow Arr.dynamic
        rw [hd, hya]
        simp [rowSize]
      set L := advLeft (idx.map advanced) with hL
      set dims := (positions shape idx).map (fun l => (l.length : Int)) with hdims
      have hsh : (numpyIndex shape data idx (y :: ys)).shape = dims.take L ++ [a] ++ dims.drop L := by
        show mixedShape shape idx y.shape = _
        rw [hya]
        rfl
      have hsh2 : (numpyIndex shape data idx ((y :: ys).map Arr.present)).shape = dims.take L ++ [(y.data.length : Int)] ++ dims.drop L := by
        show mixedShape shape idx y.shapeNow = _
        rw [hynow]
        rfl
      have htake : dims.take L = [] := by
        cases e : dims.take L with
        | nil => rfl
        | cons d l =>
          rw [hsh, e] at hg
          have := hg.1 a (by simp)
          omega
      rw [hsh2, htake]
      rw [htake] at hsh
      have hlen : ((numpyIndex shape data idx (y :: ys)).data.length : Int) = y.data.length * (dims.drop L).prod := by
        have hp : (positions shape idx).take L = [] := by
          rw [hdims, ← List.map_take] at htake
          exact List.map_eq_nil_iff.1 htake
        show (((mixedCoords shape idx _ y.data.length).map _).length : Int) = _
        rw [List.length_map]
        unfold mixedCoords
        rw [← hL, hp, choices, List.flatMap_singleton, List.length_flatMap]
        simp only [List.length_map, List.map_const', List.sum_replicate, List.length_range, nsmul_eq_mul]
        push_cast
        rw [choices_length, List.map_drop]
      have hpos : 0 < (dims.drop L).prod := by
        rw [← shapeProd_eq]
        refine shapeProd_pos fun d hd' => ?_
        obtain ⟨l, hl, rfl⟩ := List.mem_map.1 (List.mem_of_mem_drop hd')
        have := h.filled (by simp) l hl
        have := List.length_pos_iff.2 this
        omega
      unfold Arr.shapeNow Arr.dynamic
      rw [hsh, hlen]
      simp only [List.nil_append, List.singleton_append, dynamicShape, ha, decide_true, if_true, rowSize, List.drop_one, List.tail_cons]
      rw [Int.mul_ediv_cancel _ (ne_of_gt hpos)]

/-- Slices of an array whose size varies. -/
theorem basic_present {rest : List Int} {a b c : Option Int} {more : List BasicIndex} (h : DynIndex rest a b c more)
    (hpos : ∀ d ∈ selectShape rest more, 0 < d) {n : Nat} {data : List Rat} :
    (⟨-1 :: selectShape rest more, basicSelect ((n : Int) :: rest) data (.slice a b c :: more)⟩ : Arr Rat).present =
      ⟨selectShape ((n : Int) :: rest) (.slice a b c :: more), basicSelect ((n : Int) :: rest) data (.slice a b c :: more)⟩ := by
  have hok : SelectOk ((n : Int) :: rest) (.slice a b c :: more) := ⟨h.step, h.row⟩
  have hlen : ((basicSelect ((n : Int) :: rest) data (.slice a b c :: more)).length : Int) =
      (slicePositions a b c n).length * (selectShape rest more).prod := by
    unfold basicSelect
    rw [List.length_map, selectCoords_lift hok, List.length_map]
    have h0 : ∀ d ∈ selectShape ((n : Int) :: rest) (.slice a b c :: more), 0 ≤ d := by
      intro d hd
      rcases List.mem_cons.1 hd with rfl | hd
      · exact Int.natCast_nonneg _
      · exact (hpos d hd).le
    have := length_allCoords_nonneg h0
    rw [this, shapeProd_eq]
    simp [selectShape]
  have hp : 0 < (selectShape rest more).prod := by
    rw [← shapeProd_eq]
    exact shapeProd_pos hpos
  unfold Arr.present
  congr 1
  unfold Arr.shapeNow Arr.dynamic
  simp only [dynamicShape, rowSize, List.drop_one, List.tail_cons, hlen, selectShape]
  rw [Int.mul_ediv_cancel _ (ne_of_gt hp)]
  simp

theorem present_alike {y z : Arr Rat} (hy : y.Fine) (hz : z.Fine) (hl : z.data.length = y.data.length)
    (hr : z.shape.length = y.shape.length) (h1 : z.shape.length ≤ 1) : z.present.shape = y.present.shape := by
  have key : ∀ {x : Arr Rat}, x.Fine → x.shape.length = 1 → x.present.shape = [(x.data.length : Int)] := by
    intro x hx h
    have := hx.full
    obtain ⟨d, hd⟩ : ∃ d, x.present.shape = [d] := by
      have : x.present.shape.length = 1 := by
        show x.shapeNow.length = 1
        unfold Arr.shapeNow
        split_ifs
        · simp [h]
        · exact h
      exact List.length_eq_one_iff.1 this
    rw [hd]
    have h2 := this.2
    rw [hd] at h2
    have e : x.present.data = x.data := rfl
    rw [e] at h2
    rw [h2]
    simp [shapeProd]
  rcases Nat.lt_or_ge z.shape.length 1 with h0 | h0
  · have ez : z.shape = [] := List.length_eq_zero_iff.1 (by omega)
    have ey : y.shape = [] := List.length_eq_zero_iff.1 (by omega)
    rw [present_fixed (by rw [ez]; rfl), present_fixed (by rw [ey]; rfl), ez, ey]
  · rw [key hz (by omega), key hy (by omega), hl]

theorem Picks.numpyGetitem {v : Arr Rat} {idx : List MixedIndex} {ys : List (Arr Rat)} (h : Picks v.shape (padded idx v.shape.length) ys)
    (hf : ∀ y ∈ ys, y.Fine) :
    Verif.numpyGetitem v idx (ys.map Arr.present) =
      some (numpyIndex v.shape v.data (padded idx v.shape.length) (ys.map Arr.present)) := by
  unfold Verif.numpyGetitem
  refine if_pos ⟨h.ok, ?_, ?_⟩
  · unfold IndexEntries
    rw [List.forall₂_map_right_iff]
    exact h.entries
  · intro y hy
    obtain ⟨z, hz, rfl⟩ := List.mem_map.1 hy
    cases ys with
    | nil => cases hz
    | cons w ys =>
      obtain ⟨h1, h2, h3⟩ := h.alike z hz
      exact present_alike (hf w (by simp)) (hf z hz) h1 h2 h3

/-- All values are proper arrays. -/
theorem program_fine {p : Program} {M : Generated} (hp : p.run = .ok M) {T : Nat → Prop} (h : M.rows.Supported T) {m : PyModel}
    (hm : PyModel.new.run M.ops = .ok m) {vals : Nat → Val} (hv : M.Visible m vals) {i : Nat} (hi : i < M.rows.length) :
    ∀ a ∈ vals i, a.Fine := by
  obtain ⟨hmade, _, hf, _⟩ := Ready.facts hp h hm hv
  obtain ⟨h1, h2⟩ := C40_program_shapes_partial hp h hm hv i hi
  intro a ha
  refine ⟨(hmade.static h.regular i hi).good a.shape ?_, h2 a ha⟩
  rw [← h1]
  exact List.mem_map.2 ⟨a, ha, rfl⟩

theorem getitem_bounds {s s' t : Script} {x j : Nat} {idx : List PyIndex} (hg : s.getitem x idx = .ok (s', j)) (hs : s' <+: t) :
    x < t.length ∧ j < t.length ∧ ∀ i ∈ PyIndex.symbols idx, i < t.length := by
  unfold Script.getitem at hg
  split at hg
  · rename_i A i hperm
    obtain ⟨hj, hst, _, hops⟩ := add_made hg hs
    obtain ⟨f, P, a, ho, _, _, hcase⟩ := permutes_some hperm
    have hx : x < s.length := by
      by_contra hlt
      unfold Script.row at ho
      rw [List.getD_eq_getElem?_getD, List.getElem?_eq_none (by omega)] at ho
      cases ho
    refine ⟨lt_of_lt_of_le hx hst.length_le, hj, fun k hk => ?_⟩
    have : k = i := by
      rcases hcase with ⟨_, rfl⟩ | ⟨_, rfl⟩ <;> simpa [PyIndex.symbols] using hk
    rw [this]
    exact lt_of_lt_of_le (hops i (by simp)) hst.length_le
  · unfold Script.getitemArray Script.basicIndexing Script.advancedIndexing at hg
    dsimp only at hg
    have sym : PyIndex.symbols (PyIndex.pad idx (s.row x).out.shape.length) = PyIndex.symbols idx := PyIndex.symbols_pad _ _
    split at hg
    · rename_i bs hbs
      obtain ⟨_, _, e3⟩ := PyIndex.mapM_basic hbs
      obtain ⟨_, _, hg⟩ := Res.bind_eq_ok.1 hg
      obtain ⟨hj, hst, _, hops⟩ := add_made hg hs
      refine ⟨lt_of_lt_of_le (hops x (by simp)) hst.length_le, hj, fun k hk => ?_⟩
      rw [← sym, e3] at hk
      cases hk
    · split at hg
      · rename_i os hos
        obtain ⟨_, e2, _⟩ := PyIndex.mapM_advanced hos
        obtain ⟨hj, hst, _, hops⟩ := add_made hg hs
        refine ⟨lt_of_lt_of_le (hops x (by simp)) hst.length_le, hj, fun k hk => ?_⟩
        rw [← sym, ← e2] at hk
        exact lt_of_lt_of_le (hops k (List.mem_cons_of_mem _ hk)) hst.length_le
      · obtain ⟨r, hr, hg⟩ := Res.bind_eq_ok.1 hg
        obtain ⟨b, hb, hg⟩ := Res.bind_eq_ok.1 hg
        obtain ⟨_, _, hb⟩ := Res.bind_eq_ok.1 hb
        obtain ⟨_, _, e3⟩ := PyIndex.split_ok hr
        obtain ⟨hj, hst, _, hops⟩ := add_made hg hs
        obtain ⟨_, hst2, _, hops2⟩ := add_made hb hst
        refine ⟨lt_of_lt_of_le (hops2 x (by simp)) hst2.length_le, hj, fun k hk => ?_⟩
        rw [← sym, ← e3] at hk
        exact lt_of_lt_of_le (hops k (List.mem_cons_of_mem _ hk)) hst.length_le

/-- An array whose size varies can only be indexed with integers and slices. -/
theorem varying_basic {t : Script} (h : t.Made) (hr : ∀ i < t.length, (t.row i).Regular) {s s' : Script} {x j : Nat} {bs : List BasicIndex}
    (hg : s.basicIndexing x bs = .ok (s', j)) (ht : s' <+: t) (hd : ¬ ∀ d ∈ (t.row x).out.shape, 0 ≤ d) :
    ∃ rest a b c more P, (t.row x).out.shapes = [-1 :: rest] ∧ (t.row j).built = .basic (-1 :: rest) bs P ∧ (t.row j).ops = [x] ∧
      bs = .slice a b c :: more ∧ DynIndex rest a b c more ∧ (∀ d ∈ selectShape rest more, 0 < d) ∧
      P.shape = -1 :: selectShape rest more ∧ (t.row j).out.shapes = [-1 :: selectShape rest more] := by
  unfold Script.basicIndexing at hg
  obtain ⟨_, _, hg⟩ := Res.bind_eq_ok.1 hg
  obtain ⟨hj, hs, ⟨hops, sh, P, hb⟩, hx⟩ := add_made hg ht
  obtain ⟨sizes, _, _, _, how⟩ := h.how hj
  cases how with
  | kind hb' => rw [hb] at hb'; cases hb'
  | advanced hb' => rw [hb] at hb'; cases hb'
  | permutation hb' => rw [hb] at hb'; cases hb'
  | @basic x' sh' idx' P' z hb' hops' _ hsh' hP hz ho =>
    rw [hb] at hb'
    cases hb'
    obtain rfl : x = x' := by rw [hops] at hops'; simpa using hops'
    have hsx : (t.row x).out.shape = sh := congrArg Kind.shape1 hsh'
    have := hr j hj
    unfold Row.Regular at this
    rw [hb] at this
    obtain ⟨_, h1 | ⟨rest, a, b, c, more, rfl, rfl, h2, h3, _⟩⟩ := this
    · exact absurd (fun d hd' => (h1.1 d (by rw [← hsx]; exact hd')).1) hd
    · obtain ⟨sl, st, start, _, _, hP', _⟩ := h2.parse
      rw [hP] at hP'
      have hPs : P.shape = -1 :: selectShape rest more := by rw [Res.ok.inj hP']
      exact ⟨rest, a, b, c, more, P, hsh', hb, hops, rfl, h2, h3, hPs, by rw [ho, hPs]⟩

theorem varying_advanced {t : Script} (h : t.Made) (hr : ∀ i < t.length, (t.row i).Regular) {s s' : Script} {x j : Nat}
    {os : List (Option Nat)} (hg : s.advancedIndexing x os = .ok (s', j)) (ht : s' <+: t) : ∀ d ∈ (t.row x).out.shape, 0 ≤ d := by
  unfold Script.advancedIndexing at hg
  obtain ⟨hj, hs, ⟨hops, idx, P, base, hb, hslots⟩, hx⟩ := add_made hg ht
  obtain ⟨sizes, _, _, _, how⟩ := h.how hj
  cases how with
  | kind hb' => rw [hb] at hb'; cases hb'
  | basic hb' => rw [hb] at hb'; cases hb'
  | permutation hb' => rw [hb] at hb'; cases hb'
  | advanced hb' hops' hsh' hidx hP ho =>
    rw [hb] at hb'
    cases hb'
    rw [hops] at hops'
    obtain ⟨rfl, -⟩ := List.cons.inj hops'
    have e : (t.row x).out.shape = _ := congrArg Kind.shape1 hsh'
    have := hr j hj
    unfold Row.Regular at this
    rw [hb] at this
    have := this.1
    rw [advParse_operand hP] at this
    rw [e]
    exact fun d hd => (this d hd).le

/-- `x[...]`, as it is seen. -/
theorem getitem_now {p : Program} {M : Generated} (hp : p.run = .ok M) {T : Nat → Prop} (h : M.rows.Supported T) {m : PyModel}
    (hm : PyModel.new.run M.ops = .ok m) {vals : Nat → Val} (hv : M.Visible m vals)
    {s s' : Script} {x j : Nat} {idx : List PyIndex} (hg : s.getitem x idx = .ok (s', j)) (hs : s' <+: M.rows)
    (hl : SameLayout (padded (idx.map PyIndex.mixed) (M.rows.row x).out.shape.length) ∨
      ∀ i ∈ PyIndex.symbols idx, (M.rows.row i).out.shape = []) :
    ∃ (v : Arr Rat) (ys : List (Arr Rat)) (z : Arr Rat), vals x = [v] ∧ (PyIndex.symbols idx).map vals = ys.map (fun y => [y]) ∧ vals j = [z] ∧
      numpyGetitem v.present (idx.map PyIndex.mixed) (ys.map Arr.present) = some z.present := by
  obtain ⟨hmade, _, hf, _⟩ := Ready.facts hp h hm hv
  have hshapes := C40_program_shapes_partial hp h hm hv
  obtain ⟨hxt, hjt, hsym⟩ : x < M.rows.length ∧ j < M.rows.length ∧ ∀ i ∈ PyIndex.symbols idx, i < M.rows.length :=
    getitem_bounds hg hs
  by_cases hfixed : s.permutes x idx ≠ none ∨ ∀ d ∈ (M.rows.row x).out.shape, 0 ≤ d
  · obtain ⟨v, ys, h1, h2, h3, h4, h5⟩ := getitem_picks hp h hm hv hg hs hfixed hl
    have hvfix : ∀ d ∈ v.shape, 0 ≤ d := by
      rcases hfixed with hn | hn
      · exact h5 hn
      · have := (hshapes x hxt).1
        rw [h1] at this
        have e : (M.rows.row x).out.shape = v.shape := congrArg Kind.shape1 this.symm
        rwa [e] at hn
    have hys : ∀ y ∈ ys, y.Fine := by
      intro y hy
      have : [y] ∈ (PyIndex.symbols idx).map vals := by rw [h2]; exact List.mem_map.2 ⟨y, hy, rfl⟩
      obtain ⟨i, hi, e⟩ := List.mem_map.1 this
      exact program_fine hp h hm hv (hsym i hi) y (by rw [e]; simp)
    refine ⟨v, ys, _, h1, h2, h4, ?_⟩
    rw [present_fixed (fixed_of_nonneg hvfix), h3.numpyGetitem hys, numpyIndex_present h3 hys]
    exact (program_fine hp h hm hv hjt _ (by rw [h4]; simp)).good
  · rw [not_or, not_not] at hfixed
    obtain ⟨hperm, hdyn⟩ := hfixed
    unfold Script.getitem at hg
    rw [hperm] at hg
    dsimp only at hg
    unfold Script.getitemArray at hg
    dsimp only at hg
    split at hg
    · rename_i bs hbs
      obtain ⟨e1, e2, e3⟩ := PyIndex.mapM_basic hbs
      rw [PyIndex.symbols_pad] at e3
      obtain ⟨rest, a, b, c, more, P, k1, k2, k3, k4, k5, k6, k7, k8⟩ := varying_basic hmade h.regular hg hs hdyn
      have hst : s <+: M.rows ∧ x < s.length := by
        unfold Script.basicIndexing at hg
        obtain ⟨_, _, hg⟩ := Res.bind_eq_ok.1 hg
        obtain ⟨_, hst, _, hops⟩ := add_made hg hs
        exact ⟨hst, hops x (by simp)⟩
      obtain ⟨v, hvx, hvs⟩ : ∃ v, vals x = [v] ∧ v.shape = -1 :: rest := by
        have := (hshapes x hxt).1
        rw [k1] at this
        exact List.map_eq_singleton_iff.1 this
      have hvf := program_fine hp h hm hv hxt v (by rw [hvx]; simp)
      obtain ⟨n, hn⟩ : ∃ n : Nat, v.shapeNow = (n : Int) :: rest := by
        have hfull := hvf.full.1
        have e : v.present.shape = v.shapeNow := rfl
        rw [e] at hfull
        unfold Arr.shapeNow Arr.dynamic at hfull ⊢
        rw [hvs] at hfull ⊢
        simp only [dynamicShape, List.drop_one, List.tail_cons] at hfull ⊢
        refine ⟨((v.data.length : Int) / rowSize (-1 :: rest)).toNat, ?_⟩
        rw [Int.toNat_of_nonneg (hfull _ (by simp))]
        simp
      have hlen : v.present.shape.length = (s.row x).out.shape.length := by
        show v.shapeNow.length = _
        rw [hn, ← row_prefix hst.1 hst.2]
        have e : (M.rows.row x).out.shape = -1 :: rest := congrArg Kind.shape1 k1
        rw [e]
        rfl
      have hpad : padded (idx.map PyIndex.mixed) v.present.shape.length =
          (PyIndex.pad idx (s.row x).out.shape.length).map PyIndex.mixed := by rw [PyIndex.mixed_pad, hlen]
      have hjv : vals j = [⟨-1 :: selectShape rest more, basicSelect ((n : Int) :: rest) v.data bs⟩] := by
        have hval := hf j hjt
        have hdec : (M.rows.row j).decision = false := by unfold Row.decision; rw [k2]; rfl
        rw [hdec] at hval
        simp only [Bool.false_eq_true, if_false] at hval
        rw [hval, k3]
        unfold Row.node
        rw [k2]
        simp only [List.map_cons, List.map_nil, hvx]
        show [(⟨P.shape, basicSelect v.shapeNow v.data bs⟩ : Arr Rat)] = _
        rw [hn, k7]
      have hok : Ok v.present.shape ((PyIndex.pad idx (s.row x).out.shape.length).map PyIndex.mixed) := by
        rw [selectOk_basics, ← e1, k4]
        show SelectOk v.shapeNow _
        rw [hn]
        exact ⟨k5.step, k5.row⟩
      refine ⟨v, [], _, hvx, by rw [e3]; rfl, hjv, ?_⟩
      unfold numpyGetitem
      rw [hpad, if_pos ⟨hok, by rw [arrayAxes_none e2]; exact .nil, by simp⟩, List.map_nil, ← numpyIndex_basic hok e2, ← e1]
      have e : v.present.shape = (n : Int) :: rest := hn
      rw [e, k4, basic_present k5 k6]
      rfl
    · split at hg
      · rename_i os hos
        exact absurd (varying_advanced hmade h.regular hg hs) hdyn
      · obtain ⟨r, hr, hg⟩ := Res.bind_eq_ok.1 hg
        obtain ⟨b, hb, hg⟩ := Res.bind_eq_ok.1 hg
        obtain ⟨bs', bj⟩ := b
        have hadv := varying_advanced hmade h.regular hg hs
        have hst : bs' <+: M.rows := (add_made hg hs).2.1
        obtain ⟨rest, a, b, c, more, P, k1, k2, k3, k4, k5, k6, k7, k8⟩ := varying_basic hmade h.regular hb hst hdyn
        have e : (M.rows.row bj).out.shape = -1 :: selectShape rest more := congrArg Kind.shape1 k8
        have := hadv (-1) (by rw [e]; simp)
        omega

end Verif
