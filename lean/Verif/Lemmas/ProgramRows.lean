import Verif.Spec.Programs
import Verif.Lemmas.ScriptAdvanced
import Verif.Lemmas.ProgramSizes
import Verif.Lemmas.DeclaredWhole

set_option linter.unusedSectionVars false
set_option linter.unusedSimpArgs false
set_option linter.unusedVariables false

/-! Helper lemmas: the symbols made by a program, one by one. -/

namespace Verif

/-! ## Indexing with integers and slices -/

/-- What is shown of a symbol: it keeps its contract and gives arrays of the shape it declares, whose elements are elements of the
indexed array. -/
structure Indexed (ok : Arr Rat → Prop) (N : NodeSem Val Dif) (shape : List Int) (value : Arr Rat → List Rat) : Prop where
  settled : ∃ C : Settled ([] : Dif) N, C.Propagates ValRel
  accepts : ∀ x, ok x → N.ok [[x]]
  computes : ∀ xs, N.f xs = [⟨shape, value (single (xs.headD []))⟩]
  wf : ∀ x, ok x → (⟨shape, value x⟩ : Arr Rat).WF
  mem : ∀ x, ok x → ∀ v ∈ value x, v ∈ x.data

theorem getD_mem_of_lt {l : List Rat} {i : Nat} {d : Rat} (h : i < l.length) : l.getD i d ∈ l := by
  rw [List.getD_eq_getElem?_getD, List.getElem?_eq_getElem h]
  exact List.getElem_mem h

theorem basicSelect_mem {sh : List Int} {idx : List BasicIndex} {data : List Rat} (ho : SelectOk sh idx)
    (hl : (data.length : Int) = shapeProd sh) : ∀ v ∈ basicSelect sh data idx, v ∈ data := by
  intro v hv
  obtain ⟨c, hc, rfl⟩ := List.mem_map.1 hv
  have := (selectCoords_inShape ho hc).rowMajor_range
  exact getD_mem_of_lt (by omega)

/-- An array of fixed size. -/
theorem indexed_fixed {sh : List Int} {idx : List BasicIndex} {Q : Parsed} (hd : ∀ d ∈ sh, 0 ≤ d ∧ d ≤ ssMax)
    (hf : ∀ i ∈ idx, i.Fits) (hQ : basicParse sh idx = .ok Q) (hc : Q.contiguous = true)
    (hin : Q.start + shapeProd Q.shape ≤ shapeProd sh) :
    Q.axis0 = none ∧ (∀ d ∈ Q.shape, 0 ≤ d) ∧
    Indexed (fun x => x.shape = sh ∧ x.WF ∧ (x.data.length : Int) ≤ ssMax) (liftNode (basicNode sh idx Q)) Q.shape
      (fun x => basicSelect x.shapeNow x.data idx) := by
  have ho : SelectOk sh idx := by
    by_contra hn
    rw [(C30_accepts sh idx hd hf).2 hn] at hQ
    cases hQ
  obtain ⟨C⟩ := inside_contract (α := Rat) sh idx Q hd ho hf hQ hc hin
  obtain ⟨st, start, hQ', hl, h0, h1, h2, h3⟩ := parse_fixed hd ho hf
  have hQe : Q = ⟨selectShape sh idx, st.map (8 * ·), start, none⟩ := by
    rw [hQ] at hQ'
    exact Res.ok.inj hQ'
  have hfix : dynamicShape sh = false := not_dynamic fun d h => (hd d h).1
  have hnow : ∀ x : Arr Rat, x.shape = sh → x.shapeNow = sh := by
    rintro ⟨_, data⟩ rfl
    exact shapeNow_fixed fun d h => (hd d h).1
  have hlen : ∀ x : Arr Rat, x.shape = sh → x.WF → (x.data.length : Int) = shapeProd sh := by
    intro x hs hw
    have := hw.length_fixed (by rw [hs]; exact hfix)
    rw [shapeProd_eq, this, hs]
  have hq0 : ∀ d ∈ Q.shape, 0 ≤ d := by rw [hQe]; exact h0
  refine ⟨by rw [hQe], hq0, ⟨⟨(liftContract C).toSettled, (liftContract C).propagates⟩, ?_, ?_, ?_, ?_⟩⟩
  · rintro x ⟨hs, hw, hb⟩
    exact ⟨by simpa using (show (single [x]).WF from hw), x, rfl, hs, hw, hb⟩
  · intro xs
    cases xs with
    | nil => rfl
    | cons x xs => rfl
  · rintro x ⟨hs, hw, hb⟩
    refine wf_of_count hq0 ?_
    rw [hnow x hs, basicSelect_eq sh x.data idx _ st start h3, List.length_map, hQe]
    exact length_allCoords_nonneg h0
  · rintro x ⟨hs, hw, hb⟩
    rw [hnow x hs]
    exact basicSelect_mem ho (hlen x hs hw)

theorem rows_of_wf {rest : List Int} (hpos : 0 < shapeProd rest) {x : Arr Rat} (hs : x.shape = -1 :: rest) (hw : x.WF) :
    ∃ n : Nat, (x.data.length : Int) = n * shapeProd rest ∧ x.shapeNow = (n : Int) :: rest := by
  obtain ⟨sh, data⟩ := x
  subst hs
  unfold Arr.WF Arr.dynamic at hw
  simp only [dynamicShape, show ((-1 : Int) < 0) from by decide, decide_true, if_true] at hw
  obtain ⟨q, hq⟩ := hw
  have hr : rowSize (-1 :: rest) = shapeProd rest := by simp [rowSize, shapeProd_eq]
  have hq : (data.length : Int) = shapeProd rest * q := by rw [← hr]; exact hq
  have hq0 : 0 ≤ q := by
    by_contra hn
    have : shapeProd rest * q < 0 := Int.mul_neg_of_pos_of_neg hpos (by omega)
    omega
  refine ⟨q.toNat, by rw [Int.toNat_of_nonneg hq0, hq, mul_comm], ?_⟩
  unfold Arr.shapeNow Arr.dynamic
  simp only [dynamicShape, show ((-1 : Int) < 0) from by decide, decide_true, if_true]
  rw [hr, hq, Int.mul_ediv_cancel_left _ (by omega), Int.toNat_of_nonneg hq0]
  rfl

/-- A dynamic array. -/
theorem indexed_dynamic {rest : List Int} {a b c : Option Int} {more : List BasicIndex} {Q : Parsed} (hD : DynIndex rest a b c more)
    (hQ : basicParse (-1 :: rest) (.slice a b c :: more) = .ok Q) (hc : Q.contiguous = true)
    (hpos : ∀ d ∈ selectShape rest more, 0 < d) (hrow : shapeProd rest = 1 ∨ (a.getD 0 = 0 ∧ b = none)) :
    (∃ sl, Slice.make a b c = .ok sl ∧ Q.axis0 = some sl) ∧ Q.shape = -1 :: selectShape rest more ∧
    Indexed (fun x => x.shape = -1 :: rest ∧ x.WF ∧ (x.data.length : Int) ≤ ssMax)
      (liftNode (basicNode (-1 :: rest) (.slice a b c :: more) Q)) Q.shape
      (fun x => basicSelect x.shapeNow x.data (.slice a b c :: more)) := by
  obtain ⟨C⟩ := dynamic_contract (α := Rat) rest a b c more Q hD hQ hc hpos hrow
  obtain ⟨sl, st, start, h1, h2, h3, h4, h5, h6, h7, h8⟩ := hD.parse
  have hQe := Res.ok.inj (hQ.symm.trans h3)
  have hsh : Q.shape = -1 :: selectShape rest more := by rw [hQe]
  have hp := hD.pos
  refine ⟨⟨sl, h1, by rw [hQe]⟩, hsh, ⟨⟨(liftContract C).toSettled, (liftContract C).propagates⟩, ?_, ?_, ?_, ?_⟩⟩
  · rintro x ⟨hs, hw, hb⟩
    exact ⟨by simpa using (show (single [x]).WF from hw), x, rfl, hs, hw, hb⟩
  · intro xs
    cases xs with
    | nil => rfl
    | cons x xs => rfl
  · rintro x ⟨hs, hw, hb⟩
    obtain ⟨n, hn, hnow⟩ := rows_of_wf hp hs hw
    have hn' : (n : Int) ≤ ssMax := by nlinarith
    obtain ⟨k, k1, k2, k3, k4, k5⟩ := h8 n hn'
    rw [hsh, hnow]
    have e : ((basicSelect ((n : Int) :: rest) x.data (.slice a b c :: more)).length : Int) = k * shapeProd (selectShape rest more) := by
      unfold basicSelect
      have := congrArg List.length k5
      simp only [List.length_map] at this
      rw [List.length_map, ← this, length_allCoords_nonneg]
      · rfl
      · intro d hd
        rcases List.mem_cons.1 hd with rfl | hd
        · omega
        · exact h5 d hd
    unfold Arr.WF Arr.dynamic
    simp only [dynamicShape, show ((-1 : Int) < 0) from by decide, decide_true, if_true]
    refine ⟨k, ?_⟩
    rw [e]
    simp only [rowSize, List.drop_succ_cons, List.drop_zero]
    rw [shapeProd_eq, mul_comm]
  · rintro x ⟨hs, hw, hb⟩
    obtain ⟨n, hn, hnow⟩ := rows_of_wf hp hs hw
    rw [hnow]
    exact basicSelect_mem ⟨hD.step, hD.row⟩ (by simpa [shapeProd] using hn)

open SizeInfo in
theorem ofSlice_one {x : Nat} {sl : Slice} {z : SizeInfo} (hs : sl.step = 1) (h : SizeInfo.ofSlice x 1 1 sl = .ok z) :
    z = ⟨some x, 1, (if sl.start > 0 then -sl.start else 0) +
      (if sl.stop > 0 ∧ sl.stop ≠ ssMax then 0 else if sl.stop < 0 then sl.stop else 0), none,
      if sl.stop > 0 ∧ sl.stop ≠ ssMax then some sl.stop else if sl.start < 0 then some (-sl.start) else none⟩ := by
  unfold SizeInfo.ofSlice at h
  obtain ⟨_, _, h⟩ := Res.bind_eq_ok.1 h
  obtain ⟨_, _, h⟩ := Res.bind_eq_ok.1 h
  simp only [Res.ok.injEq] at h
  rw [← h, hs]
  have e : (1 / ((1 : Int) : Rat) * ((1 : Int) : Rat) / ((1 : Int) : Rat)) = 1 := by norm_num
  rw [e]
  have e2 : ∀ k : Int, truncate ((1 : Rat) * -1 * (k : Rat)) = -k := by
    intro k
    rw [show ((1 : Rat) * -1 * (k : Rat)) = ((-k : Int) : Rat) by push_cast; ring]
    exact truncate_int _
  have e3 : ∀ k : Int, truncate ((1 : Rat) * (k : Rat)) = k := by
    intro k; rw [one_mul]; exact truncate_int k
  simp only [e2, e3]

theorem slice_cut {a b : Option Int} (hb : Script.SayingSlice a b) (hf : (BasicIndex.slice a b none).Fits) {sl : Slice}
    (hsl : Slice.make a b none = .ok sl) {x : Nat} {z : SizeInfo} (hz : SizeInfo.ofSlice x 1 1 sl = .ok z) {l : List Rat}
    (hn : (l.length : Int) ≤ ssMax) :
    ∃ M o, z = ⟨some x, 1, o, none, M⟩ ∧ ((sliceOf a b l).length : Int) = SizeInfo.cut l.length M o := by
  have e : sl = ⟨a.getD 0, b.getD ssMax, 1⟩ := by
    simp [Slice.make] at hsl
    exact hsl.symm
  subst e
  refine ⟨_, _, ofSlice_one rfl hz, ?_⟩
  have hl : (sliceOf a b l).length = sliceHi a b l.length - sliceLo a b l.length := by
    obtain ⟨_, _, h3, h4⟩ := pyIndices_one a b l.length
    simp [sliceOf, Nat.min_eq_left h4]
  obtain ⟨h1, h2, h3, h4⟩ := pyIndices_one a b l.length
  rw [hl]
  simp only [pyIndices] at h1 h2
  unfold Script.SayingSlice at hb
  unfold SizeInfo.cut
  simp only [BasicIndex.Fits, IsSS, ssMax, ssMin] at hf hn ⊢
  have hsub : ((sliceHi a b l.length - sliceLo a b l.length : Nat) : Int) =
      max 0 ((sliceHi a b l.length : Int) - sliceLo a b l.length) := by omega
  rw [hsub, ← h1, ← h2]
  clear hsub h1 h2 h3 h4 hl hz hsl
  have hn0 : 0 ≤ (l.length : Int) := by omega
  generalize (l.length : Int) = n at hn hn0 ⊢
  obtain ⟨f1, f2, -⟩ := hf
  obtain ⟨b0, b1⟩ := hb
  cases a with
  | none =>
    cases b with
    | none => simp
    | some b =>
      have := f2 b rfl
      simp at b0 b1 ⊢
      split_ifs <;> simp <;> omega
  | some a =>
    have := f1 a rfl
    cases b with
    | none =>
      simp at b0 b1 ⊢
      split_ifs <;> simp <;> omega
    | some b =>
      have := f2 b rfl
      simp at b0 b1 ⊢
      split_ifs <;> simp <;> omega

/-! ## Indexing with arrays -/

theorem advLeft_le {kinds : List Bool} {shape : List Int} (hl : kinds.length = shape.length) :
    advLeft kinds ≤ (sliceDims kinds shape).length := by
  unfold advLeft
  split_ifs
  · omega
  · exact leading_le_slices hl

theorem shapeProd_append (l r : List Int) : shapeProd (l ++ r) = shapeProd l * shapeProd r := by
  rw [shapeProd_eq, shapeProd_eq, shapeProd_eq, List.prod_append]

theorem sliceDims_whole : ∀ {kinds : List Bool} {shape : List Int}, (∀ k ∈ kinds, k = true) → sliceDims kinds shape = []
  | [], _, _ => by simp [sliceDims]
  | true :: kinds, [], _ => by simp [sliceDims]
  | true :: kinds, d :: shape, h => by
    simp only [sliceDims]
    exact sliceDims_whole fun k hk => h k (by simp [hk])
  | false :: kinds, _, h => absurd (h false (by simp)) (by decide)

theorem advInputs_head {sh : List Int} {idx : List (Option Indexer)} {f : Indexer} (hacc : AdvAccept sh idx f) {ys : List (Arr Rat)}
    (hin : AdvInputs idx ys) : ∃ y rest, ys = y :: rest ∧ f.Fits y := by
  obtain ⟨y, rest, h1, h2, _⟩ := hacc.firstArray hin
  exact ⟨y, rest, h1, h2⟩

theorem advanced_good {sh : List Int} {idx : List (Option Indexer)} {f : Indexer} (hacc : AdvAccept sh idx f) (hd : ∀ d ∈ sh, 0 < d)
    (hgf : GoodShape f.shape) : GoodShape (advBuilt sh idx f).shape := by
  have hpos := sliceDims_pos (kinds := idx.map Option.isSome) hd
  by_cases hdy : dynamicShape f.shape = true
  · have hfr : advFront (idx.map Option.isSome) f = true := by
      by_contra hn
      exact hacc.fixed (by simpa using hn) f (List.mem_of_mem_head? hacc.first) hdy
    have : (advBuilt sh idx f).shape = f.shape ++ sliceDims (idx.map Option.isSome) sh := by
      simp only [advBuilt, if_pos hfr]
    rw [this]
    have hr := hacc.rank
    match hfs : f.shape, hr with
    | [], _ => rw [hfs] at hdy; cases hdy
    | [k], _ =>
      rw [hfs] at hgf
      refine ⟨?_, by simpa using hgf.2⟩
      intro d hd'
      exact (hpos d (by simpa using hd')).le
  · have hf0 := Kind.nonneg_of_good hgf (by simpa using hdy)
    refine Kind.good_of_nonneg fun d h => ?_
    rw [hacc.shape_eq] at h
    unfold advShape at h
    rcases List.mem_append.1 h with h | h
    · rcases List.mem_append.1 h with h | h
      · exact (hpos d (List.mem_of_mem_take h)).le
      · exact hf0 d h
    · exact (hpos d (List.mem_of_mem_drop h)).le

/-- The shape of the result, and the number of its elements. -/
theorem advanced_wf {sh : List Int} {idx : List (Option Indexer)} {f : Indexer} (hacc : AdvAccept sh idx f) (hd : ∀ d ∈ sh, 0 < d)
    (hgf : GoodShape f.shape) {ys : List (Arr Rat)} (hin : AdvInputs idx ys) (data : List Rat) :
    (⟨(advBuilt sh idx f).shape, advSelect (idx.map Option.isSome) sh data (Adv.indexAt ys) (ys.headD ⟨[], []⟩).data.length⟩ : Arr Rat).WF ∧
    ((∀ o ∈ idx, o.isSome = true) → (advBuilt sh idx f).shape = f.shape ∧
      (advSelect (idx.map Option.isSome) sh data (Adv.indexAt ys) (ys.headD ⟨[], []⟩).data.length).length =
        (ys.headD ⟨[], []⟩).data.length) := by
  have hlk : (idx.map Option.isSome).length = sh.length := by rw [List.length_map]; exact hacc.len
  have hcount : ((advSelect (idx.map Option.isSome) sh data (Adv.indexAt ys) (ys.headD ⟨[], []⟩).data.length).length : Int) =
      (ys.headD ⟨[], []⟩).data.length * shapeProd (sliceDims (idx.map Option.isSome) sh) := by
    unfold advSelect
    rw [List.length_map]
    exact advCoords_length (advLeft_le hlk) fun d h => sliceDims_pos hd d h
  have hpos := sliceDims_pos (kinds := idx.map Option.isSome) hd
  have hprod : shapeProd (advShape (idx.map Option.isSome) sh f.shape) =
      shapeProd f.shape * shapeProd (sliceDims (idx.map Option.isSome) sh) := by
    unfold advShape
    rw [shapeProd_append, shapeProd_append, mul_comm (shapeProd (List.take _ _)), mul_assoc, ← shapeProd_append, List.take_append_drop]
  obtain ⟨y, rest, hy, hyf⟩ := advInputs_head hacc hin
  have hw := hyf.wf
  unfold Arr.WF Arr.dynamic at hw
  rw [hyf.shape] at hw
  rw [hy] at hcount ⊢
  simp only [List.headD_cons] at hcount ⊢
  have hwhole : (∀ o ∈ idx, o.isSome = true) → sliceDims (idx.map Option.isSome) sh = [] := fun h =>
    sliceDims_whole fun k hk => by
      obtain ⟨o, ho, rfl⟩ := List.mem_map.1 hk
      exact h o ho
  refine ⟨?_, fun h => ?_⟩
  · unfold Arr.WF Arr.dynamic
    by_cases hdy : dynamicShape f.shape = true
    · have hfr : advFront (idx.map Option.isSome) f = true := by
        by_contra hn
        exact hacc.fixed (by simpa using hn) f (List.mem_of_mem_head? hacc.first) hdy
      have : (advBuilt sh idx f).shape = f.shape ++ sliceDims (idx.map Option.isSome) sh := by
        simp only [advBuilt, if_pos hfr]
      rw [this]
      have hr := hacc.rank
      match hfs : f.shape, hr with
      | [], _ => rw [hfs] at hdy; cases hdy
      | [k], _ =>
        rw [hfs] at hdy
        have hk : k < 0 := by simpa [dynamicShape] using hdy
        simp only [List.singleton_append, dynamicShape, hk, decide_true, if_true]
        refine ⟨y.data.length, ?_⟩
        rw [hcount]
        simp only [rowSize, List.drop_succ_cons, List.drop_zero]
        rw [shapeProd_eq, mul_comm]
    · have hf0 := Kind.nonneg_of_good hgf (by simpa using hdy)
      rw [if_neg hdy] at hw
      have hnn : ∀ d ∈ (advBuilt sh idx f).shape, 0 ≤ d := by
        intro d h
        rw [hacc.shape_eq] at h
        unfold advShape at h
        rcases List.mem_append.1 h with h | h
        · rcases List.mem_append.1 h with h | h
          · exact (hpos d (List.mem_of_mem_take h)).le
          · exact hf0 d h
        · exact (hpos d (List.mem_of_mem_drop h)).le
      rw [if_neg (by rw [not_dynamic hnn]; simp)]
      show (List.length _ : Int) = _
      rw [hcount, hw, ← shapeProd_eq, ← shapeProd_eq, hacc.shape_eq, hprod]
  · refine ⟨?_, ?_⟩
    · rw [hacc.shape_eq]
      unfold advShape
      rw [hwhole h]
      simp
    · rw [hwhole h] at hcount
      simp [shapeProd] at hcount
      exact_mod_cast hcount

theorem InShape.append : ∀ {s t p q : List Int}, InShape s p → InShape t q → InShape (s ++ t) (p ++ q)
  | [], _, [], _, _, h => h
  | d :: s, t, i :: p, q, h, h' => ⟨h.1, h.2.1, InShape.append h.2.2 h'⟩

theorem advSelect_mem {sh : List Int} {idx : List (Option Indexer)} {f : Indexer} (hacc : AdvAccept sh idx f) {ys : List (Arr Rat)}
    (hin : AdvInputs idx ys) {data : List Rat} (hl : (data.length : Int) = shapeProd sh) :
    ∀ v ∈ advSelect (idx.map Option.isSome) sh data (Adv.indexAt ys) (ys.headD ⟨[], []⟩).data.length, v ∈ data := by
  intro v hv
  obtain ⟨c, hc, rfl⟩ := List.mem_map.1 hv
  have hI := hacc.indices hin
  have hlk : (idx.map Option.isSome).length = sh.length := by rw [List.length_map]; exact hacc.len
  obtain ⟨p, hp, hc⟩ := List.mem_flatMap.1 hc
  obtain ⟨t, ht, hc⟩ := List.mem_flatMap.1 hc
  obtain ⟨q, hq, rfl⟩ := List.mem_map.1 hc
  have h1 := mem_allCoords.1 hp
  have h2 := mem_allCoords.1 hq
  have h3 := hI.inside t (List.mem_range.1 ht)
  have h4 := InShape.merge hlk h3 (by simpa only [List.take_append_drop] using h1.append h2)
  have := h4.rowMajor_range
  exact getD_mem_of_lt (by omega)

/-- The symbol `x[arrays]`. -/
theorem advanced_row {sh : List Int} {idx : List (Option Indexer)} {f : Indexer} (hacc : AdvAccept sh idx f) (hd : ∀ d ∈ sh, 0 < d)
    (hgf : GoodShape f.shape) {base : Option (Arr Rat)} (hbase : ∀ a, base = some a → a.shape = sh ∧ a.WF)
    (hsep : base = none → ¬ (separated (idx.map Option.isSome) = true ∧ 0 < leading (idx.map Option.isSome) ∧ f.shape ≠ []))
    (ins : List Info) (out : Info) :
    (∃ C : Settled ([] : Dif) ((Built.advanced idx (advBuilt sh idx f) base).node ins out),
      (∀ xs, ((Built.advanced idx (advBuilt sh idx f) base).node ins out).ok xs →
        (((Built.advanced idx (advBuilt sh idx f) base).node ins out).f xs).map Arr.shape = [(advBuilt sh idx f).shape]) ∧
      C.Propagates ValRel) ∧
    ∀ x ys, x.shape = sh → x.WF → (∀ a, base = some a → x = a) → AdvInputs idx ys →
      ((Built.advanced idx (advBuilt sh idx f) base).node ins out).ok ([x] :: ys.map fun y => [y]) ∧
      ∃ data, ((Built.advanced idx (advBuilt sh idx f) base).node ins out).f ([x] :: ys.map fun y => [y]) =
          [⟨(advBuilt sh idx f).shape, data⟩] ∧
        (⟨(advBuilt sh idx f).shape, data⟩ : Arr Rat).WF ∧ (∀ v ∈ data, v ∈ x.data) ∧
        ((∀ o ∈ idx, o.isSome = true) → data.length = (ys.headD ⟨[], []⟩).data.length) := by
  constructor
  · cases base with
    | none => exact ⟨(liftContract (advContract hacc hd (hsep rfl))).toSettled, fun _ _ => rfl, (liftContract (advContract hacc hd (hsep rfl))).propagates⟩
    | some a =>
      obtain ⟨h1, h2⟩ := hbase a rfl
      exact ⟨(liftConstContract a (advConstantContract hacc hd h1 h2)).toSettled, fun _ _ => rfl,
        (liftConstContract a (advConstantContract hacc hd h1 h2)).propagates⟩
  · intro x ys hs hw hxa hin
    have hss : ((ys.map fun y => [y]).map single) = ys := by
      rw [List.map_map]
      exact List.map_id _
    have hwf : ∀ y ∈ ys, y.WF := by
      intro y hy
      have h := hin.fits
      clear hin hss
      generalize idx.reduceOption = l at h
      induction h with
      | nil => cases hy
      | cons h _ ih =>
        rcases List.mem_cons.1 hy with rfl | hy
        · exact h.wf
        · exact ih hy
    have hnow : x.shapeNow = sh := by
      obtain ⟨_, data⟩ := x
      subst hs
      exact shapeNow_fixed fun d h => (hd d h).le
    have hlen : (x.data.length : Int) = shapeProd sh := by
      have hfix : dynamicShape sh = false := not_dynamic fun d h => (hd d h).le
      have := hw.length_fixed (by rw [hs]; exact hfix)
      rw [shapeProd_eq, this, hs]
    obtain ⟨k2, k3⟩ := advanced_wf hacc hd hgf hin x.data
    have k4 := advSelect_mem hacc hin hlen
    have hval : (advBuilt sh idx f).select x ys =
        advSelect (idx.map Option.isSome) sh x.data (Adv.indexAt ys) (ys.headD ⟨[], []⟩).data.length := by
      unfold Adv.select
      rw [hnow]
      rfl
    rw [← hval] at k2 k3 k4
    cases base with
    | none =>
      refine ⟨⟨?_, ?_⟩, _, ?_, k2, k4, fun h => (k3 h).2⟩
      · intro q hq
        rcases List.mem_cons.1 hq with rfl | hq
        · exact ⟨rfl, hw⟩
        · obtain ⟨y, hy, rfl⟩ := List.mem_map.1 hq
          exact ⟨rfl, hwf y hy⟩
      · refine ⟨x, ys, ?_, hs, hw, hin⟩
        simp only [List.map_cons]
        rw [hss]
        rfl
      · show [(⟨(advBuilt sh idx f).shape, (advBuilt sh idx f).select (single [x]) ((ys.map fun y => [y]).map single)⟩ : Arr Rat)] = _
        rw [hss]
        rfl
    | some a =>
      obtain rfl := hxa a rfl
      refine ⟨⟨ys.map fun y => [y], rfl, ?_, ?_⟩, _, ?_, k2, k4, fun h => (k3 h).2⟩
      · intro q hq
        obtain ⟨y, hy, rfl⟩ := List.mem_map.1 hq
        exact ⟨rfl, hwf y hy⟩
      · rw [hss]; exact hin
      · show [(⟨(advBuilt sh idx f).shape, (advBuilt sh idx f).select x ((ys.map fun y => [y]).map single)⟩ : Arr Rat)] = _
        rw [hss]

end Verif
