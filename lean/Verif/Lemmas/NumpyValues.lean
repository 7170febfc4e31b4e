import Verif.Lemmas.NumpyZip
import Verif.Props.Modulus
import Verif.Props.Build

set_option linter.unusedSimpArgs false

/-! Helper lemmas: the values of symbols are what NumPy computes. -/

namespace Verif

/-- An array as the symbols show it. -/
structure Arr.Fine (x : Arr Rat) : Prop where
  good : GoodShape x.shape
  wf : x.WF

theorem present_shape_eq {x y : Arr Rat} (hs : x.shape = y.shape) (hl : x.data.length = y.data.length) : x.shapeNow = y.shapeNow := by
  unfold Arr.shapeNow Arr.dynamic
  rw [hs, hl]

theorem present_shape_fixed {x : Arr Rat} (h : dynamicShape x.shape = false) : x.shapeNow = x.shape := by
  simp [Arr.shapeNow, Arr.dynamic, h]

theorem present_fixed {x : Arr Rat} (h : dynamicShape x.shape = false) : x.present = x := by
  simp [Arr.present, present_shape_fixed h]

theorem fixed_of_nonneg {s : List Int} (h : ∀ d ∈ s, 0 ≤ d) : dynamicShape s = false := by
  cases s with
  | nil => rfl
  | cons d s => simpa [dynamicShape] using h d (by simp)

theorem Arr.Fine.full {x : Arr Rat} (h : x.Fine) : x.present.Full := by
  cases hd : dynamicShape x.shape with
  | false =>
    rw [present_fixed hd]
    refine ⟨Kind.nonneg_of_good h.good hd, ?_⟩
    have := h.wf
    simpa [Arr.WF, Arr.dynamic, hd, shapeProd_eq] using this
  | true =>
    have hrow : 0 ≤ rowSize x.shape := prod_nonneg_list h.good.1
    have hw := h.wf
    simp only [Arr.WF, Arr.dynamic, hd, if_true] at hw
    simp only [Arr.Full, Arr.present, Arr.shapeNow, Arr.dynamic, hd, if_true]
    refine ⟨fun d hd' => ?_, ?_⟩
    · rcases List.mem_cons.1 hd' with rfl | hd'
      · exact Int.ediv_nonneg (by omega) hrow
      · exact h.good.1 d hd'
    · rw [shapeProd_eq, List.prod_cons]
      exact (Int.ediv_mul_cancel hw).symm

theorem ones_of_sizeOne {x : Arr Rat} (h : x.Fine) (h1 : sizeOne x.shape = true) : dynamicShape x.shape = false ∧ ∀ d ∈ x.shape, d = 1 := by
  simp only [sizeOne, Bool.and_eq_true, Bool.not_eq_true', decide_eq_true_eq] at h1
  exact ⟨h1.1, prod_one_of_nonneg (Kind.nonneg_of_good h.good h1.1) h1.2⟩

theorem UnaryOp.func_numpy (op : UnaryOp) : op.func = op.numpy := by
  funext x
  cases op <;> simp only [UnaryOp.func, UnaryOp.numpy]
  · split_ifs with h
    · exact (abs_of_neg h).symm
    · exact (abs_of_nonneg (le_of_not_gt h)).symm
  · by_cases h : x = 0 <;> simp [ofBool, truth, h]
  · by_cases h : x = 0 <;> simp [ofBool, truth, h]
  · rw [pow_two]

theorem BinaryOp.func_numpy (op : BinaryOp) : op.func = op.numpy := by
  funext x y
  cases op <;> simp only [BinaryOp.func, BinaryOp.numpy]
  · by_cases h : x = 0 <;> by_cases h' : y = 0 <;> simp [ofBool, truth, h, h']
  · by_cases h : x = y <;> simp [ofBool, h]
  · by_cases h : x ≤ y <;> simp [ofBool, h]
  · split_ifs with h
    · exact (max_eq_right h.le).symm
    · exact (max_eq_left (le_of_not_gt h)).symm
  · split_ifs with h
    · exact (min_eq_right h.le).symm
    · exact (min_eq_left (le_of_not_gt h)).symm
  · rw [C38_modulus_eq_numpy]
    rfl
  · by_cases h : x = 0 <;> by_cases h' : y = 0 <;> simp [ofBool, truth, h, h']
  · by_cases h : x = 0 <;> by_cases h' : y = 0 <;> simp [ofBool, truth, h, h']

theorem unary_present (f : Rat → Rat) (x : Arr Rat) :
    (⟨x.shape, x.data.map f⟩ : Arr Rat).present = ⟨x.present.shape, x.present.data.map f⟩ := by
  simp only [Arr.present]
  rw [present_shape_eq (x := ⟨x.shape, x.data.map f⟩) (y := x) rfl (by simp)]

theorem binary_numpy {op : Rat → Rat → Rat} {x y : Arr Rat} {s : List Int} (hx : x.Fine) (hy : y.Fine)
    (hs : binaryShape x.shape y.shape = .ok s)
    (hr : (dynamicShape x.shape = true → y.shape.length < x.shape.length) ∧ (dynamicShape y.shape = true → x.shape.length < y.shape.length)) :
    numpyZip op x.present y.present = some (⟨s, binaryValue op x y⟩ : Arr Rat).present := by
  simp only [binaryShape, Res.bind_eq_ok, Res.ok.injEq] at hs
  obtain ⟨s', hb, _, hg, rfl⟩ := hs
  have hg := guardThrow_eq_ok.1 hg
  have hdims := (dims_of_broadcast hb).2
  by_cases h1 : sizeOne x.shape = true
  · obtain ⟨hxd, hxo⟩ := ones_of_sizeOne hx h1
    rw [(dims_ones hxo).2] at hdims
    rw [present_fixed hxd, numpyZip_left hxo hy.full]
    cases hyd : dynamicShape y.shape with
    | true =>
      have hl := hr.2 hyd
      rw [show x.shape.length - y.shape.length = 0 by omega] at hdims
      simp only [List.replicate_zero, List.nil_append] at hdims
      subst hdims
      have hl' : y.present.shape.length = y.shape.length := by
        simp only [Arr.present, Arr.shapeNow, Arr.dynamic, hyd, if_true, List.length_cons, List.length_drop]
        cases hc : y.shape with
        | nil => rw [hc] at hyd; cases hyd
        | cons d r => simp
      rw [hl', show x.shape.length - y.shape.length = 0 by omega]
      simp only [List.replicate_zero, List.nil_append, binaryValue, if_pos h1]
      rw [unary_present]
      rfl
    | false =>
      have hn := Kind.nonneg_of_good hy.good hyd
      rw [present_fixed hyd, hdims, present_fixed (x := ⟨s', binaryValue op x y⟩)]
      · simp only [binaryValue, if_pos h1]
        rfl
      · refine fixed_of_nonneg fun d hd => ?_
        rw [← hdims] at hd
        rcases List.mem_append.1 hd with hd | hd
        · rw [List.eq_of_mem_replicate hd]; decide
        · exact hn d hd
  · by_cases h2 : sizeOne y.shape = true
    · obtain ⟨hyd, hyo⟩ := ones_of_sizeOne hy h2
      rw [(dims_ones_right hyo).2] at hdims
      rw [present_fixed hyd, numpyZip_right hyo hx.full]
      cases hxd : dynamicShape x.shape with
      | true =>
        have hl := hr.1 hxd
        rw [show y.shape.length - x.shape.length = 0 by omega] at hdims
        simp only [List.replicate_zero, List.nil_append] at hdims
        subst hdims
        have hl' : x.present.shape.length = x.shape.length := by
          simp only [Arr.present, Arr.shapeNow, Arr.dynamic, hxd, if_true, List.length_cons, List.length_drop]
          cases hc : x.shape with
          | nil => rw [hc] at hxd; cases hxd
          | cons d r => simp
        rw [hl', show y.shape.length - x.shape.length = 0 by omega]
        simp only [List.replicate_zero, List.nil_append, binaryValue, if_neg h1, if_pos h2]
        rw [unary_present]
        rfl
      | false =>
        have hn := Kind.nonneg_of_good hx.good hxd
        rw [present_fixed hxd, hdims, present_fixed (x := ⟨s', binaryValue op x y⟩)]
        · simp only [binaryValue, if_neg h1, if_pos h2]
          rfl
        · refine fixed_of_nonneg fun d hd => ?_
          rw [← hdims] at hd
          rcases List.mem_append.1 hd with hd | hd
          · rw [List.eq_of_mem_replicate hd]; decide
          · exact hn d hd
    · obtain ⟨hd, he⟩ : ¬ (dynamicShape x.shape = true ∨ dynamicShape y.shape = true) ∧ x.shape = y.shape := by
        rcases hg with h | h | h
        · exact absurd h h1
        · exact absurd h h2
        · exact h
      simp only [not_or, Bool.not_eq_true] at hd
      have fx := hx.full
      have fy := hy.full
      rw [present_fixed hd.1] at fx ⊢
      rw [present_fixed hd.2] at fy ⊢
      rw [he, (dims_self _).2] at hdims
      subst hdims
      rw [numpyZip_same he fx fy, present_fixed (x := ⟨y.shape, binaryValue op x y⟩) hd.2]
      simp only [binaryValue, if_neg h1, if_neg h2]

/-! ## n-ary symbols -/

theorem naryValue_data_length (op : Rat → Rat → Rat) (x : Arr Rat) (xs : List (Arr Rat)) : (naryValue op (x :: xs)).length = x.data.length := by
  simp [naryValue]

theorem naryValue_step {op : Rat → Rat → Rat} (hc : ∀ a b, op a b = op b a) (x y : Arr Rat) (ys : List (Arr Rat)) (s : List Int)
    (h : x.data.length = y.data.length) :
    naryValue op (x :: y :: ys) = naryValue op (⟨s, List.zipWith op x.data y.data⟩ :: ys) := by
  simp only [naryValue, List.length_zipWith, ← h, min_self]
  refine List.map_congr_left fun i hi => ?_
  have hi := List.mem_range.1 hi
  rw [List.foldl_cons, hc]
  congr 1
  simp [List.getD_eq_getElem?_getD, List.getElem?_zipWith, List.getElem?_eq_getElem hi, List.getElem?_eq_getElem (h ▸ hi)]

theorem nary_numpy {op : Rat → Rat → Rat} (hc : ∀ a b, op a b = op b a) {s : List Int} (hs : ∀ d ∈ s, 0 ≤ d) :
    ∀ {x : Arr Rat} {ys : List (Arr Rat)}, x.shape = s → x.Full → (∀ y ∈ ys, y.shape = s ∧ y.Full) →
    ys.foldlM (numpyZip op) x = some ⟨s, naryValue op (x :: ys)⟩
  | x, [], hx, _, _ => by
    rw [List.foldlM_nil]
    show some x = _
    congr 1
    have : naryValue op [x] = x.data := by
      simp only [naryValue, List.foldl_nil]
      apply List.ext_getElem
      · simp
      · intro i h1 h2
        simp [List.getElem?_eq_getElem h2]
    rw [this, ← hx]
  | x, y :: ys, hx, fx, hy => by
    have hy1 := hy y (by simp)
    have hl : x.data.length = y.data.length := by
      have h1 := fx.2
      have h2 := hy1.2.2
      rw [hx] at h1
      rw [hy1.1] at h2
      omega
    rw [List.foldlM_cons, numpyZip_same (hx.trans hy1.1.symm) fx hy1.2]
    show List.foldlM (numpyZip op) _ ys = _
    rw [nary_numpy hc hs (x := ⟨y.shape, List.zipWith op x.data y.data⟩) hy1.1 ?_ fun z hz => hy z (by simp [hz])]
    · rw [naryValue_step hc x y ys y.shape hl]
    · refine ⟨hy1.2.1, ?_⟩
      rw [List.length_zipWith, hl, min_self]
      exact hy1.2.2

theorem naryValue_append {op : Rat → Rat → Rat} (hc : ∀ a b, op a b = op b a) (x : Arr Rat) (xs : List (Arr Rat)) (y : Arr Rat)
    (h : x.data.length = y.data.length) :
    naryValue op (x :: xs ++ [y]) = List.zipWith op (naryValue op (x :: xs)) y.data := by
  simp only [naryValue, List.cons_append, List.foldl_append, List.foldl_cons, List.foldl_nil]
  apply List.ext_getElem
  · simp [h]
  · intro i h1 h2
    have hi : i < y.data.length := by rw [← h]; simpa using h1
    rw [List.getElem_map, List.getElem_range, List.getElem_zipWith, List.getElem_map, List.getElem_range, hc]
    simp [List.getElem?_eq_getElem hi]

/-! ## The others -/

theorem where_numpy {c x y : Arr Rat} {s : List Int} (hc : c.Fine) (hx : x.Fine) (hy : y.Fine) (hs : whereShape c.shape x.shape y.shape = .ok s)
    (hd : dynamicShape x.shape = false) (hl : sizeOne c.shape = true → c.shape.length ≤ x.shape.length) :
    numpyWhere c.present x.present y.present = some (⟨s, whereValue c.shape [c, x, y]⟩ : Arr Rat).present := by
  simp only [whereShape, Res.bind_eq_ok] at hs
  obtain ⟨_, he, hs⟩ := hs
  have he := guardThrow_eq_ok.1 he
  have hdy : dynamicShape y.shape = false := he ▸ hd
  have fx := hx.full
  have fy := hy.full
  rw [present_fixed hd] at fx ⊢
  rw [present_fixed hdy] at fy ⊢
  have hxx : s = x.shape ∧ (sizeOne c.shape = false → c.shape = x.shape) := by
    split_ifs at hs with h1
    · injection hs with hs
      exact ⟨hs.symm, fun h => by rw [h1] at h; cases h⟩
    · simp only [Res.bind_eq_ok, Res.ok.injEq] at hs
      obtain ⟨_, h2, _, _, rfl⟩ := hs
      exact ⟨rfl, fun _ => guardThrow_eq_ok.1 h2⟩
  obtain ⟨rfl, hxc⟩ := hxx
  rw [present_fixed (x := ⟨x.shape, whereValue c.shape [c, x, y]⟩) hd]
  cases h1 : sizeOne c.shape with
  | true =>
    obtain ⟨hcd, hco⟩ := ones_of_sizeOne hc h1
    rw [present_fixed hcd, numpyWhere_one hco (hl h1) he fx fy]
    simp only [whereValue, h1, if_true]
  | false =>
    have hcx := hxc h1
    have hcd : dynamicShape c.shape = false := by rw [hcx]; exact hd
    have fc := hc.full
    rw [present_fixed hcd] at fc ⊢
    rw [numpyWhere_same hcx he fc fx fy]
    simp only [whereValue, h1]
    rfl

end Verif
