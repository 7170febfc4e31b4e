import Verif.Lemmas.Permutation

set_option linter.unusedSimpArgs false
set_option linter.unusedVariables false

/-!
# C33: permuting a square array
-/

namespace Verif

variable {x : Arr Rat} {n : Nat}

theorem wrap32_small {v : Int} (h0 : 0 ≤ v) (h1 : v < 2 ^ 31) : wrap32 v = v := by
  unfold wrap32
  rw [Int.emod_eq_of_lt (by omega) (by omega)]
  omega

theorem permOffset_square {n : Nat} (hn : 8 * (n * n) ≤ 2 ^ 31) {i j : Int} (hi : 0 ≤ i ∧ i < n) (hj : 0 ≤ j ∧ j < n) :
    permOffset (shapeToStrides [(n : Int), (n : Int)]) [i, j] = i * n + j := by
  have hst : shapeToStrides [(n : Int), (n : Int)] = [8 * (n : Int), 8] := by
    simp [shapeToStrides_cons, shapeProd, shapeToStrides]
    try ring
  have hb : i * n + j < n * n := by
    have : i * n ≤ (n - 1) * n := mul_le_mul_of_nonneg_right (by omega) (by omega)
    have e : ((n : Int) - 1) * n = n * n - n := by ring
    omega
  have hin : 0 ≤ i * n := mul_nonneg hi.1 (by omega)
  have hn' : 8 * ((n : Int) * n) ≤ 2 ^ 31 := by exact_mod_cast hn
  have e0 : i * (8 * n) = 8 * (i * n) := by ring
  have hip : innerProduct32 0 [i, j] [8 * (n : Int), 8] = wrap32 (wrap32 (0 + i * (8 * n)) + j * 8) := rfl
  unfold permOffset
  rw [hst, hip, zero_add, e0, wrap32_small (v := 8 * (i * n)) (by omega) (by omega), wrap32_small (by omega) (by omega), Int.emod_eq_of_lt (by omega) (by omega)]
  omega

theorem allCoords_square {α : Type} (hn : 0 < n) (h : List Int → α) :
    (allCoords [(n : Int), (n : Int)]).map h = (List.range (n * n)).map fun t => h [((t / n : Nat) : Int), ((t % n : Nat) : Int)] := by
  have hl : (allCoords [(n : Int), (n : Int)]).length = n * n := by
    have := length_allCoords (shape := [(n : Int), (n : Int)]) (by
      intro d hd
      simp at hd
      omega)
    simp [shapeProd] at this
    exact_mod_cast this
  apply List.ext_getElem?
  intro t
  rw [List.getElem?_map, List.getElem?_map]
  by_cases ht : t < n * n
  · have hd := Nat.div_lt_of_lt_mul ht
    have hm := Nat.mod_lt t hn
    have := allCoords_get (shape := [(n : Int), (n : Int)]) (idx := [((t / n : Nat) : Int), ((t % n : Nat) : Int)])
      ⟨Int.natCast_nonneg _, by exact_mod_cast hd, Int.natCast_nonneg _, by exact_mod_cast hm, trivial⟩
    have e : rowMajor [(n : Int), (n : Int)] [((t / n : Nat) : Int), ((t % n : Nat) : Int)] = (t : Int) := by
      simp only [rowMajor, shapeProd, mul_one, add_zero]
      have := Nat.div_add_mod t n
      rw [mul_comm] at this
      exact_mod_cast this
    rw [e, Int.toNat_natCast] at this
    rw [this, List.getElem?_range ht]
    rfl
  · rw [List.getElem?_eq_none (by omega), List.getElem?_eq_none (by simp; omega)]
    rfl

theorem permSelect_square (hn : 0 < n) {order : Arr Rat} :
    permSelect [(n : Int), (n : Int)] x.data (orderOf order) =
      (List.range (n * n)).map fun t => x.data.getD (permPos n order.data order.data t).toNat 0 := by
  unfold permSelect
  rw [allCoords_square hn]
  apply List.map_congr_left
  intro t _
  simp only [List.map_cons, List.map_nil, rowMajor, shapeProd, mul_one, add_zero, permPos, ordAt, orderOf, Int.toNat_natCast]
  rfl

/-- The order changes as it says, and it only ever reports entries within its range. -/
def OrderRel (n : Nat) (a : Arr Rat) (d : List (Update Rat)) (b : Arr Rat) : Prop :=
  ArrRel a d b ∧ (a.shape = [(n : Int)] → ∀ u ∈ d, ∀ v ∈ u.value, v.den = 1 ∧ 0 ≤ v ∧ v < n)

def permContract (hn : 0 < n) (hbig : 8 * (n * n) ≤ 2 ^ 31) (hs : x.shape = [(n : Int), (n : Int)]) (hw : x.WF) :
    Contract (OrderRel n) [] (permNode x (permValue x) (OrderOk n)) where
  Clean := fun s xs => PermGrid x.data (n * n) s (permPos n (xs.headD ⟨[], []⟩).data (xs.headD ⟨[], []⟩).data) ∧ s.diff = [] ∧
    s.oldOffsets = []
  init := by
    rintro _ ⟨o, rfl, ho, hord⟩
    have hxl : x.data.length = n * n := by
      unfold Arr.WF at hw
      have hd : x.dynamic = false := by simp [Arr.dynamic, hs, dynamicShape]
      rw [hd, hs] at hw
      simp at hw
      exact_mod_cast hw
    have hoff : (allCoords x.shape).map (fun c => permOffset (shapeToStrides x.shape) (c.map fun i => toSS (o.data.getD i.toNat 0))) =
        (List.range (n * n)).map (permPos n o.data o.data) := by
      rw [hs, allCoords_square hn]
      apply List.map_congr_left
      intro t ht
      have ht := List.mem_range.1 ht
      have hd := hord.at (Nat.div_lt_of_lt_mul ht)
      have hm := hord.at (Nat.mod_lt t hn)
      simp only [List.map_cons, List.map_nil, Int.toNat_natCast]
      exact permOffset_square hbig hd hm
    refine ⟨⟨(List.range (n * n)).map (permPos n o.data o.data),
      ((List.range (n * n)).map (permPos n o.data o.data)).map fun p => x.data.getD p.toNat 0, [], []⟩, ?_, ⟨rfl, ?_⟩, rfl, rfl⟩
    · simp only [PermState.init]
      rw [hoff, guardUB_true (by
        intro e
        have := hord.1
        rw [e] at this
        simp at this
        omega), guardUB_true (by
        intro p hp
        obtain ⟨t, ht, rfl⟩ := List.mem_map.1 hp
        have := permPos_range hord hord (List.mem_range.1 ht)
        rw [hxl]
        have h2 := this.2
        constructor
        · exact this.1
        · zify
          rw [Int.toNat_of_nonneg this.1]
          exact h2)]
      rfl
    · simp only [List.map_map, List.headD_cons]
      rfl
  view := by
    intro s xs h
    simp only [permValue, hs, permSelect_square hn, h.1.data]
  diff := fun h => h.2.1
  propagate := by
    rintro s _ ins _ ⟨hg, hd0, ho0⟩ ⟨o, rfl, ho, hord⟩ ⟨o', rfl, ho', hord'⟩ hins
    obtain ⟨d, _, rfl, e, hrel, hval⟩ := hins.one
    cases e
    have hval := hval ho
    have hxl : x.data.length = n * n := by
      unfold Arr.WF at hw
      have hd : x.dynamic = false := by simp [Arr.dynamic, hs, dynamicShape]
      rw [hd, hs] at hw
      simp at hw
      exact_mod_cast hw
    have hch := hrel.fixed (by simp [Arr.dynamic, ho, dynamicShape])
    simp only [List.headD_cons] at hg
    have ht0 : PermTrace s s.offsets s.data := ⟨by rw [hd0]; exact Replays.refl _, by simp [hd0], by simp [hd0, ho0], by
      intro d' o'; simp [hd0]⟩
    obtain ⟨s1, f1, g1, t1⟩ := rows_spec hxl hord d hord hrel.replays hch hval hg ht0
    obtain ⟨s2, f2, g2, t2⟩ := columns_spec hxl hord' d hord hrel.replays hch hval g1 t1
    have hprop : ∃ s', s.propagate x d = .ok s' ∧ PermGrid x.data (n * n) s' (permPos n o'.data o'.data) ∧
        PermTrace s' s.offsets s.data := by
      unfold PermState.propagate
      rw [guardUB_true hd0]
      simp only [Res.ok_bind]
      by_cases hdn : d = []
      · subst hdn
        have := hrel.replays
        rw [replays_nil] at this
        rw [if_pos rfl, ← this]
        exact ⟨s, rfl, hg, ht0⟩
      · rw [if_neg hdn]
        refine ⟨s2, ?_, g2, t2⟩
        have hst : itemStrides x.shape = [(n : Int), 1] := by
          rw [hs, itemStrides_cons, itemStrides_cons]
          simp [shapeProd, itemStrides, shapeToStrides]
        rw [hst, hs]
        simp only [List.headD_cons, Int.toNat_natCast, List.length_cons, List.length_nil, PermState.dims]
        simp only [Nat.zero_add, Nat.add_sub_cancel, pow_one, one_mul, Nat.div_self hn]
        have f1' : List.foldlM (PermState.update x.data n n 1 (n : Int)) s d = .ok s1 := f1
        rw [f1']
        simp only [Res.ok_bind]
        rw [f2]
        rfl
    obtain ⟨s', e', g', t'⟩ := hprop
    refine ⟨s', e', ?_, ⟨⟨rfl, ?_, ?_⟩, ?_⟩, ⟨_, rfl, ⟨g'.offsets, g'.data⟩, rfl, rfl⟩, ?_⟩
    · simp only [permValue, hs, permSelect_square hn, g'.data, List.headD_cons]
    · have e1 : (permValue x [o]).data = s.data := by
        simp only [permValue, hs, permSelect_square hn, hg.data, List.headD_cons]
      have e2 : (permValue x [o']).data = s'.data := by
        simp only [permValue, hs, permSelect_square hn, g'.data, List.headD_cons]
      rw [e1, e2]
      exact t'.replays
    · exact fun _ => t'.changes
    · intro h
      simp [permValue, hs] at h
    · refine ⟨⟨s.offsets, s.data, [], []⟩, ?_, ⟨hg.offsets, hg.data⟩, rfl, rfl⟩
      simp only [PermState.revert]
      rw [guardUB_true (le_of_eq t'.len)]
      simp only [Res.ok_bind]
      have := t'.undo s'.diff s'.oldOffsets
      rw [this]
      rfl

/-- **C33** (two dimensions).  For a constant n x n matrix, at least 1 x 1 and of at most 2^28 elements, and an order of n integers
from 0 to n - 1: through every history of changes of the order, committed or reverted, the element at (i, j) is the matrix'
element at (order i, order j), and every change is reported correctly. -/
theorem C33_matrix_partial (n : Nat) (x : Arr Rat) (hn : 0 < n) (hbig : 8 * (n * n) ≤ 2 ^ 31) (hs : x.shape = [(n : Int), (n : Int)])
    (hw : x.WF) :
    Incremental (OrderRel n) [] (permNode x (permValue x) (OrderOk n)) (permValue x) (OrderOk n) :=
  (permContract hn hbig hs hw).incremental

/-- **C33**: what the symbol shows is `A[order, :][:, order]` as NumPy evaluates it, one indexing after the other; this is why
`A[x, :][:, x]` may be replaced by a permutation. -/
theorem C33_composition (n : Nat) (data : List Rat) (order : Nat → Int) (ho : ∀ i, i < n → 0 ≤ order i ∧ order i < n) :
    permSelect [(n : Int), (n : Int)] data (fun i => order i.toNat) =
      advSelect [false, true] [(n : Int), (n : Int)]
        (advSelect [true, false] [(n : Int), (n : Int)] data (fun t => [order t]) n) (fun t => [order t]) n := by
  rcases Nat.eq_zero_or_pos n with h0 | hn
  · subst h0; rfl
  have e1 : advSelect [true, false] [(n : Int), (n : Int)] data (fun t => [order t]) n =
      (List.range (n * n)).map fun t => data.getD (order (t / n) * n + ((t % n : Nat) : Int)).toNat default := by
    unfold advSelect
    rw [advCoords_eq (Nat.zero_le _)]
    have : (sliceDims [true, false] [(n : Int), (n : Int)]).insertIdx (advLeft [true, false]) (n : Int) = [(n : Int), (n : Int)] := rfl
    rw [this, allCoords_square hn, List.map_map]
    apply List.map_congr_left
    intro t _
    have hleft : advLeft [true, false] = 0 := rfl
    simp only [Function.comp_apply, hleft, rowMajor, shapeProd, mul_one, add_zero, Int.toNat_natCast,
      List.getD_cons_zero, List.eraseIdx_zero, List.tail_cons, mergeCoords]
  rw [e1]
  unfold advSelect
  rw [advCoords_eq (by simp [sliceDims, advLeft, separated, leading, List.findIdx_cons])]
  have : (sliceDims [false, true] [(n : Int), (n : Int)]).insertIdx (advLeft [false, true]) (n : Int) = [(n : Int), (n : Int)] := rfl
  rw [this, allCoords_square hn, List.map_map]
  unfold permSelect
  rw [allCoords_square hn]
  apply List.map_congr_left
  intro t ht
  have ht := List.mem_range.1 ht
  have hd := Nat.div_lt_of_lt_mul ht
  obtain ⟨h3, h4⟩ := ho (t % n) (Nat.mod_lt t hn)
  obtain ⟨h1, h2⟩ := ho (t / n) hd
  have hleft : advLeft [false, true] = 1 := rfl
  simp only [Function.comp_apply, hleft, List.map_cons, List.map_nil, rowMajor, shapeProd, mul_one, add_zero, Int.toNat_natCast,
    List.getD_cons_succ, List.getD_cons_zero, List.eraseIdx_cons_succ, List.eraseIdx_zero, List.tail_cons, mergeCoords]
  obtain ⟨k, hk⟩ := Int.eq_ofNat_of_zero_le h3
  rw [hk] at h4 ⊢
  have hkn : k < n := by exact_mod_cast h4
  have e2 : (((t / n : Nat) : Int) * (n : Int) + (k : Int)).toNat = t / n * n + k := by
    rw [← Nat.cast_mul, ← Nat.cast_add, Int.toNat_natCast]
  rw [e2]
  have hlt : t / n * n + k < n * n := by
    have : (t / n + 1) * n ≤ n * n := Nat.mul_le_mul_right _ hd
    rw [add_mul] at this
    omega
  conv_rhs => rw [List.getD_eq_getElem?_getD, List.getElem?_map, List.getElem?_range hlt]
  simp only [Option.map_some, Option.getD_some]
  rw [mul_comm (t / n) n, Nat.mul_add_div hn, Nat.div_eq_of_lt hkn, add_zero, Nat.mul_add_mod, Nat.mod_eq_of_lt hkn]

/-! ## Construction -/

/-- **C33** (construction): what is rejected - and what is not: see `C33_range_fails`. -/
theorem C33_accepts (constant : Bool) (shape : List Int) (order : Indexer) :
    ((constant = true ∧ shape ≠ [] ∧ (∀ d ∈ shape, d = shape.headD 0) ∧ order.integral = true ∧
      order.shape = [shape.headD 0] ∧ 0 ≤ shape.headD 0 ∧ order.max ≤ (shapeProd shape : Rat)) →
      permMake constant shape order = .ok ()) ∧
    (¬ (constant = true ∧ shape ≠ [] ∧ (∀ d ∈ shape, d = shape.headD 0) ∧ order.integral = true ∧
      order.shape = [shape.headD 0] ∧ 0 ≤ shape.headD 0 ∧ order.max ≤ (shapeProd shape : Rat)) →
      permMake constant shape order = .throw) := by
  constructor
  · rintro ⟨h1, h2, h3, h4, h5, h6, h7⟩
    unfold permMake
    rw [guardThrow_true h1, guardThrow_true (show 1 ≤ shape.length from List.length_pos_iff.2 h2), guardThrow_true h3, guardThrow_true (by
      rw [h5]; simp only [dynamicShape, decide_eq_true_eq]; omega), guardThrow_true h4, guardThrow_true (by rw [h5]; rfl), guardThrow_true (by
      rw [h5]; simp [shapeProd]), guardThrow_true (not_lt.2 h7)]
    rfl
  · intro h
    unfold permMake
    rcases guardThrow_cases (constant = true) with ⟨g1, e⟩ | ⟨g1, e⟩ <;> rw [e]
    swap; · rfl
    rcases guardThrow_cases (1 ≤ shape.length) with ⟨g2, e⟩ | ⟨g2, e⟩ <;> rw [e]
    swap; · rfl
    rcases guardThrow_cases (∀ d ∈ shape, d = shape.headD 0) with ⟨g3, e⟩ | ⟨g3, e⟩ <;> rw [e]
    swap; · rfl
    rcases guardThrow_cases (¬ dynamicShape order.shape = true) with ⟨g4, e⟩ | ⟨g4, e⟩ <;> rw [e]
    swap; · rfl
    rcases guardThrow_cases (order.integral = true) with ⟨g5, e⟩ | ⟨g5, e⟩ <;> rw [e]
    swap; · rfl
    rcases guardThrow_cases (order.shape.length = 1) with ⟨g6, e⟩ | ⟨g6, e⟩ <;> rw [e]
    swap; · rfl
    rcases guardThrow_cases (shape.headD 0 = shapeProd order.shape) with ⟨g7, e⟩ | ⟨g7, e⟩ <;> rw [e]
    swap; · rfl
    rcases guardThrow_cases (¬ order.max > (shapeProd shape : Rat)) with ⟨g8, e⟩ | ⟨g8, e⟩ <;> rw [e]
    swap; · rfl
    exfalso
    apply h
    obtain ⟨m, hm⟩ := List.length_eq_one_iff.1 g6
    rw [hm] at g7
    simp only [shapeProd, mul_one] at g7
    refine ⟨g1, List.length_pos_iff.1 g2, g3, g5, by rw [hm, g7], ?_, not_lt.1 g8⟩
    rw [g7]
    rw [hm] at g4
    simpa [dynamicShape] using g4

/-! ## Concrete cases -/

/-- Initialise, and propagate one change of the order: value and reported change. -/
def permRun (x order order' : Arr Rat) (d : List (Update Rat)) : Res (Arr Rat × List (Update Rat)) := do
  let s ← PermState.init x order
  let s ← s.propagate x d
  .ok (⟨x.shape, s.data⟩, s.diff)

/-- A 3 x 3 matrix and an exchange of two entries of the order meet the hypotheses of `C33_matrix_partial` ... -/
example : (⟨[3, 3], [0, 1, 2, 3, 4, 5, 6, 7, 8]⟩ : Arr Rat).WF ∧ OrderOk 3 [⟨[3], [2, 0, 1]⟩] ∧ OrderOk 3 [⟨[3], [1, 0, 2]⟩] ∧
    OrderRel 3 ⟨[3], [2, 0, 1]⟩ [Update.change 0 2 1, Update.change 2 1 2] ⟨[3], [1, 0, 2]⟩ := by
  refine ⟨by decide, ⟨_, rfl, rfl, ?_⟩, ⟨_, rfl, rfl, ?_⟩, ?_, fun _ => ?_⟩
  · unfold IsOrder; decide +kernel
  · unfold IsOrder; decide +kernel
  · decide +kernel
  · decide +kernel

/-- ... and the result is the permuted matrix. -/
example : (permRun ⟨[3, 3], [0, 1, 2, 3, 4, 5, 6, 7, 8]⟩ ⟨[3], [2, 0, 1]⟩ ⟨[3], [1, 0, 2]⟩
    [Update.change 0 2 1, Update.change 2 1 2]) >>= (fun r => .ok r.1) = .ok ⟨[3, 3], [4, 3, 5, 1, 0, 2, 7, 6, 8]⟩ := by
  decide +kernel

/-! ## Where C33 is false -/

/-- **C33 fails** in one dimension: after exchanging the entries of the order of a vector, elements beyond the end are written. -/
theorem C33_vector_fails :
    permMake true [2] ⟨[2], true, 0, 1, true⟩ = .ok () ∧
    OrderRel 2 ⟨[2], [0, 1]⟩ [Update.change 0 0 1, Update.change 1 1 0] ⟨[2], [1, 0]⟩ ∧
    permRun ⟨[2], [5, 6]⟩ ⟨[2], [0, 1]⟩ ⟨[2], [1, 0]⟩ [Update.change 0 0 1, Update.change 1 1 0] = .ub := by
  refine ⟨by decide +kernel, ⟨by decide +kernel, fun _ => by decide +kernel⟩, by decide +kernel⟩

/-- **C33 fails** in three dimensions: the result is not the permuted array. -/
theorem C33_cube_fails :
    permMake true [2, 2, 2] ⟨[2], true, 0, 1, true⟩ = .ok () ∧
    OrderRel 2 ⟨[2], [1, 1]⟩ [Update.change 0 1 0] ⟨[2], [0, 1]⟩ ∧
    (permRun ⟨[2, 2, 2], [0, 1, 2, 3, 4, 5, 6, 7]⟩ ⟨[2], [1, 1]⟩ ⟨[2], [0, 1]⟩ [Update.change 0 1 0]) >>=
      (fun r => .ok r.1) = .ok ⟨[2, 2, 2], [0, 3, 5, 7, 6, 7, 7, 7]⟩ ∧
    permSelect [2, 2, 2] ([0, 1, 2, 3, 4, 5, 6, 7] : List Rat) (orderOf ⟨[2], [0, 1]⟩) = [0, 1, 2, 3, 4, 5, 6, 7] := by
  refine ⟨by decide +kernel, ⟨by decide +kernel, fun _ => by decide +kernel⟩, by decide +kernel, by decide +kernel⟩

/-- **C33 fails**: orders beyond the range are accepted (the constructor compares with the number of elements instead of the number
of rows, and does not look at the minimum), and then elements outside of the matrix are read. -/
theorem C33_range_fails :
    permMake true [2, 2] ⟨[2], true, -5, 4, true⟩ = .ok () ∧
    PermState.init ⟨[2, 2], [0, 1, 2, 3]⟩ ⟨[2], [0, 2]⟩ = .ub ∧ PermState.init ⟨[2, 2], [0, 1, 2, 3]⟩ ⟨[2], [0, -1]⟩ = .ub := by
  refine ⟨by decide +kernel, by decide +kernel, by decide +kernel⟩

/-- **C33 fails** for a matrix without elements: initialisation reads the first entry of the empty order. -/
theorem C33_empty_fails :
    permMake true [0, 0] ⟨[0], true, 0, 0, true⟩ = .ok () ∧ PermState.init ⟨[0, 0], []⟩ ⟨[0], []⟩ = .ub := by
  refine ⟨by decide +kernel, by decide +kernel⟩

/-- **C33 fails** for a matrix of more than 2^28 elements: positions are added up in an `int`, and elements outside of the matrix
are read. -/
theorem C33_large_fails (x order : Arr Rat) (hs : x.shape = [16385, 16385]) (hw : x.WF) (ho : order.shape = [16385])
    (hid : order.data = (List.range 16385).map fun (t : Nat) => (t : Rat)) :
    IsOrder 16385 order.data ∧ PermState.init x order = .ub := by
  have hxl : (x.data.length : Int) = 16385 * 16385 := by
    unfold Arr.WF at hw
    have hd : x.dynamic = false := by rw [Arr.dynamic, hs]; rfl
    rw [hd, hs] at hw
    simpa using hw
  refine ⟨⟨by rw [hid]; simp, ?_⟩, ?_⟩
  · intro v hv
    rw [hid] at hv
    obtain ⟨t, ht, rfl⟩ := List.mem_map.1 hv
    have := List.mem_range.1 ht
    exact ⟨Rat.den_natCast t, Nat.cast_nonneg t, by exact_mod_cast this⟩
  · unfold PermState.init
    by_cases hne : order.data ≠ []
    · rw [guardUB_true hne]
      simp only [Res.ok_bind]
      have hno : ¬ ∀ p ∈ (allCoords x.shape).map (fun c => permOffset (shapeToStrides x.shape)
          (c.map fun i => toSS (order.data.getD i.toNat 0))), 0 ≤ p ∧ p.toNat < x.data.length := by
        intro h
        have h1 := h (permOffset (shapeToStrides x.shape) [16384, 16384]) (by
          rw [List.mem_map]
          refine ⟨[16384, 16384], mem_allCoords.2 ?_, ?_⟩
          · rw [hs]; exact ⟨by decide, by decide, by decide, by decide, trivial⟩
          · have e : toSS (order.data.getD (16384 : Int).toNat 0) = 16384 := by
              rw [hid, List.getD_eq_getElem?_getD, List.getElem?_map, List.getElem?_range (by decide)]
              rfl
            simp only [List.map_cons, List.map_nil, e])
        have e2 : permOffset (shapeToStrides x.shape) [16384, 16384] = 2305843008945291264 := by rw [hs]; decide +kernel
        rw [e2] at h1
        omega
      simp only [guardUB, hno, if_false]
      rfl
    · simp only [guardUB, hne, if_false]
      rfl

end Verif
