import Verif.Model.Nodes.PartialReduce
import Verif.Lemmas.NodeBase
import Verif.Props.Shape
import Verif.Props.Reduce

set_option linter.unusedSectionVars false
set_option linter.unusedSimpArgs false
set_option linter.unusedVariables false

/-!
# C26: partial sums
-/

namespace Verif

open ArrayState

theorem shapeProd_eq : ∀ shape : List Int, shapeProd shape = shape.prod
  | [] => rfl
  | d :: shape => by rw [shapeProd, shapeProd_eq shape, List.prod_cons]

theorem getElem?_flatMap_const {β γ : Type} (f : β → List γ) (n : Nat) (hn : ∀ b, (f b).length = n) :
    ∀ (l : List β) (i r : Nat), r < n → (l.flatMap f)[i * n + r]? = l[i]?.bind fun b => (f b)[r]?
  | [], i, r, _ => by simp
  | b :: l, 0, r, hr => by
    simp only [List.flatMap_cons, Nat.zero_mul, Nat.zero_add]
    rw [List.getElem?_append_left (by rw [hn]; exact hr)]
    simp
  | b :: l, i + 1, r, hr => by
    simp only [List.flatMap_cons, List.getElem?_cons_succ]
    rw [List.getElem?_append_right (by rw [hn, Nat.succ_mul]; omega),
      ← getElem?_flatMap_const f n hn l i r hr, hn, Nat.succ_mul]
    congr 1
    omega

theorem length_allCoords : ∀ {shape : List Int}, (∀ d ∈ shape, 0 < d) →
    ((allCoords shape).length : Int) = shapeProd shape
  | [], _ => rfl
  | d :: shape, h => by
    have hd : 0 < d := h d List.mem_cons_self
    have ih := length_allCoords (shape := shape) fun e he => h e (List.mem_cons_of_mem _ he)
    simp only [allCoords, List.length_flatMap, List.length_map, List.map_const', List.length_range,
      List.sum_replicate, shapeProd]
    change ((d.toNat * (allCoords shape).length : Nat) : Int) = _
    rw [Nat.cast_mul, ih]
    congr 1
    omega

theorem allCoords_get : ∀ {shape idx : List Int}, InShape shape idx →
    (allCoords shape)[(rowMajor shape idx).toNat]? = some idx
  | [], [], _ => rfl
  | d :: shape, i :: idx, ⟨h0, h1, h⟩ => by
    have ih := allCoords_get h
    have hr := h.rowMajor_range
    have hl := length_allCoords h.pos
    have e : (rowMajor (d :: shape) (i :: idx)).toNat =
        i.toNat * (allCoords shape).length + (rowMajor shape idx).toNat := by
      have hz : (((rowMajor (d :: shape) (i :: idx)).toNat : Nat) : Int) =
          ((i.toNat * (allCoords shape).length + (rowMajor shape idx).toNat : Nat) : Int) := by
        have h2 : 0 ≤ rowMajor (d :: shape) (i :: idx) :=
          (InShape.rowMajor_range (shape := d :: shape) (idx := i :: idx) ⟨h0, h1, h⟩).1
        rw [Nat.cast_add, Nat.cast_mul, hl, Int.toNat_of_nonneg h2, Int.toNat_of_nonneg h0,
          Int.toNat_of_nonneg hr.1]
        rfl
      exact_mod_cast hz
    rw [e, allCoords, getElem?_flatMap_const _ (allCoords shape).length (by simp) _ _ _ (by omega)]
    have hi : i.toNat < d.toNat := by omega
    simp only [List.getElem?_range hi, Option.bind_some, List.getElem?_map, ih, Option.map_some,
      Option.some.injEq, List.cons.injEq, and_true]
    exact Int.toNat_of_nonneg h0

theorem InShape.length_eq : ∀ {shape idx : List Int}, InShape shape idx → idx.length = shape.length
  | [], [], _ => rfl
  | _ :: _, _ :: _, ⟨_, _, h⟩ => by simp [h.length_eq]

theorem InShape.eraseIdx : ∀ {shape idx : List Int} (a : Nat), InShape shape idx →
    InShape (shape.eraseIdx a) (idx.eraseIdx a)
  | [], [], _, _ => trivial
  | d :: shape, i :: idx, 0, ⟨_, _, h⟩ => h
  | d :: shape, i :: idx, a + 1, ⟨h0, h1, h⟩ => ⟨h0, h1, h.eraseIdx a⟩

theorem InShape.insertIdx : ∀ {shape idx : List Int} (a : Nat) (j : Int), a < shape.length →
    InShape (shape.eraseIdx a) idx → 0 ≤ j → j < shape.getD a 0 → InShape shape (idx.insertIdx a j)
  | d :: shape, idx, 0, j, _, h, h0, h1 => ⟨h0, by simpa using h1, by simpa using h⟩
  | d :: shape, i :: idx, a + 1, j, hl, ⟨h2, h3, h⟩, h0, h1 =>
    ⟨h2, h3, h.insertIdx a j (by simpa using hl) h0 (by simpa using h1)⟩

/-- Removing an axis: the offset splits into the one of the other axes and the one along the axis. -/
theorem ravel_erase : ∀ {shape idx : List Int} (a : Nat) , (∀ d ∈ shape, 0 < d) → a < shape.length →
    InShape (shape.eraseIdx a) idx →
    ∃ r, ravelMultiIndex ((shapeToStrides shape).eraseIdx a) idx = .ok r ∧ 0 ≤ r ∧
      ∀ j, r + (shapeToStrides shape).getD a 0 / 8 * j = rowMajor shape (idx.insertIdx a j)
  | d :: shape, idx, 0, hd, _, h => by
    rw [shapeToStrides_cons]
    have h : InShape shape idx := h
    refine ⟨_, ravel_spec h, h.rowMajor_range.1, fun j => ?_⟩
    have h8 : 8 * shapeProd shape / 8 = shapeProd shape := by omega
    simp only [List.getD_cons_zero, h8, List.insertIdx_zero, rowMajor]
    ring
  | d :: shape, i :: idx, a + 1, hd, hl, ⟨h0, h1, h⟩ => by
    have hd' : ∀ e ∈ shape, 0 < e := fun e he => hd e (List.mem_cons_of_mem _ he)
    obtain ⟨r, hr, hp, hj⟩ := ravel_erase a hd' (by simpa using hl) h
    have hpos : 0 < shapeProd shape := shapeProd_pos hd'
    rw [shapeToStrides_cons]
    have h8 : i * (8 * shapeProd shape) / 8 = i * shapeProd shape := by
      rw [show i * (8 * shapeProd shape) = 8 * (i * shapeProd shape) by ring]; omega
    refine ⟨i * shapeProd shape + r, ?_, ?_, fun j => ?_⟩
    · rw [List.eraseIdx_cons_succ]
      unfold ravelMultiIndex
      rw [guardUB_true (Int.mul_nonneg h0 (by omega)), Res.ok_bind, hr, Res.ok_bind, h8]
    · have := Int.mul_nonneg h0 hpos.le; omega
    · have := hj j
      simp only [List.getD_cons_succ, List.insertIdx_succ_cons, rowMajor, ← this]
      ring

theorem div_mod_row {i p q : Int} (hp : 0 < p) (h0 : 0 ≤ q) (h1 : q < p) :
    (i * p + q) / p = i ∧ (i * p + q) % p = q := by
  constructor
  · rw [Int.add_comm, Int.add_mul_ediv_right _ _ hp.ne', Int.ediv_eq_zero_of_lt h0 h1, zero_add]
  · rw [Int.add_comm, Int.add_mul_emod_self_right, Int.emod_eq_of_lt h0 h1]

theorem mapParent_past {axis : Nat} : ∀ {shape idx : List Int} (k : Nat), axis < k → InShape shape idx →
    mapParentLoop axis k (shapeToStrides shape) (shapeToStrides shape) (rowMajor shape idx) =
      .ok (rowMajor shape idx)
  | [], [], _, _, _ => rfl
  | d :: shape, i :: idx, k, hk, ⟨h0, h1, h⟩ => by
    have hr := h.rowMajor_range
    have hp : 0 < shapeProd shape := by omega
    have h8 : 8 * shapeProd shape / 8 = shapeProd shape := by omega
    obtain ⟨e1, e2⟩ := div_mod_row (i := i) hp hr.1 hr.2
    rw [shapeToStrides_cons]
    unfold mapParentLoop
    rw [guardUB_true (by rw [h8]; exact hp.ne'), Res.ok_bind, if_neg (by omega)]
    simp only [h8, rowMajor, e1, e2]
    rw [mapParent_past (k + 1) (by omega) h]
    rfl

theorem mapParent_spec {axis : Nat} : ∀ {shape idx : List Int} (k a : Nat), axis = k + a →
    a < shape.length → InShape shape idx →
    mapParentLoop axis k (shapeToStrides shape) (shapeToStrides (shape.eraseIdx a)) (rowMajor shape idx) =
      .ok (rowMajor (shape.eraseIdx a) (idx.eraseIdx a))
  | [], _, _, _, _, hl, _ => by simp at hl
  | d :: shape, i :: idx, k, 0, hk, _, ⟨h0, h1, h⟩ => by
    have hr := h.rowMajor_range
    have hp : 0 < shapeProd shape := by omega
    have h8 : 8 * shapeProd shape / 8 = shapeProd shape := by omega
    obtain ⟨e1, e2⟩ := div_mod_row (i := i) hp hr.1 hr.2
    rw [shapeToStrides_cons]
    unfold mapParentLoop
    rw [guardUB_true (by rw [h8]; exact hp.ne'), Res.ok_bind, if_pos (by omega)]
    simp only [h8, rowMajor, e2, List.eraseIdx_cons_zero]
    exact mapParent_past (k + 1) (by omega) h
  | d :: shape, i :: idx, k, a + 1, hk, hl, ⟨h0, h1, h⟩ => by
    have hr := h.rowMajor_range
    have hp : 0 < shapeProd shape := by omega
    have h8 : 8 * shapeProd shape / 8 = shapeProd shape := by omega
    have h8' : 8 * shapeProd (shape.eraseIdx a) / 8 = shapeProd (shape.eraseIdx a) := by omega
    obtain ⟨e1, e2⟩ := div_mod_row (i := i) hp hr.1 hr.2
    rw [shapeToStrides_cons, List.eraseIdx_cons_succ, shapeToStrides_cons]
    unfold mapParentLoop
    rw [guardUB_true (by rw [h8]; exact hp.ne'), Res.ok_bind, if_neg (by omega)]
    simp only [h8, h8', rowMajor, e1, e2, List.eraseIdx_cons_succ]
    rw [mapParent_spec (k + 1) a (by omega) (by simpa using hl) h]
    rfl

/-- The sum along the axis at coordinates `idx` of the other axes. -/
def axisSum (shape : List Int) (axis : Nat) (data : List Rat) (idx : List Int) : Rat :=
  ((List.range (shape.getD axis 0).toNat).map fun (j : Nat) =>
      data.getD (rowMajor shape (idx.insertIdx axis (j : Int))).toNat 0).sum

theorem sum_range_bump (g g' : Nat → Rat) (j0 : Nat) (δ : Rat) : ∀ n,
    (∀ j < n, g' j = g j + if j = j0 then δ else 0) →
    ((List.range n).map g').sum = ((List.range n).map g).sum + if j0 < n then δ else 0
  | 0, _ => by simp
  | n + 1, h => by
    rw [List.range_succ, List.map_append, List.map_append, List.sum_append, List.sum_append,
      sum_range_bump g g' j0 δ n (fun j hj => h j (by omega))]
    simp only [List.map_cons, List.map_nil, List.sum_cons, List.sum_nil, add_zero, h n (by omega)]
    rcases Nat.lt_trichotomy n j0 with hlt | rfl | hlt
    · rw [if_neg (by omega), if_neg (by omega), if_neg (by omega)]; ring
    · rw [if_neg (by omega), if_pos rfl, if_pos (by omega)]; ring
    · rw [if_pos hlt, if_neg (by omega), if_pos (by omega)]; ring

section

variable {shape : List Int} {axis : Nat} (hd : ∀ d ∈ shape, 0 < d) (ha : axis < shape.length)

include hd ha

theorem dims_erase : ∀ d ∈ shape.eraseIdx axis, 0 < d :=
  fun d h => hd d (List.mem_of_mem_eraseIdx h)

theorem getD_axis_pos : 0 < shape.getD axis 0 := by
  have : shape.getD axis 0 = shape[axis] := by simp [ha]
  rw [this]
  exact hd _ (List.getElem_mem ha)

theorem axisSum_set {data : List Rat} {pidx idx : List Int} {o v : Rat} (hp : InShape shape pidx)
    (hi : InShape (shape.eraseIdx axis) idx) (ho : data[(rowMajor shape pidx).toNat]? = some o) :
    axisSum shape axis (data.set (rowMajor shape pidx).toNat v) idx =
      axisSum shape axis data idx + if idx = pidx.eraseIdx axis then v - o else 0 := by
  have hpl := hp.length_eq
  have hil := hi.length_eq
  rw [List.length_eraseIdx, if_pos ha] at hil
  have hpa : axis < pidx.length := by omega
  have hlen : (rowMajor shape pidx).toNat < data.length := by
    by_contra hn
    rw [List.getElem?_eq_none (by omega)] at ho; cases ho
  have hD := getD_axis_pos hd ha
  -- the element of the summation which is hit
  have hit : ∀ j : Nat, j < (shape.getD axis 0).toNat →
      ((rowMajor shape (idx.insertIdx axis (j : Int))).toNat = (rowMajor shape pidx).toNat ↔
        idx = pidx.eraseIdx axis ∧ (j : Int) = pidx[axis]) := by
    intro j hj
    have hin : InShape shape (idx.insertIdx axis (j : Int)) :=
      hi.insertIdx axis _ ha (by omega) (by omega)
    have r1 := hin.rowMajor_range
    have r2 := hp.rowMajor_range
    constructor
    · intro e
      have e' : idx.insertIdx axis (j : Int) = pidx := rowMajor_inj hin hp (by omega)
      subst e'
      refine ⟨by rw [List.eraseIdx_insertIdx_self], ?_⟩
      rw [List.getElem_insertIdx_self]
    · rintro ⟨rfl, e⟩
      rw [e, List.insertIdx_eraseIdx_getElem hpa]
  unfold axisSum
  by_cases hidx : idx = pidx.eraseIdx axis
  · rw [if_pos hidx]
    have h0 : 0 ≤ pidx[axis] ∧ pidx[axis] < shape.getD axis 0 := by
      clear hit ho hlen hidx hi hil
      induction shape generalizing pidx axis with
      | nil => simp at ha
      | cons d shape ih =>
        match pidx, hp, axis with
        | i :: pidx, ⟨h0, h1, h⟩, 0 => exact ⟨h0, by simpa using h1⟩
        | i :: pidx, ⟨h0, h1, h⟩, a + 1 =>
          have := ih (axis := a) (fun e he => hd e (List.mem_cons_of_mem _ he)) (by simpa using ha) h
            h.length_eq (by have := h.length_eq; simp at ha; omega) (by simpa using hD)
          simpa using this
    rw [sum_range_bump (fun j => data.getD (rowMajor shape (idx.insertIdx axis (j : Int))).toNat 0)
      (fun j => (data.set (rowMajor shape pidx).toNat v).getD
        (rowMajor shape (idx.insertIdx axis (j : Int))).toNat 0) (pidx[axis]).toNat (v - o)]
    · rw [if_pos (by omega)]
    · intro j hj
      by_cases hj0 : (j : Int) = pidx[axis]
      · rw [(hit j hj).2 ⟨hidx, hj0⟩, if_pos (by omega)]
        rw [List.getD_eq_getElem?_getD, List.getElem?_set_self hlen, List.getD_eq_getElem?_getD, ho]
        simp
      · rw [if_neg (by omega), add_zero, List.getD_eq_getElem?_getD,
          List.getElem?_set_ne (fun e => hj0 ((hit j hj).1 e.symm).2), List.getD_eq_getElem?_getD]
  · rw [if_neg hidx, add_zero]
    congr 1
    apply List.map_congr_left
    intro j hj
    rw [List.mem_range] at hj
    rw [List.getD_eq_getElem?_getD,
      List.getElem?_set_ne (fun e => hidx ((hit j hj).1 e.symm).1), List.getD_eq_getElem?_getD]

theorem partialSumValue_length (init : Rat) (data : List Rat) :
    ((partialSumValue shape axis init data).length : Int) = shapeProd (shape.eraseIdx axis) := by
  unfold partialSumValue
  rw [List.length_map, length_allCoords (dims_erase hd ha)]

theorem partialSumValue_get (init : Rat) (data : List Rat) {idx : List Int}
    (hi : InShape (shape.eraseIdx axis) idx) :
    (partialSumValue shape axis init data)[(rowMajor (shape.eraseIdx axis) idx).toNat]? =
      some (init + axisSum shape axis data idx) := by
  unfold partialSumValue
  rw [List.getElem?_map, allCoords_get hi]
  rfl

theorem coords_of {s : List Int} (hs : ∀ d ∈ s, 0 < d) {i : Nat} (h : (i : Int) < shapeProd s) :
    ∃ idx, InShape s idx ∧ (rowMajor s idx).toNat = i ∧ unravelIndex (shapeToStrides s) i = .ok idx := by
  obtain ⟨idx, h1, h2, h3⟩ := unravel_spec s hs i (by omega) h
  exact ⟨idx, h2, by omega, h1⟩

theorem partialSumValue_set (init : Rat) {data : List Rat} {pidx : List Int} {o v : Rat}
    (hp : InShape shape pidx) (ho : data[(rowMajor shape pidx).toNat]? = some o) :
    partialSumValue shape axis init (data.set (rowMajor shape pidx).toNat v) =
      (partialSumValue shape axis init data).set
        (rowMajor (shape.eraseIdx axis) (pidx.eraseIdx axis)).toNat
        (init + axisSum shape axis data (pidx.eraseIdx axis) + (v - o)) := by
  have he := dims_erase hd ha
  have l1 := partialSumValue_length hd ha init data
  have l2 := partialSumValue_length hd ha init (data.set (rowMajor shape pidx).toNat v)
  apply List.ext_getElem?
  intro i
  by_cases hi : (i : Int) < shapeProd (shape.eraseIdx axis)
  · obtain ⟨idx, h1, h2, _⟩ := coords_of hd ha he hi
    subst h2
    rw [partialSumValue_get hd ha init _ h1, axisSum_set hd ha hp h1 ho]
    have hq := hp.eraseIdx axis
    by_cases hx : idx = pidx.eraseIdx axis
    · rw [if_pos hx, hx, List.getElem?_set_self (by
        have := hq.rowMajor_range; omega)]
      rw [add_assoc]
    · rw [if_neg hx, add_zero, List.getElem?_set_ne, partialSumValue_get hd ha init _ h1]
      intro e
      have r1 := hq.rowMajor_range
      have r2 := h1.rowMajor_range
      exact hx (rowMajor_inj h1 hq (by omega))
  · rw [List.getElem?_eq_none (by omega), List.getElem?_eq_none (by rw [List.length_set]; omega)]

theorem partialReduce_ok (init : Rat) {x : Arr Rat} (hl : (x.data.length : Int) = shapeProd shape)
    {i : Nat} {idx : List Int} (hi : InShape (shape.eraseIdx axis) idx)
    (hu : unravelIndex (shapeToStrides (shape.eraseIdx axis)) i = .ok idx) :
    partialReduce shape axis init x i = .ok (init + axisSum shape axis x.data idx) := by
  obtain ⟨r, hr, hr0, hj⟩ := ravel_erase axis hd ha hi
  unfold partialReduce
  rw [hu, Res.ok_bind, hr, Res.ok_bind]
  rw [mapM_ok _ (fun (j : Nat) => x.data.getD (rowMajor shape (idx.insertIdx axis (j : Int))).toNat 0)]
  · rw [Res.ok_bind, foldl_add]
    rfl
  · intro j hjm
    rw [List.mem_range] at hjm
    have hin : InShape shape (idx.insertIdx axis (j : Int)) :=
      hi.insertIdx axis _ ha (by omega) (by omega)
    have r1 := hin.rowMajor_range
    rw [hj, Arr.read_getD (by omega)]
    rfl

end

/-- A partial sum keeps the symbol contract, if the axis is less than the number of elements of the
operand. -/
def partialSumContract {shape : List Int} {axis : Nat} (init : Rat) (hd : ∀ d ∈ shape, 0 < d)
    (ha : axis < shape.length) (hsz : (axis : Int) < shape.prod) :
    Contract ArrRel [] (partialSumNode shape axis init) :=
  arrayContract (by
    rintro xs ⟨x, rfl, hx, hw⟩
    have hdyn : x.dynamic = false := by
      unfold Arr.dynamic dynamicShape
      rw [hx]
      cases shape with
      | nil => rfl
      | cons d s => have := hd d List.mem_cons_self; simp; omega
    have hl : (x.data.length : Int) = shapeProd shape := by
      unfold Arr.WF at hw
      rw [hdyn, hx] at hw
      rw [shapeProd_eq]; simpa using hw
    have he := dims_erase hd ha
    have hpos := shapeProd_pos he
    have l1 := partialSumValue_length hd ha init x.data
    simp only [partialSumInit]
    rw [mapM_ok _ (fun i => (partialSumValue shape axis init x.data).getD i 0)]
    · congr 1
      apply List.ext_getElem
      · rw [List.length_map, List.length_range, ← shapeProd_eq]
        simp only [List.headD_cons]
        omega
      · intro i h1 h2
        simp only [List.headD_cons] at h2
        simp [h2]
    · intro i hi
      rw [List.mem_range, ← shapeProd_eq] at hi
      obtain ⟨idx, h1, h2, h3⟩ := coords_of hd ha he (i := i) (by omega)
      rw [partialReduce_ok hd ha init hl h1 h3, List.getD_eq_getElem?_getD, ← h2,
        partialSumValue_get hd ha init _ h1]
      rfl) (by
    rintro xs ins ys ⟨x, rfl, hx, hw⟩ ⟨z, hy, hys, hyw⟩ hi
    obtain ⟨d, y, rfl, rfl, hr⟩ := hi.one
    obtain rfl : y = z := by simpa using hy
    have hdyn : ∀ {z : Arr Rat}, z.shape = shape → z.dynamic = false := by
      intro z hz
      unfold Arr.dynamic dynamicShape
      rw [hz]
      cases shape with
      | nil => rfl
      | cons d s => have := hd d List.mem_cons_self; simp; omega
    have hlen : ∀ {z : Arr Rat}, z.shape = shape → z.WF → (z.data.length : Int) = shapeProd shape := by
      intro z hz hzw
      unfold Arr.WF at hzw
      rw [hdyn hz, hz] at hzw
      rw [shapeProd_eq]; simpa using hzw
    have hfix : ∀ u ∈ d, u.isChange = true := hr.fixed (hdyn hx)
    have hyl := hlen hys hyw
    have key : ∀ (d : List (Update Rat)) {s : ArrayState Rat} {com a b : List Rat} {fixed : Bool},
        (∀ u ∈ d, u.isChange = true) → (a.length : Int) = shapeProd shape →
        RepA fixed s com (partialSumValue shape axis init a) → Replays a d b →
        ∃ s', d.foldlM (partialSumStep shape axis y.data.length) s = .ok s' ∧
          RepA fixed s' com (partialSumValue shape axis init b) := by
      intro d
      induction d with
      | nil => intro s com a b fixed _ _ h hr; simp at hr; subst hr; exact ⟨s, rfl, h⟩
      | cons u d ih =>
        intro s com a b fixed hc hal h hr
        obtain ⟨m, hm, hr'⟩ := replays_cons.1 hr
        obtain ⟨v, hv⟩ : ∃ v, u.value = some v := by
          have := hc u List.mem_cons_self
          simp only [Update.isChange, Bool.and_eq_true, Option.isSome_iff_exists] at this
          exact this.2
        rcases step_cases hm with ⟨w, rfl, rfl⟩ | ⟨w, rfl, rfl⟩ | ⟨o, w, ho, hu, rfl⟩
        · have := hc _ List.mem_cons_self; simp [Update.isChange] at this
        · simp at hv
        · have hil : u.index < a.length := by
            by_contra hn
            rw [List.getElem?_eq_none (by omega)] at ho; cases ho
          obtain ⟨pidx, hp1, hp2, _⟩ := coords_of hd ha hd (i := u.index) (by omega)
          have hq := hp1.eraseIdx axis
          have hqr := hq.rowMajor_range
          have hlv := partialSumValue_length hd ha init a
          have hget := partialSumValue_get hd ha init a hq
          have hset := partialSumValue_set hd ha init (v := w) hp1 (by rw [hp2]; exact ho)
          obtain ⟨s1, e1, h1⟩ := h.write' (i := (rowMajor (shape.eraseIdx axis) (pidx.eraseIdx axis)).toNat)
            (by omega) (init + axisSum shape axis a (pidx.eraseIdx axis) + (w - o))
          rw [← hset, hp2] at h1
          obtain ⟨s2, e2, h2⟩ := ih (fun u hu => hc u (List.mem_cons_of_mem _ hu))
            (by simpa using hal) h1 hr'
          refine ⟨s2, ?_, h2⟩
          have hrm := hp1.rowMajor_range
          have hcast : ((u.index : Nat) : Int) = rowMajor shape pidx := by omega
          have hmap : mapParentIndex shape axis y.data.length u.index =
              .ok (rowMajor (shape.eraseIdx axis) (pidx.eraseIdx axis)) := by
            unfold mapParentIndex
            rw [guardUB_true (by rw [← shapeProd_eq] at hsz; omega), Res.ok_bind,
              guardUB_true (by omega), Res.ok_bind, hcast]
            exact mapParent_spec 0 axis (by omega) ha hp1
          have hstep : partialSumStep shape axis y.data.length s u = .ok s1 := by
            unfold partialSumStep
            rw [hmap, Res.ok_bind, h.rep.buf, hget, hu]
            exact e1
          rw [List.foldlM_cons, hstep, Res.ok_bind]
          exact e2
    exact key d hfix (hlen hx hw) (RepA.mk'_ _) hr.replays)

/-- C26.  For every shape with positive dimensions and every axis (less than the number of elements),
after every history of changes of the operand, the partial sum has at each coordinate the initial value
plus the sum of the operand's elements along the axis; each input element is counted at exactly the
coordinate which remains when its own coordinate along the axis is dropped.  Missing: axes not less than
the number of elements, see `C26_axis_fails`. -/
theorem C26_partial_sum_partial {shape : List Int} {axis : Nat} (init : Rat)
    (hd : ∀ d ∈ shape, 0 < d) (ha : axis < shape.length) (hsz : (axis : Int) < shape.prod) :
    Incremental ArrRel [] (partialSumNode shape axis init)
      (fun xs => ⟨shape.eraseIdx axis, (allCoords (shape.eraseIdx axis)).map fun idx =>
        init + ((List.range (shape.getD axis 0).toNat).map fun (j : Nat) =>
          (xs.headD ⟨[], []⟩).data.getD (rowMajor shape (idx.insertIdx axis (j : Int))).toNat 0).sum⟩)
      (fun xs => ∃ x, xs = [x] ∧ x.shape = shape ∧ x.WF) :=
  (partialSumContract init hd ha hsz).incremental

/-- C26 is false when the axis is not less than the number of elements: for an operand of shape (1, 1)
reduced along its axis 1, the first change fails the assertion `axis < array_ptr_->size(state)`
(mathematical.cpp 916), which should compare with the number of dimensions. -/
theorem C26_axis_fails :
    ∃ (shape : List Int) (axis : Nat) (x y : Arr Rat) (d : List (Update Rat)),
      (∀ e ∈ shape, 0 < e) ∧ axis < shape.length ∧ x.shape = shape ∧ x.WF ∧ y.WF ∧ ArrRel x d y ∧
      (partialSumNode shape axis 0).after [x] [] = .ok (⟨[1], [3]⟩, []) ∧
      (partialSumNode shape axis 0).after [x] [⟨[(y, d)], true⟩] = .ub :=
  ⟨[1, 1], 1, ⟨[1, 1], [3]⟩, ⟨[1, 1], [4]⟩, [Update.change 0 3 4], by decide +kernel⟩

/-! The sums over the middle axis of an array of shape (2, 3, 2), and a change of element (1, 0, 1). -/

example : (∀ d ∈ [(2 : Int), 3, 2], 0 < d) ∧ 1 < [(2 : Int), 3, 2].length ∧
    ((1 : Nat) : Int) < [(2 : Int), 3, 2].prod := by decide +kernel

example : (partialSumNode [2, 3, 2] 1 0).after [⟨[2, 3, 2], [0, 1, 2, 3, 4, 5, 6, 7, 8, 9, 10, 11]⟩] [] =
    .ok (⟨[2, 2], [6, 9, 24, 27]⟩, []) := by decide +kernel

example : (partialSumNode [2, 3, 2] 1 0).after [⟨[2, 3, 2], [0, 1, 2, 3, 4, 5, 6, 7, 8, 9, 10, 11]⟩]
    [⟨[(⟨[2, 3, 2], [0, 1, 2, 3, 4, 5, 6, 107, 8, 9, 10, 11]⟩, [Update.change 7 7 107])], true⟩] =
    .ok (⟨[2, 2], [6, 9, 24, 127]⟩, []) := by decide +kernel

end Verif
