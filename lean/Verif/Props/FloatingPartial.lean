import Verif.Props.Floating
import Verif.Props.PartialReduce

/-!
# C67, sums along an axis
-/

namespace Verif

open ArrayState

section

variable {shape : List Int} {axis : Nat} (hd : ∀ d ∈ shape, 0 < d) (ha : axis < shape.length)
include hd ha

omit hd ha in
theorem whole_axisSum {M : Int} (hM0 : 0 ≤ M) {data : List Rat} (hw : ∀ v ∈ data, Whole M v) (idx : List Int) :
    Whole ((shape.getD axis 0).toNat * M) (axisSum shape axis data idx) := by
  have := whole_sum (M := M) (l := (List.range (shape.getD axis 0).toNat).map fun (j : Nat) =>
    data.getD (rowMajor shape (idx.insertIdx axis (j : Int))).toNat 0) (by
    intro x hx
    obtain ⟨j, _, rfl⟩ := List.mem_map.1 hx
    rw [List.getD_eq_getElem?_getD]
    cases h : data[(rowMajor shape (idx.insertIdx axis (j : Int))).toNat]? with
    | none => exact whole_zero hM0
    | some v => exact hw v (List.mem_of_getElem? h))
  rw [List.length_map, List.length_range] at this
  exact this

theorem flPartialReduce_ok {fl : Rat → Rat} (K : KeepsWhole fl) {red : List Rat → Rat}
    (hred : ∀ xs, xs ≠ [] → Combines (flAdd fl) xs (red xs)) {init : Rat} {I M : Int} (hI : Whole I init) (hM0 : 0 ≤ M)
    (hM : I + (shape.getD axis 0).toNat * M ≤ 2 ^ 53) {x : Arr Rat} (hw : ∀ v ∈ x.data, Whole M v)
    (hl : (x.data.length : Int) = shapeProd shape)
    {i : Nat} {idx : List Int} (hi : InShape (shape.eraseIdx axis) idx)
    (hu : unravelIndex (shapeToStrides (shape.eraseIdx axis)) i = .ok idx) :
    flPartialReduce red shape axis init x i = .ok (init + axisSum shape axis x.data idx) := by
  obtain ⟨r, hr, hr0, hj⟩ := ravel_erase axis hd ha hi
  unfold flPartialReduce
  rw [hu, Res.ok_bind, hr, Res.ok_bind]
  rw [mapM_ok _ (fun (j : Nat) => x.data.getD (rowMajor shape (idx.insertIdx axis (j : Int))).toNat 0)]
  · rw [Res.ok_bind]
    congr 1
    refine (hred _ (by simp)).whole K hI (M := M) (n := (shape.getD axis 0).toNat) ?_ (by simp) hM0 hM
    intro v hv
    obtain ⟨j, _, rfl⟩ := List.mem_map.1 hv
    rw [List.getD_eq_getElem?_getD]
    cases h : x.data[(rowMajor shape (idx.insertIdx axis (j : Int))).toNat]? with
    | none => exact whole_zero hM0
    | some v => exact hw v (List.mem_of_getElem? h)
  · intro j hjm
    rw [List.mem_range] at hjm
    have hin : InShape shape (idx.insertIdx axis (j : Int)) :=
      hi.insertIdx axis _ ha (by omega) (by omega)
    have r1 := hin.rowMajor_range
    rw [hj, Arr.read_getD (by omega)]
    rfl

/-- One change. -/
theorem flPartialSum_step {fl : Rat → Rat} (K : KeepsWhole fl) {init : Rat} {I M : Int} (hI : Whole I init) (hM0 : 0 ≤ M)
    (hM : I + ((shape.getD axis 0).toNat + 1) * M ≤ 2 ^ 53) {a m com : List Rat} {fixed : Bool} {s : ArrayState Rat} {u : Update Rat}
    {size : Nat} (hsize : (size : Int) = shapeProd shape) (hsz : (axis : Int) < shape.prod)
    (hc : u.isChange = true) (hal : (a.length : Int) = shapeProd shape) (haw : ∀ v ∈ a, Whole M v)
    (hv : ∀ v, u.value = some v → Whole M v) (h : RepA fixed s com (partialSumValue shape axis init a)) (hm : u.step a = some m) :
    ∃ s1, flPartialSumStep fl shape axis size s u = .ok s1 ∧ partialSumStep shape axis size s u = .ok s1 ∧
      RepA fixed s1 com (partialSumValue shape axis init m) ∧ (m.length : Int) = shapeProd shape ∧ ∀ v ∈ m, Whole M v := by
  rcases step_cases hm with ⟨w, rfl, rfl⟩ | ⟨w, rfl, rfl⟩ | ⟨o, w, ho, hu, rfl⟩
  · simp [Update.isChange] at hc
  · simp [Update.isChange] at hc
  · have hil : u.index < a.length := by
      by_contra hn
      rw [List.getElem?_eq_none (by omega)] at ho; cases ho
    have hwo : Whole M o := haw o (List.mem_of_getElem? ho)
    have hww : Whole M w := hv w (by rw [hu])
    have hmw : ∀ v ∈ a.set u.index w, Whole M v := by
      intro v hv
      rcases List.mem_or_eq_of_mem_set hv with hv | rfl
      · exact haw v hv
      · exact hww
    obtain ⟨pidx, hp1, hp2, _⟩ := coords_of hd ha hd (i := u.index) (by omega)
    have hq := hp1.eraseIdx axis
    have hqr := hq.rowMajor_range
    have hlv := partialSumValue_length hd ha init a
    have hget := partialSumValue_get hd ha init a hq
    have hset := partialSumValue_set hd ha init (v := w) hp1 (by rw [hp2]; exact ho)
    have hax := axisSum_set hd ha (v := w) hp1 hq (by rw [hp2]; exact ho)
    rw [if_pos rfl, hp2] at hax
    obtain ⟨s1, e1, h1⟩ := h.write' (i := (rowMajor (shape.eraseIdx axis) (pidx.eraseIdx axis)).toNat)
      (by omega) (init + axisSum shape axis a (pidx.eraseIdx axis) + (w - o))
    rw [← hset, hp2] at h1
    have hrm := hp1.rowMajor_range
    have hcast : ((u.index : Nat) : Int) = rowMajor shape pidx := by omega
    have hmap : mapParentIndex shape axis size u.index =
        .ok (rowMajor (shape.eraseIdx axis) (pidx.eraseIdx axis)) := by
      unfold mapParentIndex
      rw [guardUB_true (by rw [← shapeProd_eq] at hsz; omega), Res.ok_bind,
        guardUB_true (by omega), Res.ok_bind, hcast]
      exact mapParent_spec 0 axis (by omega) ha hp1
    have hk : 1 ≤ (shape.getD axis 0).toNat := by
      have : 0 < shape.getD axis 0 := by
        rw [List.getD_eq_getElem?_getD, List.getElem?_eq_getElem ha]
        exact hd _ (List.getElem_mem ha)
      omega
    have hkM : M ≤ ((shape.getD axis 0).toNat : Int) * M := by
      have : (1 : Int) ≤ ((shape.getD axis 0).toNat : Int) := by exact_mod_cast hk
      nlinarith
    have hI0 := hI.nonneg
    have f1 : fl (w - o) = w - o := K.eq (hww.sub hwo) (by linarith)
    have f2 : fl (init + axisSum shape axis a (pidx.eraseIdx axis) + (w - o)) =
        init + axisSum shape axis a (pidx.eraseIdx axis) + (w - o) := by
      rw [add_assoc, ← hax]
      exact K.eq (hI.add (whole_axisSum hM0 hmw _)) (by linarith)
    refine ⟨s1, ?_, ?_, h1, by simpa using hal, hmw⟩
    · unfold flPartialSumStep
      rw [hmap, Res.ok_bind, h.rep.buf, hget, hu]
      dsimp only [Update.change]
      rw [flAdd, flSub, f1, f2]
      exact e1
    · unfold partialSumStep
      rw [hmap, Res.ok_bind, h.rep.buf, hget, hu]
      exact e1

end

/-- As long as all elements are whole numbers and no sum of magnitudes exceeds 2^53, a sum along an axis is exact in the arithmetic of
doubles, after every history. -/
theorem C67_partial_sum {fl : Rat → Rat} (R : Rounding fl) {red : List Rat → Rat}
    (hred : ∀ xs, xs ≠ [] → Combines (flAdd fl) xs (red xs)) {shape : List Int} {axis : Nat}
    (hd : ∀ d ∈ shape, 0 < d) (ha : axis < shape.length) (hsz : (axis : Int) < shape.prod)
    {init : Rat} {I M : Int} (n : Nat) (hI : Whole I init) (hM0 : 0 ≤ M) (hM : I + ((shape.getD axis 0).toNat + 1) * M ≤ 2 ^ 53) :
    IncrementalWithin (WholeRel n M) ArrRel [] (flPartialSumNode fl red shape axis init)
      (fun xs => ⟨shape.eraseIdx axis, (allCoords (shape.eraseIdx axis)).map fun idx =>
        init + ((List.range (shape.getD axis 0).toNat).map fun (j : Nat) =>
          (xs.headD ⟨[], []⟩).data.getD (rowMajor shape (idx.insertIdx axis (j : Int))).toNat 0).sum⟩)
      (fun xs => ∃ x, xs = [x] ∧ x.shape = shape ∧ x.WF ∧ WholeArr n M x) := by
  have K := R.keepsWhole
  have hdyn : ∀ {z : Arr Rat}, z.shape = shape → z.dynamic = false := by
    intro z hz
    unfold Arr.dynamic dynamicShape
    rw [hz]
    cases shape with
    | nil => rfl
    | cons d s => have := hd d List.mem_cons_self; simp; omega
  have hlen : ∀ {z : Arr Rat}, z.shape = shape → z.WF → (z.data.length : Int) = shapeProd shape := by
    intro z hz hzw
    unfold Arr.WF at hzw
    rw [hdyn hz, hz] at hzw
    rw [shapeProd_eq]; simpa using hzw
  refine IncrementalWithin.imitate (N := flPartialSumNode fl red shape axis init) (partialSumContract init hd ha hsz) id
    (fun xs h => h.imp fun x hx => ⟨hx.1, hx.2.1, hx.2.2.1⟩) (fun _ _ _ h => h.exact)
    (fun _ => rfl) (fun _ => rfl) (fun _ _ h => h) (fun _ _ h => h) ?_ ?_
  · rintro xs s ⟨x, rfl, hx, hw, hx'⟩ h
    have he := dims_erase hd ha
    have hpos := shapeProd_pos he
    have hl := hlen hx hw
    have e1 : flPartialSumInit red shape axis init [x] = partialSumInit shape axis init [x] := by
      simp only [flPartialSumInit, partialSumInit]
      have l1 := partialSumValue_length hd ha init x.data
      rw [mapM_ok _ (fun i => (partialSumValue shape axis init x.data).getD i 0),
        mapM_ok _ (fun i => (partialSumValue shape axis init x.data).getD i 0)]
      · intro i hi
        rw [List.mem_range, ← shapeProd_eq] at hi
        obtain ⟨idx, h1, h2, h3⟩ := coords_of hd ha he (i := i) (by omega)
        rw [partialReduce_ok hd ha init hl h1 h3, List.getD_eq_getElem?_getD, ← h2,
          partialSumValue_get hd ha init _ h1]
        rfl
      · intro i hi
        rw [List.mem_range, ← shapeProd_eq] at hi
        obtain ⟨idx, h1, h2, h3⟩ := coords_of hd ha he (i := i) (by omega)
        rw [flPartialReduce_ok hd ha K hred hI hM0 (by linarith) hx'.whole hl h1 h3, List.getD_eq_getElem?_getD, ← h2,
          partialSumValue_get hd ha init _ h1]
        rfl
    simp only [id]
    rw [e1]
    exact h
  · rintro s xs ins ys s' hc ⟨x, rfl, hx, hw, hx'⟩ ⟨z, hy, hys, hyw, hy'⟩ hi h
    obtain ⟨d, y, rfl, rfl, hr⟩ := hi.one
    obtain rfl : y = z := by simpa using hy
    have hc' : s = ArrayState.mk' (partialSumValue shape axis init x.data) := hc
    subst hc'
    have hag := foldlM_agree (step := partialSumStep shape axis y.data.length) (step' := flPartialSumStep fl shape axis y.data.length)
      (fun s d => ∃ a b, RepA (!dynamicShape shape) s (partialSumValue shape axis init x.data) (partialSumValue shape axis init a) ∧
        Replays a d b ∧ (a.length : Int) = shapeProd shape ∧ (∀ v ∈ a, Whole M v) ∧ (∀ u ∈ d, u.isChange = true) ∧
        (∀ u ∈ d, ∀ w, u.value = some w → Whole M w)) (by
      rintro s u d ⟨a, b, h, hrep, hal, haw, hc, hv⟩
      obtain ⟨m, hm, hrep'⟩ := replays_cons.1 hrep
      obtain ⟨s1, e1, e2, h1, h2, h3⟩ := flPartialSum_step hd ha K hI hM0 hM (hlen hys hyw) hsz (hc u List.mem_cons_self) hal haw
        (hv u List.mem_cons_self) h hm
      refine ⟨by rw [e1, e2], fun s2 hs2 => ?_⟩
      obtain rfl : s1 = s2 := by rw [e2] at hs2; exact Res.ok.inj hs2
      exact ⟨m, b, h1, hrep', h2, h3, fun u hu => hc u (List.mem_cons_of_mem _ hu), fun u hu => hv u (List.mem_cons_of_mem _ hu)⟩) d
      (ArrayState.mk' (partialSumValue shape axis init x.data))
      ⟨x.data, y.data, RepA.mk'_ _, hr.exact.replays, hlen hx hw, hx'.whole, hr.exact.fixed (hdyn hx), hr.new⟩
    simp only [partialSumPropagate] at h
    simp only [flPartialSumPropagate, id]
    rw [hag]
    exact h

/-- A table of five rows, elements up to a billion, summed along the rows' index and from the last to the first. -/
example : ∃ f ok, IncrementalWithin (WholeRel 20 (10 ^ 9)) ArrRel []
    (flPartialSumNode roundDouble (fun xs => (xs.reverse.tail).foldl (flAdd roundDouble) (xs.reverse.headD 0)) [5, 4] 0 (-3)) f ok :=
  ⟨_, _, C67_partial_sum roundDouble_rounding (fun xs h => by
    cases hx : xs.reverse with
    | nil => exact absurd (List.reverse_eq_nil_iff.1 hx) h
    | cons x l =>
      have := combines_foldl (flAdd roundDouble) l x
      rw [← hx] at this
      simp only [List.headD_cons, List.tail_cons]
      exact this.perm (List.reverse_perm xs)) (by decide) (by decide) (by decide) 20
    (I := 3) ⟨-3, by norm_num, by norm_num⟩ (by norm_num) (by norm_num)⟩

end Verif
