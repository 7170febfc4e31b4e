import Verif.Lemmas.DriftArrays
import Verif.Props.Drift
import Verif.Props.FloatingPartial

/-!
# C68, sums along an axis
-/

namespace Verif

open ArrayState

section

variable {shape : List Int} {axis : Nat} (hd : ∀ d ∈ shape, 0 < d) (ha : axis < shape.length)
include hd ha

/-- The elements along the axis. -/
def axisElements (shape : List Int) (axis : Nat) (data : List Rat) (idx : List Int) : List Rat :=
  (List.range (shape.getD axis 0).toNat).map fun (j : Nat) => data.getD (rowMajor shape (idx.insertIdx axis (j : Int))).toNat 0

omit hd ha in
theorem isDouble_zero : IsDouble 0 := ⟨0, 0, by norm_num, by norm_num, by norm_num, by norm_num⟩

omit hd ha in
theorem axisElements_double {D : Rat} (hD : 0 ≤ D) {data : List Rat} (hw : ∀ v ∈ data, IsDouble v ∧ |v| ≤ D) (idx : List Int) :
    ∀ v ∈ axisElements shape axis data idx, IsDouble v ∧ |v| ≤ D := by
  intro x hx
  obtain ⟨j, _, rfl⟩ := List.mem_map.1 hx
  rw [List.getD_eq_getElem?_getD]
  cases h : data[(rowMajor shape (idx.insertIdx axis (j : Int))).toNat]? with
  | none => exact ⟨isDouble_zero, by simpa using hD⟩
  | some v => exact hw v (List.mem_of_getElem? h)

omit hd ha in
theorem abs_axisSum_le {D init : Rat} (hD : 0 ≤ D) {data : List Rat} (hw : ∀ v ∈ data, IsDouble v ∧ |v| ≤ D) (idx : List Int) :
    |init| + magnitudes (axisElements shape axis data idx) ≤ |init| + (shape.getD axis 0).toNat * D ∧
      |init + axisSum shape axis data idx| ≤ |init| + (shape.getD axis 0).toNat * D := by
  have h := axisElements_double (shape := shape) (axis := axis) hD hw idx
  have h1 := magnitudes_le (fun v hv => (h v hv).2)
  rw [show (axisElements shape axis data idx).length = (shape.getD axis 0).toNat by simp [axisElements]] at h1
  refine ⟨by linarith, ?_⟩
  have h2 : |axisSum shape axis data idx| ≤ magnitudes (axisElements shape axis data idx) := abs_sum_le _
  exact le_trans (abs_add_le _ _) (by linarith)

theorem flPartialReduce_near {fl : Rat → Rat} (R : Rounding fl) {red : List Rat → Rat}
    (hred : ∀ xs, xs ≠ [] → Combines (flAdd fl) xs (red xs)) {init D : Rat} (hi : IsDouble init) (hD : 0 ≤ D)
    (hbig : 8 * (|init| + (shape.getD axis 0).toNat * D) ≤ greatestDouble) (hn : (shape.getD axis 0).toNat ≤ 2 ^ 52)
    {x : Arr Rat} (hw : ∀ v ∈ x.data, IsDouble v ∧ |v| ≤ D)
    (hl : (x.data.length : Int) = shapeProd shape)
    {i : Nat} {idx : List Int} (hin : InShape (shape.eraseIdx axis) idx)
    (hu : unravelIndex (shapeToStrides (shape.eraseIdx axis)) i = .ok idx) :
    ∃ v, flPartialReduce red shape axis init x i = .ok v ∧ IsDouble v ∧
      |v - (init + axisSum shape axis x.data idx)| ≤
        4 * (|init| + (shape.getD axis 0).toNat * D) * (grow ((shape.getD axis 0).toNat + 0) - 1) := by
  obtain ⟨r, hr, hr0, hj⟩ := ravel_erase axis hd ha hin
  refine ⟨red (init :: axisElements shape axis x.data idx), ?_, ?_⟩
  · unfold flPartialReduce
    rw [hu, Res.ok_bind, hr, Res.ok_bind]
    rw [mapM_ok _ (fun (j : Nat) => x.data.getD (rowMajor shape (idx.insertIdx axis (j : Int))).toNat 0)]
    · rfl
    · intro j hjm
      rw [List.mem_range] at hjm
      have hin' : InShape shape (idx.insertIdx axis (j : Int)) := hin.insertIdx axis _ ha (by omega) (by omega)
      have r1 := hin'.rowMajor_range
      rw [hj, Arr.read_getD (by omega)]
      rfl
  · have hel := axisElements_double (shape := shape) (axis := axis) hD hw idx
    have hlen : (axisElements shape axis x.data idx).length = (shape.getD axis 0).toNat := by simp [axisElements]
    have es : (axisElements shape axis x.data idx).sum = axisSum shape axis x.data idx := rfl
    obtain ⟨hm, _⟩ := abs_axisSum_le (shape := shape) (axis := axis) (init := init) hD hw idx
    generalize axisElements shape axis x.data idx = l at *
    generalize (shape.getD axis 0).toNat = n at *
    have hA0 : 0 ≤ |init| + n * D := by positivity
    have em : magnitudes (init :: l) = |init| + magnitudes l := by simp [magnitudes]
    have hm0 := magnitudes_nonneg (init :: l)
    have hgl : grow (init :: l).length ≤ 8 := by
      have h1 := two_bound (n := n) (limit := 0) (by omega) 0 (by omega)
      have h2 : grow (init :: l).length ≤ grow (n + 0 + 1) := grow_mono (by simp; omega)
      rw [grow_succ (n + 0)] at h2
      have h3 : grow (n + 0) * (1 + 1 / 2 ^ 53) ≤ 2 * (1 + 1 / 2 ^ 53) := mul_le_mul_of_nonneg_right h1 (by norm_num)
      have h4 : (2 : Rat) * (1 + 1 / 2 ^ 53) ≤ 8 := by norm_num
      linarith
    obtain ⟨hdv, he⟩ := (hred (init :: l) (by simp)).error R (by
      intro v hv
      rcases List.mem_cons.1 hv with rfl | hv
      · exact hi
      · exact (hel v hv).1) (by
      refine le_trans ?_ hbig
      exact mul_le_mul hgl (by rw [em]; exact hm) hm0 (by norm_num))
    refine ⟨hdv, ?_⟩
    rw [List.sum_cons, es] at he
    refine le_trans he ?_
    have h1 : grow ((init :: l).length - 1) ≤ grow (n + 0) := grow_mono (by simp; omega)
    have h2 := one_le_grow (n + 0)
    have h3 : (grow ((init :: l).length - 1) - 1) * magnitudes (init :: l) ≤ (grow (n + 0) - 1) * (|init| + n * D) :=
      mul_le_mul (by linarith) (by rw [em]; exact hm) hm0 (by linarith)
    have h4 : 0 ≤ (grow (n + 0) - 1) * (|init| + n * D) := mul_nonneg (by linarith) hA0
    linarith

/-- One change. -/
theorem flPartialSum_drift {fl : Rat → Rat} (R : Rounding fl) {init D : Rat} (hD : 0 ≤ D)
    (hbig : 8 * (|init| + (shape.getD axis 0).toNat * D) ≤ greatestDouble) {g : Rat} (hg1 : 1 ≤ g) (hg2 : g ≤ 2)
    {a m com l : List Rat} {fixed : Bool} {s : ArrayState Rat} {u : Update Rat}
    {size : Nat} (hsize : (size : Int) = shapeProd shape) (hsz : (axis : Int) < shape.prod)
    (hc : u.isChange = true) (hal : (a.length : Int) = shapeProd shape) (haw : ∀ v ∈ a, IsDouble v ∧ |v| ≤ D)
    (hv : ∀ v, u.value = some v → IsDouble v ∧ |v| ≤ D) (h : RepA fixed s com l)
    (hcl : CloseTo (4 * (|init| + (shape.getD axis 0).toNat * D) * (g - 1)) l (partialSumValue shape axis init a)) (hm : u.step a = some m) :
    ∃ s1 l1, flPartialSumStep fl shape axis size s u = .ok s1 ∧ RepA fixed s1 com l1 ∧
      CloseTo (4 * (|init| + (shape.getD axis 0).toNat * D) * (g * (1 + 1 / 2 ^ 53) - 1)) l1 (partialSumValue shape axis init m) ∧
      (m.length : Int) = shapeProd shape ∧ ∀ v ∈ m, IsDouble v ∧ |v| ≤ D := by
  rcases step_cases hm with ⟨w, rfl, rfl⟩ | ⟨w, rfl, rfl⟩ | ⟨o, w, ho, hu, rfl⟩
  · simp [Update.isChange] at hc
  · simp [Update.isChange] at hc
  · have hil : u.index < a.length := by
      by_contra hn
      rw [List.getElem?_eq_none (by omega)] at ho; cases ho
    obtain ⟨do', bo⟩ := haw o (List.mem_of_getElem? ho)
    obtain ⟨dw, bw⟩ := hv w (by rw [hu])
    have hmw : ∀ v ∈ a.set u.index w, IsDouble v ∧ |v| ≤ D := by
      intro v hv
      rcases List.mem_or_eq_of_mem_set hv with hv | rfl
      · exact haw v hv
      · exact ⟨dw, bw⟩
    obtain ⟨pidx, hp1, hp2, _⟩ := coords_of hd ha hd (i := u.index) (by omega)
    have hq := hp1.eraseIdx axis
    have hqr := hq.rowMajor_range
    have hlv := partialSumValue_length hd ha init a
    have hget := partialSumValue_get hd ha init a hq
    have hset := partialSumValue_set hd ha init (v := w) hp1 (by rw [hp2]; exact ho)
    have hax := axisSum_set hd ha (v := w) hp1 hq (by rw [hp2]; exact ho)
    rw [if_pos rfl, hp2] at hax
    rw [hp2] at hset
    have hll := hcl.length
    have hpl : (rowMajor (shape.eraseIdx axis) (pidx.eraseIdx axis)).toNat < l.length := by omega
    have hrm := hp1.rowMajor_range
    have hcast : ((u.index : Nat) : Int) = rowMajor shape pidx := by omega
    have hmap : mapParentIndex shape axis size u.index =
        .ok (rowMajor (shape.eraseIdx axis) (pidx.eraseIdx axis)) := by
      unfold mapParentIndex
      rw [guardUB_true (by rw [← shapeProd_eq] at hsz; omega), Res.ok_bind,
        guardUB_true (by omega), Res.ok_bind, hcast]
      exact mapParent_spec 0 axis (by omega) ha hp1
    obtain ⟨_, hS'⟩ := abs_axisSum_le (shape := shape) (axis := axis) (init := init) hD hmw (pidx.eraseIdx axis)
    have hk : 1 ≤ (shape.getD axis 0).toNat := by
      have : 0 < shape.getD axis 0 := by
        rw [List.getD_eq_getElem?_getD, List.getElem?_eq_getElem ha]
        exact hd _ (List.getElem_mem ha)
      omega
    generalize hpe : (rowMajor (shape.eraseIdx axis) (pidx.eraseIdx axis)).toNat = p at *
    generalize (shape.getD axis 0).toNat = n at *
    have hn1 : (1 : Rat) ≤ n := by exact_mod_cast hk
    have hA0 : 0 ≤ |init| + n * D := by positivity
    have hDA : D ≤ |init| + n * D := by
      have := mul_le_mul_of_nonneg_right hn1 hD
      have := abs_nonneg init
      linarith
    obtain ⟨dl, bl⟩ := hcl.near p l[p] _ (List.getElem?_eq_getElem hpl) hget
    have hwo : |w - o| ≤ 2 * (|init| + n * D) := le_trans (abs_sub _ _) (by linarith)
    have hq' : |w - o| ≤ greatestDouble := by linarith
    obtain ⟨r1, r2⟩ := drift_step R hbig hg2 dl (R.double _ hq') hS' bl (by
      rw [show init + axisSum shape axis (a.set u.index w) (pidx.eraseIdx axis) - (init + axisSum shape axis a (pidx.eraseIdx axis)) = w - o by
        rw [hax]; ring]
      exact le_trans (R.error_sub dw do' hq') (div_le_div_of_nonneg_right hwo (by norm_num)))
    obtain ⟨s1, e1, h1⟩ := h.write' hpl (fl (l[p] + fl (w - o)))
    refine ⟨s1, _, ?_, h1, ?_, by simpa using hal, hmw⟩
    · unfold flPartialSumStep
      rw [hmap, Res.ok_bind, h.rep.buf, hu, hpe, List.getElem?_eq_getElem hpl]
      exact e1
    · rw [hset]
      refine (hcl.mono ?_).set _ r1 ?_
      · have : g - 1 ≤ g * (1 + 1 / 2 ^ 53) - 1 := by linarith
        exact mul_le_mul_of_nonneg_left this (by linarith)
      · rw [hax, ← add_assoc] at r2
        exact r2

end

/-- C68, sums along an axis.  Let the elements of an array of fixed shape be doubles of magnitude at most `D`, with `n` of them along the
axis, and let the initial value be a double.  After every history in which `k` changes have been committed, every element of the sum
along the axis in the arithmetic of doubles differs from the exact sum by at most `(n + k) / 2^50` times the greatest possible sum
`|init| + n D`.  Changes that are reverted leave no error. -/
theorem C68_partial_sum {fl : Rat → Rat} (R : Rounding fl) {red : List Rat → Rat}
    (hred : ∀ xs, xs ≠ [] → Combines (flAdd fl) xs (red xs)) {shape : List Int} {axis : Nat}
    (hd : ∀ d ∈ shape, 0 < d) (ha : axis < shape.length) (hsz : (axis : Int) < shape.prod)
    {init D : Rat} (size : Nat) {n limit : Nat} (hn : n = (shape.getD axis 0).toNat) (hi : IsDouble init) (hD : 0 ≤ D)
    (hbig : 8 * (|init| + n * D) ≤ greatestDouble) (hlim : n + limit ≤ 2 ^ 52) :
    DriftsEverywhere (DoubleRel size fun v => |v| ≤ D) (flPartialSumNode fl red shape axis init)
      (fun xs => ⟨shape.eraseIdx axis, (allCoords (shape.eraseIdx axis)).map fun idx =>
        init + ((List.range n).map fun (j : Nat) =>
          (xs.headD ⟨[], []⟩).data.getD (rowMajor shape (idx.insertIdx axis (j : Int))).toNat 0).sum⟩)
      (fun xs => ∃ x, xs = [x] ∧ x.shape = shape ∧ x.WF ∧ DoubleArr size (fun v => |v| ≤ D) x)
      (fun k _ => (n + k) * (|init| + n * D) / 2 ^ 50) limit := by
  subst hn
  have hA0 : 0 ≤ |init| + (shape.getD axis 0).toNat * D := by positivity
  have hdyn : ∀ {z : Arr Rat}, z.shape = shape → z.dynamic = false := by
    intro z hz
    unfold Arr.dynamic dynamicShape
    rw [hz]
    cases shape with
    | nil => rfl
    | cons d s => have := hd d List.mem_cons_self; simp; omega
  have hlen : ∀ {z : Arr Rat}, z.shape = shape → z.WF → (z.data.length : Int) = shapeProd shape := by
    intro z hz hzw
    unfold Arr.WF at hzw
    rw [hdyn hz, hz] at hzw
    rw [shapeProd_eq]; simpa using hzw
  have hg2 := two_bound hlim
  refine arrayNode_drifts (fun j xs l => ∀ x, xs = [x] →
    CloseTo (4 * (|init| + (shape.getD axis 0).toNat * D) * (grow ((shape.getD axis 0).toNat + j) - 1)) l
      (partialSumValue shape axis init x.data)) ?_ ?_ ?_
  · rintro xs ⟨x, rfl, hx, hw, hx'⟩
    have he := dims_erase hd ha
    have hpos := shapeProd_pos he
    have hl := hlen hx hw
    have l1 := partialSumValue_length hd ha init x.data
    have each : ∀ i ∈ List.range (shape.eraseIdx axis).prod.toNat, ∃ v, flPartialReduce red shape axis init x i = .ok v ∧ IsDouble v ∧
        ∀ w, (partialSumValue shape axis init x.data)[i]? = some w → |v - w| ≤
          4 * (|init| + (shape.getD axis 0).toNat * D) * (grow ((shape.getD axis 0).toNat + 0) - 1) := by
      intro i hi'
      rw [List.mem_range, ← shapeProd_eq] at hi'
      obtain ⟨idx, h1, h2, h3⟩ := coords_of hd ha he (i := i) (by omega)
      obtain ⟨v, e1, e2, e3⟩ := flPartialReduce_near hd ha R hred hi hD hbig (by omega) hx'.double hl h1 h3
      refine ⟨v, e1, e2, fun w hw' => ?_⟩
      rw [← h2, partialSumValue_get hd ha init _ h1] at hw'
      cases hw'
      exact e3
    choose! F hF using each
    refine ⟨(List.range (shape.eraseIdx axis).prod.toNat).map F, ?_, ?_⟩
    · simp only [flPartialSumInit]
      exact mapM_ok _ F _ (fun i hi' => (hF i hi').1)
    · rintro _ ⟨rfl⟩
      refine ⟨by rw [List.length_map, List.length_range, ← shapeProd_eq]; omega, fun i v w hv hw' => ?_⟩
      rw [List.getElem?_map] at hv
      obtain ⟨k, hk, rfl⟩ := Option.map_eq_some_iff.1 hv
      obtain ⟨hk1, hk2⟩ := List.getElem?_eq_some_iff.1 hk
      rw [List.getElem_range] at hk2
      subst hk2
      have := hF i (List.mem_of_getElem? hk)
      exact ⟨this.2.1, this.2.2 w hw'⟩
  · rintro j xs ins ys l ⟨x, rfl, hx, hw, hx'⟩ ⟨z, hy, hys, hyw, hy'⟩ hi' hj hg
    obtain ⟨d, y, rfl, rfl, hr⟩ := hi'.one
    obtain rfl : y = z := by simpa using hy
    have hcd : changesIn [(y, d)] = d.length := by simp [changesIn]
    rw [hcd] at hj ⊢
    have key : ∀ (d : List (Update Rat)) (j : Nat) (a b : List Rat) (s : ArrayState Rat) (l' : List Rat),
        RepA (!dynamicShape (shape.eraseIdx axis)) s l l' →
        CloseTo (4 * (|init| + (shape.getD axis 0).toNat * D) * (grow ((shape.getD axis 0).toNat + j) - 1)) l' (partialSumValue shape axis init a) →
        (a.length : Int) = shapeProd shape → (∀ v ∈ a, IsDouble v ∧ |v| ≤ D) → (∀ u ∈ d, u.isChange = true) →
        (∀ u ∈ d, ∀ v, u.value = some v → IsDouble v ∧ |v| ≤ D) → Replays a d b → j + d.length ≤ limit →
        ∃ s1 l1, d.foldlM (flPartialSumStep fl shape axis y.data.length) s = .ok s1 ∧
          RepA (!dynamicShape (shape.eraseIdx axis)) s1 l l1 ∧
          CloseTo (4 * (|init| + (shape.getD axis 0).toNat * D) * (grow ((shape.getD axis 0).toNat + (j + d.length)) - 1)) l1
            (partialSumValue shape axis init b) := by
      intro d
      induction d with
      | nil =>
        intro j a b s l' h hcl _ _ _ _ hr _
        simp only [replays_nil] at hr
        subst hr
        exact ⟨s, l', rfl, h, hcl⟩
      | cons u d ih =>
        intro j a b s l' h hcl hal haw hch hv hr hl
        obtain ⟨m, hm, hr'⟩ := replays_cons.1 hr
        rw [List.length_cons] at hl
        obtain ⟨s1, l1, e1, h1, c1, m1, m2⟩ := flPartialSum_drift hd ha R hD hbig (one_le_grow _) (hg2 j (by omega)) (hlen hys hyw) hsz
          (hch u List.mem_cons_self) hal haw (hv u List.mem_cons_self) h hcl hm
        rw [← grow_succ, Nat.add_assoc] at c1
        obtain ⟨s2, l2, e2, h2, c2⟩ := ih (j + 1) m b s1 l1 h1 c1 m1 m2 (fun v hv => hch v (List.mem_cons_of_mem _ hv))
          (fun v hv' => hv v (List.mem_cons_of_mem _ hv')) hr' (by omega)
        refine ⟨s2, l2, by rw [List.foldlM_cons, e1]; exact e2, h2, ?_⟩
        rw [List.length_cons, show j + (d.length + 1) = j + 1 + d.length by omega]
        exact c2
    obtain ⟨s1, l1, e1, h1, c1⟩ := key d j x.data y.data (ArrayState.mk' l) l (RepA.mk'_ l) (hg x rfl) (hlen hx hw) hx'.double
      (hr.exact.fixed (hdyn hx)) hr.new hr.exact.replays hj
    refine ⟨s1, l1, e1, h1, ?_⟩
    rintro _ ⟨rfl⟩
    exact c1
  · rintro j xs l ⟨x, rfl, _⟩ hj hg
    have hc := hg x rfl
    refine ⟨rfl, hc.length, fun i v w hv hw => le_trans (hc.near i v w hv hw).2 ?_⟩
    have h1 : grow ((shape.getD axis 0).toNat + j) ≤ 1 + (((shape.getD axis 0).toNat + j : Nat) : Rat) / 2 ^ 52 := grow_le (by omega)
    have h2 := mul_le_mul_of_nonneg_left (sub_le_sub_right h1 1) (by linarith : 0 ≤ 4 * (|init| + (shape.getD axis 0).toNat * D))
    refine le_trans h2 (le_of_eq ?_)
    push_cast
    ring

/-- A table of ten rows and four columns, elements up to ten thousand, a million changes: the sums of the columns err by less than a
thousandth. -/
example : ∃ f ok, DriftsEverywhere (DoubleRel 40 fun v => |v| ≤ 10 ^ 4)
    (flPartialSumNode roundDouble (fun xs => xs.tail.foldl (flAdd roundDouble) (xs.headD 0)) [10, 4] 0 0) f ok
    (fun k _ => ((10 : Nat) + k) * (|0| + (10 : Nat) * 10 ^ 4) / 2 ^ 50) (10 ^ 6) ∧
    ok [⟨[10, 4], List.replicate 40 (1 / 2)⟩] ∧
    (((10 : Nat) : Rat) + (10 ^ 6 : Nat)) * (|0| + (10 : Nat) * 10 ^ 4) / 2 ^ 50 < 1 / 1000 :=
  ⟨_, _, C68_partial_sum roundDouble_rounding (fun xs h => by
    cases xs with
    | nil => exact absurd rfl h
    | cons x l => exact combines_foldl _ l x) (by simp) (by simp) (by simp) 40 (by rfl) isDouble_zero (by norm_num)
    (le_greatest (by norm_num)) (by norm_num), ⟨_, rfl, rfl, by simp [Arr.WF, Arr.dynamic, dynamicShape], by simp, fun v hv => by
      rw [(List.mem_replicate.1 hv).2]
      exact ⟨⟨1, -1, by norm_num, by norm_num, by norm_num, by norm_num⟩, by norm_num [abs_of_pos]⟩⟩, by norm_num⟩

end Verif
