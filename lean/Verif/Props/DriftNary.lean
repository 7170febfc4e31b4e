import Verif.Lemmas.DriftArrays
import Verif.Props.Drift
import Verif.Props.FloatingNary

/-!
# C68, element-wise sums of several arrays
-/

namespace Verif

open ArrayState

/-- One change: the old term is subtracted and the new one added. -/
theorem nary_drift_step {fl : Rat → Rat} (R : Rounding fl) {A cur o v S g : Rat} (hA : 4 * A ≤ greatestDouble) (hg : g ≤ 2)
    (hc : IsDouble cur) (ho : IsDouble o) (hv : IsDouble v) (hP : |S - o| ≤ A) (hP' : |S - o + v| ≤ A) (hb : |cur - S| ≤ A * (g - 1)) :
    IsDouble (fl (fl (cur - o) + v)) ∧
      |fl (fl (cur - o) + v) - (S - o + v)| ≤ A * (g * (1 + 1 / 2 ^ 53) * (1 + 1 / 2 ^ 53) - 1) := by
  have hA0 : 0 ≤ A := le_trans (abs_nonneg _) hP
  have hgA : A * g ≤ A * 2 := mul_le_mul_of_nonneg_left hg hA0
  have h1 : |cur - o| ≤ A * g := by
    have e : cur - o = (S - o) + (cur - S) := by ring
    rw [e]
    refine le_trans (abs_add_le _ _) ?_
    have : A * g = A + A * (g - 1) := by ring
    linarith
  have q1 : |cur - o| ≤ greatestDouble := by linarith
  have d1 := R.double _ q1
  have r1 := R.error_sub hc ho q1
  generalize fl (cur - o) = q at *
  have h2 : |q - (S - o)| ≤ A * (g * (1 + 1 / 2 ^ 53) - 1) := by
    have e : q - (S - o) = (q - (cur - o)) + (cur - S) := by ring
    rw [e]
    refine le_trans (abs_add_le _ _) ?_
    have : |cur - o| / 2 ^ 53 ≤ A * g / 2 ^ 53 := div_le_div_of_nonneg_right h1 (by norm_num)
    have : A * (g * (1 + 1 / 2 ^ 53) - 1) = A * g / 2 ^ 53 + A * (g - 1) := by ring
    linarith
  have h3 : |q + v| ≤ A * (g * (1 + 1 / 2 ^ 53)) := by
    have e : q + v = (S - o + v) + (q - (S - o)) := by ring
    rw [e]
    refine le_trans (abs_add_le _ _) ?_
    have : A * (g * (1 + 1 / 2 ^ 53)) = A + A * (g * (1 + 1 / 2 ^ 53) - 1) := by ring
    linarith
  have q2 : |q + v| ≤ greatestDouble := by
    refine le_trans h3 (le_trans ?_ hA)
    have : A * (g * (1 + 1 / 2 ^ 53)) = A * g + A * g / 2 ^ 53 := by ring
    have : A * g / 2 ^ 53 ≤ A * 2 / 2 ^ 53 := div_le_div_of_nonneg_right hgA (by norm_num)
    have : A * 2 / 2 ^ 53 ≤ A := by rw [div_le_iff₀ (by norm_num)]; linarith
    linarith
  refine ⟨R.double _ q2, ?_⟩
  have r2 := R.error_add d1 hv q2
  have e : fl (q + v) - (S - o + v) = (fl (q + v) - (q + v)) + (q - (S - o)) := by ring
  rw [e]
  refine le_trans (abs_add_le _ _) ?_
  have : |q + v| / 2 ^ 53 ≤ A * (g * (1 + 1 / 2 ^ 53)) / 2 ^ 53 := div_le_div_of_nonneg_right h3 (by norm_num)
  have : A * (g * (1 + 1 / 2 ^ 53) * (1 + 1 / 2 ^ 53) - 1) = A * (g * (1 + 1 / 2 ^ 53)) / 2 ^ 53 + A * (g * (1 + 1 / 2 ^ 53) - 1) := by ring
  linarith

/-- The exact sums, position by position. -/
def columnSums (n : Nat) (xs : List (Arr Rat)) : List Rat := (List.range n).map fun i => (column i xs).sum

theorem columnSums_get {n i : Nat} (hi : i < n) (xs : List (Arr Rat)) : (columnSums n xs)[i]? = some (column i xs).sum := by
  simp [columnSums, hi]

theorem naryValue_sums {n : Nat} {xs : List (Arr Rat)} (hne : xs ≠ []) (hl : ∀ x ∈ xs, x.data.length = n) :
    naryValue (· + ·) xs = columnSums n xs := by
  cases xs with
  | nil => exact absurd rfl hne
  | cons x rest =>
    apply List.ext_getElem?
    intro i
    by_cases hi : i < n
    · rw [naryValue_get _ (hl x List.mem_cons_self) hi, columnSums_get hi]
      congr 1
      have : ∀ (l : List Rat) (a : Rat), l.foldl (fun val y => y + val) a = a + l.sum := by
        intro l
        induction l with
        | nil => simp
        | cons z l ih => intro a; rw [List.foldl_cons, ih, List.sum_cons]; ring
      rw [this]
      simp [column]
    · rw [List.getElem?_eq_none (by rw [naryValue_length _ (by simp) hl]; omega), List.getElem?_eq_none (by simp [columnSums]; omega)]

theorem columnSums_set {n i : Nat} (hi : i < n) (pre post : List (Arr Rat)) (shape : List Int) {a : List Rat} {o v : Rat}
    (ho : a[i]? = some o) : columnSums n (pre ++ ⟨shape, a.set i v⟩ :: post) =
      (columnSums n (pre ++ ⟨shape, a⟩ :: post)).set i ((column i (pre ++ ⟨shape, a⟩ :: post)).sum - o + v) := by
  have hil : i < a.length := by
    by_contra hn
    rw [List.getElem?_eq_none (by omega)] at ho; cases ho
  apply List.ext_getElem?
  intro k
  by_cases hk : k < n
  · rw [columnSums_get hk]
    by_cases hik : i = k
    · subst hik
      rw [List.getElem?_set_self (by simp [columnSums, hi])]
      simp only [column, List.map_append, List.map_cons, List.sum_append, List.sum_cons, List.getD_eq_getElem?_getD,
        List.getElem?_set_self hil, ho, Option.getD_some]
      congr 1
      ring
    · rw [List.getElem?_set_ne hik, columnSums_get hk]
      simp only [column, List.map_append, List.map_cons, List.sum_append, List.sum_cons, List.getD_eq_getElem?_getD,
        List.getElem?_set_ne hik]
  · rw [List.getElem?_eq_none (by simp [columnSums]; omega), List.getElem?_eq_none (by simp [columnSums]; omega)]

theorem mem_column {P : Rat → Prop} {n i : Nat} (hi : i < n) {xs : List (Arr Rat)} (hl : ∀ x ∈ xs, x.data.length = n)
    (hw : ∀ x ∈ xs, ∀ v ∈ x.data, P v) : ∀ v ∈ column i xs, P v := by
  intro v hv
  obtain ⟨x, hx, rfl⟩ := List.mem_map.1 hv
  refine hw x hx _ ?_
  have : i < x.data.length := by rw [hl x hx]; exact hi
  rw [List.getD_eq_getElem?_getD, List.getElem?_eq_getElem this]
  exact List.getElem_mem this

section

variable {fl : Rat → Rat} (R : Rounding fl) {D : Rat} (hD : 0 ≤ D) {k limit : Nat} (hbig : 4 * (k * D) ≤ greatestDouble)
  (hlim : k + 2 * limit ≤ 2 ^ 52)
include R hD hbig hlim

/-- One operand's changes. -/
theorem nary_drift_operand {fixed : Bool} {com : List Rat} {n : Nat} (pre post : List (Arr Rat)) (shape : List Int) (d : List (Update Rat))
    {b : List Rat} (hpl : ∀ y ∈ pre ++ post, y.data.length = n) (hpw : ∀ y ∈ pre ++ post, ∀ v ∈ y.data, IsDouble v ∧ |v| ≤ D)
    (hk : (pre ++ post).length + 1 ≤ k) :
    ∀ {j : Nat} {a l : List Rat} {s : ArrayState Rat}, RepA fixed s com l →
      CloseTo (k * D * (grow (k + 2 * j) - 1)) l (columnSums n (pre ++ ⟨shape, a⟩ :: post)) → a.length = n →
      (∀ v ∈ a, IsDouble v ∧ |v| ≤ D) → Replays a d b → (∀ u ∈ d, u.isChange = true) →
      (∀ u ∈ d, ∀ w, u.value = some w → IsDouble w ∧ |w| ≤ D) → j + d.length ≤ limit →
      ∃ s1 l1, d.foldlM (naryInverse (flAdd fl) (flPlusInv fl)) (s, []) = .ok (s1, []) ∧ RepA fixed s1 com l1 ∧
        CloseTo (k * D * (grow (k + 2 * (j + d.length)) - 1)) l1 (columnSums n (pre ++ ⟨shape, b⟩ :: post)) := by
  induction d with
  | nil =>
    intro j a l s h hc _ _ hr _ _ _
    simp only [replays_nil] at hr
    subst hr
    exact ⟨s, l, rfl, h, hc⟩
  | cons u d ih =>
    intro j a l s h hcl hal haw hr hch hv hj
    rw [List.length_cons] at hj
    obtain ⟨m, hm, hr'⟩ := replays_cons.1 hr
    rcases step_cases hm with ⟨w, rfl, rfl⟩ | ⟨w, rfl, rfl⟩ | ⟨o, w, ho, hu, rfl⟩
    · have := hch _ List.mem_cons_self
      simp [Update.isChange] at this
    · have := hch _ List.mem_cons_self
      simp [Update.isChange] at this
    have hi : u.index < n := by
      by_contra hn
      rw [List.getElem?_eq_none (by omega)] at ho; cases ho
    have huo : u.old = some o := by rw [hu]
    have huv : u.value = some w := by rw [hu]
    obtain ⟨do', bo⟩ := haw o (List.mem_of_getElem? ho)
    obtain ⟨dw, bw⟩ := hv u List.mem_cons_self w huv
    have hll : l.length = n := by rw [hcl.length]; simp [columnSums]
    have hpl' : u.index < l.length := by omega
    have hg2 : grow (k + 2 * j) ≤ 2 := two_bound (n := k) (limit := 2 * limit) hlim (2 * j) (by omega)
    obtain ⟨dl, bl⟩ := hcl.near u.index l[u.index] _ (List.getElem?_eq_getElem hpl') (columnSums_get hi _)
    -- the sum without the changed term
    have ec : (column u.index (pre ++ ⟨shape, a⟩ :: post)).sum - o = (column u.index (pre ++ post)).sum := by
      simp only [column, List.map_append, List.map_cons, List.sum_append, List.sum_cons, List.getD_eq_getElem?_getD, ho, Option.getD_some]
      ring
    have hcol := mem_column hi hpl hpw
    have hm1 := magnitudes_le (fun v hv => (hcol v hv).2)
    have hs1 := abs_sum_le (column u.index (pre ++ post))
    rw [show (column u.index (pre ++ post)).length = (pre ++ post).length by simp [column]] at hm1
    have hkD : (((pre ++ post).length : Rat) + 1) * D ≤ k * D := mul_le_mul_of_nonneg_right (by exact_mod_cast hk) hD
    have hP : |(column u.index (pre ++ ⟨shape, a⟩ :: post)).sum - o| ≤ k * D := by rw [ec]; linarith
    have hP' : |(column u.index (pre ++ ⟨shape, a⟩ :: post)).sum - o + w| ≤ k * D := by
      rw [ec]
      exact le_trans (abs_add_le _ _) (by linarith)
    obtain ⟨r1, r2⟩ := nary_drift_step R hbig hg2 dl do' dw hP hP' bl
    rw [← grow_succ, ← grow_succ] at r2
    obtain ⟨s1, e1, h1⟩ := h.write' hpl' (fl (fl (l[u.index] - o) + w))
    have e2 : naryInverse (flAdd fl) (flPlusInv fl) (s, []) u = .ok (s1, []) := by
      simp only [naryInverse, h.rep.buf, List.getElem?_eq_getElem hpl', huo, huv, flPlusInv, flAdd, flSub, e1, Res.ok_bind]
    have hmono : (k : Rat) * D * (grow (k + 2 * j) - 1) ≤ k * D * (grow (k + 2 * j + 1 + 1) - 1) :=
      mul_le_mul_of_nonneg_left (by linarith [grow_mono (show k + 2 * j ≤ k + 2 * j + 1 + 1 by omega)]) (by positivity)
    have c1 := (hcl.mono hmono).set u.index r1 r2
    rw [← columnSums_set hi pre post shape ho, show k + 2 * j + 1 + 1 = k + 2 * (j + 1) by omega] at c1
    obtain ⟨s2, l2, e3, h2, c2⟩ := ih h1 c1 (by simpa using hal) (by
      intro v hv'
      rcases List.mem_or_eq_of_mem_set hv' with hv' | rfl
      · exact haw v hv'
      · exact ⟨dw, bw⟩) hr' (fun v hv' => hch v (List.mem_cons_of_mem _ hv')) (fun v hv' => hv v (List.mem_cons_of_mem _ hv')) (by omega)
    refine ⟨s2, l2, by rw [List.foldlM_cons, e2]; exact e3, h2, ?_⟩
    rw [List.length_cons, show j + (d.length + 1) = j + 1 + d.length by omega]
    exact c2

/-- All operands' changes. -/
theorem nary_drift_operands {fixed : Bool} {com : List Rat} {n size : Nat} {shape : List Int} (hd : dynamicShape shape = false)
    {xs ins ys} (hi : Ins (DoubleRel size fun v => |v| ≤ D) xs ins ys) :
    ∀ (pre : List (Arr Rat)) {j : Nat} {l : List Rat} {s : ArrayState Rat},
      (∀ x ∈ xs, x.shape = shape) → (∀ y ∈ ys, ∀ v ∈ y.data, IsDouble v ∧ |v| ≤ D) → (∀ y ∈ pre ++ xs, y.data.length = n) →
      (∀ y ∈ pre ++ xs, ∀ v ∈ y.data, IsDouble v ∧ |v| ≤ D) → (pre ++ xs).length ≤ k → j + changesIn ins ≤ limit →
      RepA fixed s com l → CloseTo (k * D * (grow (k + 2 * j) - 1)) l (columnSums n (pre ++ xs)) →
      ∃ s1 l1, ins.foldlM (fun st x => x.2.foldlM (naryInverse (flAdd fl) (flPlusInv fl)) st) (s, []) = .ok (s1, []) ∧
        RepA fixed s1 com l1 ∧ CloseTo (k * D * (grow (k + 2 * (j + changesIn ins)) - 1)) l1 (columnSums n (pre ++ ys)) := by
  induction hi with
  | nil =>
    intro pre j l s _ _ _ _ _ _ h hc
    exact ⟨s, l, rfl, h, by simpa [changesIn] using hc⟩
  | cons hr _ ih =>
    rename_i x d y xs ins ys _
    intro pre j l s hx hyw hl hw hk hj h hc
    have hcd : changesIn ((y, d) :: ins) = d.length + changesIn ins := by simp [changesIn]
    rw [hcd] at hj ⊢
    have hsx := hx x List.mem_cons_self
    have hsy : y.shape = shape := by rw [← hr.exact.shape, hsx]
    have hfix := hr.exact.fixed (by rw [Arr.dynamic, hsx, hd])
    have sub : ∀ {P : Arr Rat → Prop}, (∀ z ∈ pre ++ x :: xs, P z) → P x ∧ ∀ z ∈ pre ++ xs, P z := by
      intro P h
      simp only [List.mem_append, List.mem_cons] at h ⊢
      exact ⟨h x (by simp), fun z hz => h z (by tauto)⟩
    obtain ⟨c1, _⟩ := replays_changes hr.exact.replays hfix
    have ex : (⟨shape, x.data⟩ : Arr Rat) = x := by rw [← hsx]
    have ey : (⟨shape, y.data⟩ : Arr Rat) = y := by rw [← hsy]
    obtain ⟨s1, l1, e1, h1, cl1⟩ := nary_drift_operand R hD hbig hlim pre xs shape d (b := y.data) (sub hl).2 (sub hw).2
      (by simp at hk ⊢; omega) (j := j) (a := x.data) h (by rw [ex]; exact hc) (sub hl).1 (sub hw).1 hr.exact.replays hfix hr.new
      (by omega)
    rw [ey] at cl1
    have put : ∀ {P : Arr Rat → Prop}, P y → (∀ z ∈ pre ++ xs, P z) → ∀ z ∈ (pre ++ [y]) ++ xs, P z := by
      intro P h1 h2 z hz
      simp only [List.mem_append, List.mem_singleton] at hz h2
      rcases hz with (hz | rfl) | hz
      · exact h2 z (Or.inl hz)
      · exact h1
      · exact h2 z (Or.inr hz)
    obtain ⟨s2, l2, e2, h2, cl2⟩ := ih (pre ++ [y]) (j := j + d.length) (fun z hz => hx z (List.mem_cons_of_mem _ hz))
      (fun z hz => hyw z (List.mem_cons_of_mem _ hz)) (put (by have := (sub hl).1; omega) (sub hl).2)
      (put (hyw y List.mem_cons_self) (sub hw).2) (by simp at hk ⊢; omega) (by omega) h1 (by simpa using cl1)
    refine ⟨s2, l2, by rw [List.foldlM_cons, e1]; exact e2, h2, ?_⟩
    rw [Nat.add_assoc] at cl2
    simpa using cl2

end

/-- C68, element-wise sums of several arrays.  Let the elements of at most `k` arrays of one fixed shape be doubles of magnitude at most
`D`.  After every history in which `c` changes have been committed, every element of the sum in the arithmetic of doubles differs from the
exact sum by at most `(k + 2c) / 2^52` times the greatest possible sum `k D`.  Changes that are reverted leave no error. -/
theorem C68_nary_add {fl : Rat → Rat} (R : Rounding fl) {shape : List Int} (hd : dynamicShape shape = false) {D : Rat} (hD : 0 ≤ D)
    (size : Nat) {k limit : Nat} (hbig : 4 * (k * D) ≤ greatestDouble) (hlim : k + 2 * limit ≤ 2 ^ 52) :
    DriftsEverywhere (DoubleRel size fun v => |v| ≤ D) (naryNode (flAdd fl) (some (flPlusInv fl)) shape)
      (fun xs => ⟨shape, naryValue (· + ·) xs⟩)
      (fun xs => xs ≠ [] ∧ xs.length ≤ k ∧ ∀ x ∈ xs, x.shape = shape ∧ x.WF ∧ ∀ v ∈ x.data, IsDouble v ∧ |v| ≤ D)
      (fun c _ => (k + 2 * c) * (k * D) / 2 ^ 52) limit := by
  have hkD : 0 ≤ (k : Rat) * D := by positivity
  refine arrayNode_drifts (fun j xs l => ∃ n : Nat, (n : Int) = shape.prod ∧ (∀ x ∈ xs, x.data.length = n) ∧
    CloseTo (k * D * (grow (k + 2 * j) - 1)) l (columnSums n xs)) ?_ ?_ ?_
  · rintro xs ⟨hne, hk, hx⟩
    obtain ⟨n, hp, hn⟩ := fixed_lengths hd (fun x hx' => ⟨(hx x hx').1, (hx x hx').2.1⟩) hne
    have hw := fun x hx' => (hx x hx').2.2
    cases xs with
    | nil => exact absurd rfl hne
    | cons x rest =>
      have hxl := hn x List.mem_cons_self
      refine ⟨(List.range n).map fun i => (column i rest).foldl (flAdd fl) (x.data.getD i default), ?_, n, hp, hn, ?_⟩
      · simp only [naryInit, hxl]
        refine mapM_ok _ _ _ fun i hi => ?_
        rw [List.mem_range] at hi
        rw [naryFold_ok _ hn hi]
        congr 1
        rw [column, List.foldl_map]
        congr 1
        funext val y
        exact congrArg fl (add_comm _ _)
      · refine ⟨by simp [columnSums], fun i v w hv hw' => ?_⟩
        have hi : i < n := by
          by_contra hn'
          rw [List.getElem?_eq_none (by simp; omega)] at hv; cases hv
        rw [columnSums_get hi] at hw'
        cases hw'
        simp only [List.getElem?_map, List.getElem?_range hi, Option.map_some, Option.some.injEq] at hv
        subst hv
        have hcol := mem_column hi hn hw
        have ec : column i (x :: rest) = x.data.getD i default :: column i rest := rfl
        rw [ec] at hcol ⊢
        have hl : (x.data.getD i default :: column i rest).length ≤ k := by simpa [column] using hk
        have hm := magnitudes_le (fun v hv => (hcol v hv).2)
        have hm0 := magnitudes_nonneg (x.data.getD i default :: column i rest)
        have hlD : ((x.data.getD i default :: column i rest).length : Rat) * D ≤ k * D :=
          mul_le_mul_of_nonneg_right (by exact_mod_cast hl) hD
        have hgl : grow (x.data.getD i default :: column i rest).length ≤ 4 :=
          le_trans (le_trans (grow_mono hl) (two_bound (n := k) (limit := 2 * limit) hlim 0 (by omega))) (by norm_num)
        obtain ⟨h1, h2⟩ := (combines_foldl (flAdd fl) (column i rest) (x.data.getD i default)).error R (fun v hv => (hcol v hv).1)
          (le_trans (mul_le_mul hgl (le_trans hm hlD) hm0 (by norm_num)) hbig)
        refine ⟨h1, le_trans h2 ?_⟩
        rw [mul_comm ((k : Rat) * D)]
        exact mul_le_mul (by linarith [grow_mono (show (x.data.getD i default :: column i rest).length - 1 ≤ k + 2 * 0 by omega)])
          (le_trans hm hlD) hm0 (by linarith [one_le_grow (k + 2 * 0)])
  · rintro j xs ins ys l ⟨hne, hk, hx⟩ ⟨hne', hk', hy⟩ hi hj ⟨n, hp, hn, hc⟩
    obtain ⟨n', hp', hn'⟩ := fixed_lengths hd (fun x hx' => ⟨(hy x hx').1, (hy x hx').2.1⟩) hne'
    obtain rfl : n = n' := by omega
    obtain ⟨s, l1, e1, h1, c1⟩ := nary_drift_operands R hD hbig hlim (fixed := !dynamicShape shape) (com := l) (n := n) hd hi [] (j := j)
      (fun x hx' => (hx x hx').1) (fun x hx' => (hy x hx').2.2) (by simpa using hn) (by simpa using fun x hx' => (hx x hx').2.2)
      (by simpa using hk) hj (RepA.mk'_ l) (by simpa using hc)
    refine ⟨s, l1, ?_, h1, n, hp, hn', c1⟩
    simp only [naryPropagate, e1, Res.ok_bind, List.foldlM_nil]
    rfl
  · rintro j xs l ⟨hne, hk, hx⟩ hj ⟨n, hp, hn, hc⟩
    rw [← naryValue_sums hne hn] at hc
    refine ⟨rfl, hc.length, fun i v w hv hw => le_trans (hc.near i v w hv hw).2 ?_⟩
    have h1 : grow (k + 2 * j) ≤ 1 + ((k + 2 * j : Nat) : Rat) / 2 ^ 52 := grow_le (by omega)
    have h2 := mul_le_mul_of_nonneg_left (sub_le_sub_right h1 1) hkD
    refine le_trans h2 (le_of_eq ?_)
    push_cast
    ring

/-- Fifty arrays of two elements up to a million, a billion changes: the error of each sum stays below fifty, a millionth of the
greatest possible sum. -/
example : DriftsEverywhere (DoubleRel 2 fun v => |v| ≤ 10 ^ 6) (naryNode (flAdd roundDouble) (some (flPlusInv roundDouble)) [2])
    (fun xs => ⟨[2], naryValue (· + ·) xs⟩)
    (fun xs => xs ≠ [] ∧ xs.length ≤ 50 ∧ ∀ x ∈ xs, x.shape = [2] ∧ x.WF ∧ ∀ v ∈ x.data, IsDouble v ∧ |v| ≤ 10 ^ 6)
    (fun c _ => ((50 : Nat) + 2 * c) * ((50 : Nat) * 10 ^ 6) / 2 ^ 52) (10 ^ 9) ∧
    (((50 : Nat) : Rat) + 2 * (10 ^ 9 : Nat)) * ((50 : Nat) * 10 ^ 6) / 2 ^ 52 < 50 :=
  ⟨C68_nary_add roundDouble_rounding (by decide) (by norm_num) 2 (le_greatest (by norm_num)) (by norm_num), by norm_num⟩

end Verif
