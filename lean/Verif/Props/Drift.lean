import Verif.Lemmas.Drift
import Verif.Props.Floating

/-!
# C68: how far sums and products drift

All theorems are about every rounding to nearest, whatever it does with ties, and about every order in which `std::reduce` may add.
-/

namespace Verif

/-! ## Sum -/

/-- One more term. -/
theorem drift_step {fl : Rat → Rat} (R : Rounding fl) {A v t S S' g : Rat} (hA : 8 * A ≤ greatestDouble) (hg : g ≤ 2)
    (hv : IsDouble v) (ht : IsDouble t) (hS' : |S'| ≤ A) (hb : |v - S| ≤ 4 * A * (g - 1)) (hd : |t - (S' - S)| ≤ 2 * A / 2 ^ 53) :
    IsDouble (fl (v + t)) ∧ |fl (v + t) - S'| ≤ 4 * A * (g * (1 + 1 / 2 ^ 53) - 1) := by
  have hA0 : 0 ≤ A := le_trans (abs_nonneg _) hS'
  have h1 : |v + t - S'| ≤ 4 * A * (g - 1) + 2 * A / 2 ^ 53 := by
    have e : v + t - S' = (v - S) + (t - (S' - S)) := by ring
    rw [e]
    exact le_trans (abs_add_le _ _) (by linarith)
  have h2 : |v + t| ≤ A + (4 * A * (g - 1) + 2 * A / 2 ^ 53) := by
    have e : v + t = S' + (v + t - S') := by ring
    rw [e]
    exact le_trans (abs_add_le _ _) (by linarith)
  have hgA : A * g ≤ A * 2 := mul_le_mul_of_nonneg_left hg hA0
  have h3 : 2 * A / 2 ^ 53 ≤ A := by
    rw [div_le_iff₀ (by norm_num)]
    linarith
  have hq : |v + t| ≤ greatestDouble := by
    refine le_trans h2 (le_trans ?_ hA)
    linarith
  refine ⟨R.double _ hq, ?_⟩
  have he := R.error_add hv ht hq
  have e : fl (v + t) - S' = (fl (v + t) - (v + t)) + (v + t - S') := by ring
  rw [e]
  refine le_trans (abs_add_le _ _) ?_
  have h4 : |v + t| / 2 ^ 53 ≤ (A + (4 * A * (g - 1) + A)) / 2 ^ 53 := div_le_div_of_nonneg_right (by linarith) (by norm_num)
  have h5 : 4 * A * (g * (1 + 1 / 2 ^ 53) - 1) =
      (A + (4 * A * (g - 1) + A)) / 2 ^ 53 + (4 * A * (g - 1) + 2 * A / 2 ^ 53) := by ring
  linarith

/-- C68, sums.  Let an array never have more than `n` elements, doubles of magnitude at most `D`, and let the initial value be a
double.  After every history in which `k` changes have been committed, a sum in the arithmetic of doubles differs from the exact sum
by at most `(n + k) / 2^50` times the greatest possible sum `|init| + n D`.  Changes that are reverted leave no error.  (As long as
`n` and the number of all changes are at most 2^52 together, and nothing overflows.) -/
theorem C68_sum {fl : Rat → Rat} (R : Rounding fl) {red : List Rat → Rat} (hred : ∀ xs, xs ≠ [] → Combines (flAdd fl) xs (red xs))
    {init D : Rat} {n limit : Nat} (hi : IsDouble init) (hD : 0 ≤ D) (hbig : 8 * (|init| + n * D) ≤ greatestDouble)
    (hlim : n + limit ≤ 2 ^ 52) :
    Drifts (DoubleRel n fun v => |v| ≤ D) (flSumNode fl red init) (fun x => init + x.data.sum) (DoubleArr n fun v => |v| ≤ D)
      (fun k _ => (n + k) * (|init| + n * D) / 2 ^ 50) limit := by
  have hA0 : 0 ≤ |init| + n * D := by positivity
  have tot : ∀ l : List Rat, l.length ≤ n → (∀ v ∈ l, |v| ≤ D) → |init| + magnitudes l ≤ |init| + n * D := by
    intro l hl hw
    have h1 := magnitudes_le hw
    have h2 : (l.length : Rat) * D ≤ n * D := mul_le_mul_of_nonneg_right (by exact_mod_cast hl) hD
    linarith
  have tot' : ∀ l : List Rat, l.length ≤ n → (∀ v ∈ l, IsDouble v ∧ |v| ≤ D) → |init + l.sum| ≤ |init| + n * D := by
    intro l hl hw
    have := tot l hl (fun v hv => (hw v hv).2)
    exact le_trans (abs_add_le _ _) (by linarith [abs_sum_le l])
  have hg2 : ∀ j, j ≤ limit → grow (n + j) ≤ 2 := by
    intro j hj
    have h1 : grow (n + j) ≤ 1 + ((n + j : Nat) : Rat) / 2 ^ 52 := grow_le (by omega)
    have h2 : ((n + j : Nat) : Rat) ≤ 2 ^ 52 := by exact_mod_cast (by omega : n + j ≤ 2 ^ 52)
    have h3 : ((n + j : Nat) : Rat) / 2 ^ 52 ≤ 1 := (div_le_one (by norm_num)).2 h2
    linarith
  refine reduce_drifts (fun j l (p : Rat × Unit) => IsDouble p.1 ∧ l.length ≤ n ∧ (∀ v ∈ l, IsDouble v ∧ |v| ≤ D) ∧
    |p.1 - (init + l.sum)| ≤ 4 * (|init| + n * D) * (grow (n + j) - 1)) ?_ ?_ ?_
  · intro x hx
    refine ⟨_, rfl, ?_⟩
    have em : magnitudes (init :: x.data) = |init| + magnitudes x.data := by simp [magnitudes]
    have hm := tot x.data hx.size (fun v hv => (hx.double v hv).2)
    have hm0 := magnitudes_nonneg (init :: x.data)
    have hgl : grow (init :: x.data).length ≤ 8 := by
      refine le_trans ?_ (show (4 : Rat) ≤ 8 by norm_num)
      have h1 := hg2 0 (by omega)
      have h2 : grow (init :: x.data).length ≤ grow (n + 0 + 1) := grow_mono (by have := hx.size; simp; omega)
      rw [grow_succ (n + 0)] at h2
      have h3 : grow (n + 0) * (1 + 1 / 2 ^ 53) ≤ 2 * (1 + 1 / 2 ^ 53) := mul_le_mul_of_nonneg_right h1 (by norm_num)
      have h4 : (2 : Rat) * (1 + 1 / 2 ^ 53) ≤ 4 := by norm_num
      linarith
    obtain ⟨hd, he⟩ := (hred (init :: x.data) (by simp)).error R (by
      intro v hv
      rcases List.mem_cons.1 hv with rfl | hv
      · exact hi
      · exact (hx.double v hv).1) (by
      refine le_trans ?_ hbig
      exact mul_le_mul hgl (by rw [em]; exact hm) hm0 (by norm_num))
    refine ⟨hd, hx.size, hx.double, ?_⟩
    rw [List.sum_cons] at he
    refine le_trans he ?_
    have h1 : grow ((init :: x.data).length - 1) ≤ grow (n + 0) := grow_mono (by have := hx.size; simp; omega)
    have h2 := one_le_grow (n + 0)
    have h3 : (grow ((init :: x.data).length - 1) - 1) * magnitudes (init :: x.data) ≤ (grow (n + 0) - 1) * (|init| + n * D) :=
      mul_le_mul (by linarith) (by rw [em]; exact hm) hm0 (by linarith)
    have h4 : 0 ≤ (grow (n + 0) - 1) * (|init| + n * D) := mul_nonneg (by linarith) hA0
    linarith
  · intro j x d y p _ hy hr hj hg
    obtain ⟨v', e', g'⟩ := foldlM_good (fun j l (v : Rat) => IsDouble v ∧ l.length ≤ n ∧ (∀ v ∈ l, IsDouble v ∧ |v| ≤ D) ∧
        |v - (init + l.sum)| ≤ 4 * (|init| + n * D) * (grow (n + j) - 1)) (step := flSumStep fl) (limit := limit)
      (P := fun u => u.index < n ∧ ∀ v, u.value = some v → IsDouble v ∧ |v| ≤ D) (by
      rintro j l u m v ⟨hv, hl, hw, hb⟩ ⟨hun, hu⟩ hm hj
      rw [show n + (j + 1) = n + j + 1 by omega, grow_succ]
      have hn1 : (1 : Rat) ≤ n := by exact_mod_cast (by omega : 1 ≤ n)
      have hDA : D ≤ |init| + n * D := by
        have := mul_le_mul_of_nonneg_right hn1 hD
        have := abs_nonneg init
        linarith
      rcases step_cases hm with ⟨w, rfl, rfl⟩ | ⟨w, rfl, rfl⟩ | ⟨o, w, hlo, hue, rfl⟩
      · obtain ⟨dw, bw⟩ := hu w rfl
        have hml : (l ++ [w]).length ≤ n := by simp at hun ⊢; omega
        have hmw : ∀ z ∈ l ++ [w], IsDouble z ∧ |z| ≤ D := by
          intro z hz
          rcases List.mem_append.1 hz with hz | hz
          · exact hw z hz
          · rw [List.mem_singleton.1 hz]; exact ⟨dw, bw⟩
        obtain ⟨r1, r2⟩ := drift_step R hbig (hg2 j (by omega)) hv dw (tot' _ hml hmw) hb (by
          rw [show w - (init + (l ++ [w]).sum - (init + l.sum)) = 0 by rw [List.sum_append]; simp, abs_zero]
          positivity)
        exact ⟨_, rfl, r1, hml, hmw, r2⟩
      · have hml : m.length ≤ n := by simp at hl; omega
        have hmw : ∀ z ∈ m, IsDouble z ∧ |z| ≤ D := fun z hz => hw z (List.mem_append_left _ hz)
        obtain ⟨dw, bw⟩ := hw w (by simp)
        obtain ⟨r1, r2⟩ := drift_step R hbig (hg2 j (by omega)) hv dw.neg (tot' _ hml hmw) hb (by
          rw [show -w - (init + m.sum - (init + (m ++ [w]).sum)) = 0 by rw [List.sum_append]; simp, abs_zero]
          positivity)
        rw [← sub_eq_add_neg] at r1 r2
        exact ⟨_, rfl, r1, hml, hmw, r2⟩
      · have huo : u.old = some o := by rw [hue]
        have huw : u.value = some w := by rw [hue]
        obtain ⟨dw, bw⟩ := hu w huw
        obtain ⟨do', bo⟩ := hw o (List.mem_of_getElem? hlo)
        have hmw : ∀ z ∈ l.set u.index w, IsDouble z ∧ |z| ≤ D := by
          intro z hz
          rcases List.mem_or_eq_of_mem_set hz with hz | hz
          · exact hw z hz
          · rw [hz]; exact ⟨dw, bw⟩
        have hml : (l.set u.index w).length ≤ n := by simpa using hl
        have es : init + (l.set u.index w).sum - (init + l.sum) = w - o := by
          have := sum_map_set id l u.index o w hlo
          simp only [List.map_id, id] at this
          linarith
        have hwo : |w - o| ≤ 2 * (|init| + n * D) := le_trans (abs_sub _ _) (by linarith)
        have hq : |w - o| ≤ greatestDouble := by linarith
        obtain ⟨r1, r2⟩ := drift_step R hbig (hg2 j (by omega)) hv (R.double _ hq) (tot' _ hml hmw) hb (by
          rw [es]
          exact le_trans (R.error_sub dw do' hq) (div_le_div_of_nonneg_right hwo (by norm_num)))
        exact ⟨_, by simp only [flSumStep, huo, huw, flAdd, flSub], r1, hml, hmw, r2⟩)
      d j x.data y.data p.1 hg (fun u hu => ⟨hr.index u hu, hr.new u hu⟩) hr.exact.replays hj
    exact ⟨(v', ()), by simp only [flSumPropagate, e', Res.ok_bind], g'⟩
  · rintro j x p _ hj ⟨_, _, _, hb⟩
    refine le_trans hb ?_
    have h1 : grow (n + j) ≤ 1 + ((n + j : Nat) : Rat) / 2 ^ 52 := grow_le (by omega)
    have h2 : 4 * (|init| + n * D) * (grow (n + j) - 1) ≤ 4 * (|init| + n * D) * (((n + j : Nat) : Rat) / 2 ^ 52) :=
      mul_le_mul_of_nonneg_left (by linarith) (by linarith)
    refine le_trans h2 (le_of_eq ?_)
    push_cast
    ring

/-- A thousand elements up to a hundred, a million changes: the error of the sum stays below a thousandth. -/
example : Drifts (DoubleRel 1000 fun v => |v| ≤ 10 ^ 2)
    (flSumNode roundDouble (fun xs => xs.tail.foldl (flAdd roundDouble) (xs.headD 0)) 0) (fun x => 0 + x.data.sum)
    (DoubleArr 1000 fun v => |v| ≤ 10 ^ 2) (fun k _ => ((1000 : Nat) + k) * (|0| + (1000 : Nat) * 10 ^ 2) / 2 ^ 50) (10 ^ 6) ∧
    (((1000 : Nat) : Rat) + (10 ^ 6 : Nat)) * (|0| + (1000 : Nat) * 10 ^ 2) / 2 ^ 50 < 1 / 1000 :=
  ⟨C68_sum roundDouble_rounding (fun xs h => by
    cases xs with
    | nil => exact absurd rfl h
    | cons x l => exact combines_foldl _ l x) ⟨0, 0, by norm_num, by norm_num, by norm_num, by norm_num⟩ (by norm_num)
    (le_greatest (by norm_num)) (by norm_num), by norm_num⟩

/-! ## The error has no bound that is independent of the number of changes -/

/-- The second element is set to 1.5 and then back to zero in steps of one half. -/
def wobble : List (Round (Arr Rat) (List (Update Rat))) :=
  [⟨[(⟨[2], [2 ^ 53, 3 / 2]⟩, [⟨1, some 0, some (3 / 2)⟩])], true⟩,
   ⟨[(⟨[2], [2 ^ 53, 1]⟩, [⟨1, some (3 / 2), some 1⟩])], true⟩,
   ⟨[(⟨[2], [2 ^ 53, 1 / 2]⟩, [⟨1, some 1, some (1 / 2)⟩])], true⟩,
   ⟨[(⟨[2], [2 ^ 53, 0]⟩, [⟨1, some (1 / 2), some 0⟩])], true⟩]

/-- Many times. -/
def wobbles (j : Nat) : List (Round (Arr Rat) (List (Update Rat))) := (List.replicate j wobble).flatten

theorem wobbles_succ (j : Nat) : wobbles (j + 1) = wobble ++ wobbles j := by simp [wobbles, List.replicate_succ]

theorem fl_wobble {fl : Rat → Rat} (R : Rounding fl) {i : Nat} (hi : i + 1 < 2 ^ 52) :
    fl (2 ^ 53 + 2 * i + 3 / 2) = 2 ^ 53 + 2 * (i + 1) := by
  have hi' : (i : Rat) + 1 < 2 ^ 52 := by exact_mod_cast hi
  have h0 : (0 : Rat) ≤ i := by positivity
  have e : ((2 ^ 52 + i + 1 : Int) : Rat) * (2 : Rat) ^ (1 : Int) = 2 ^ 53 + 2 * (i + 1) := by
    rw [zpow_one]; push_cast; ring
  have hg : (2 : Rat) ^ 54 ≤ greatestDouble := by
    have : (2 : Rat) ^ (2 : Int) ≤ (2 : Rat) ^ (971 : Int) := zpow_le_zpow_right₀ (by norm_num) (by norm_num)
    unfold greatestDouble
    calc (2 : Rat) ^ 54 ≤ (2 ^ 53 - 1) * (2 : Rat) ^ (2 : Int) := by norm_num
      _ ≤ _ := mul_le_mul_of_nonneg_left this (by norm_num)
  rw [← e]
  refine R.eq_of_close (2 ^ 52 + i + 1) 1 ?_ (by norm_num) (by norm_num) ?_ ?_ ?_
  · rw [abs_of_nonneg (by omega)]; omega
  · rw [zpow_one]; linarith
  · refine le_trans ?_ hg
    linarith
  · rw [e, zpow_one, abs_lt]
    constructor <;> linarith

theorem fl_half {fl : Rat → Rat} (R : Rounding fl) : fl (3 / 2) = 3 / 2 ∧ fl (-(1 / 2)) = -(1 / 2) :=
  ⟨R.exact ⟨3, -1, by norm_num, by norm_num, by norm_num, by norm_num⟩ (le_greatest (by norm_num [abs_of_pos])),
    R.exact ⟨-1, -1, by norm_num, by norm_num, by norm_num, by norm_num⟩ (le_greatest (by norm_num [abs_of_pos]))⟩

theorem wobble_once {fl : Rat → Rat} (R : Rounding fl) (red : List Rat → Rat) {i : Nat} (hi : i + 1 < 2 ^ 52) :
    wobble.foldlM (flSumNode fl red 0).round (ReduceState.mk' (2 ^ 53 + 2 * i) ()) = .ok (ReduceState.mk' (2 ^ 53 + 2 * (i + 1)) ()) := by
  obtain ⟨h1, h2⟩ := fl_half R
  have e1 : fl (2 ^ 53 + 2 * i + fl (3 / 2 - 0)) = 2 ^ 53 + 2 * (i + 1) := by
    rw [sub_zero, h1]; exact fl_wobble R hi
  have down : ∀ a b : Rat, b - a = -(1 / 2) → fl (2 ^ 53 + 2 * ((i : Rat) + 1) + fl (b - a)) = 2 ^ 53 + 2 * (i + 1) := by
    intro a b h
    rw [h, h2, show (2 : Rat) ^ 53 + 2 * ((i : Rat) + 1) + -(1 / 2) = 2 ^ 53 + 2 * i + 3 / 2 by ring]
    exact fl_wobble R hi
  have e2 := down (3 / 2) 1 (by norm_num)
  have e3 := down 1 (1 / 2) (by norm_num)
  have e4 := down (1 / 2) 0 (by norm_num)
  have one : ∀ (v a b : Rat) (y : Arr Rat), (flSumNode fl red 0).round (ReduceState.mk' v ()) ⟨[(y, [⟨1, some a, some b⟩])], true⟩ =
      .ok (ReduceState.mk' (fl (v + fl (b - a))) ()) := fun _ _ _ _ => rfl
  unfold wobble
  rw [List.foldlM_cons, one, e1, Res.ok_bind, List.foldlM_cons, one, e2, Res.ok_bind, List.foldlM_cons, one, e3, Res.ok_bind,
    List.foldlM_cons, one, e4, Res.ok_bind, List.foldlM_nil]
  rfl

/-- C68 cannot be improved to a bound that does not depend on the number of changes: the array is `[2^53, 0]` before and after, but with
every four changes the sum becomes greater by two, whatever is done with ties. -/
theorem C68_drift_fails {fl : Rat → Rat} (R : Rounding fl) {red : List Rat → Rat}
    (hred : ∀ xs, xs ≠ [] → Combines (flAdd fl) xs (red xs)) {j : Nat} (hj : j < 2 ^ 52) :
    Legal (DoubleRel 2 fun v => |v| ≤ 2 ^ 53) (fun xs => ∃ x, xs = [x] ∧ DoubleArr 2 (fun v => |v| ≤ 2 ^ 53) x)
      [⟨[2], [2 ^ 53, 0]⟩] (wobbles j) [⟨[2], [2 ^ 53, 0]⟩] ∧
    committedChanges (wobbles j) = 4 * j ∧
    (flSumNode fl red 0).after [⟨[2], [2 ^ 53, 0]⟩] (wobbles j) = .ok (⟨[], [2 ^ 53 + 2 * j]⟩, []) := by
  refine ⟨?_, ?_, ?_⟩
  · have d0 : IsDouble 0 ∧ |(0 : Rat)| ≤ 2 ^ 53 := ⟨⟨0, 0, by norm_num, by norm_num, by norm_num, by norm_num⟩, by norm_num⟩
    have d1 : IsDouble (1 / 2) ∧ |(1 / 2 : Rat)| ≤ 2 ^ 53 :=
      ⟨⟨1, -1, by norm_num, by norm_num, by norm_num, by norm_num⟩, by norm_num [abs_of_pos]⟩
    have d2 : IsDouble 1 ∧ |(1 : Rat)| ≤ 2 ^ 53 := ⟨⟨1, 0, by norm_num, by norm_num, by norm_num, by norm_num⟩, by norm_num⟩
    have d3 : IsDouble (3 / 2) ∧ |(3 / 2 : Rat)| ≤ 2 ^ 53 :=
      ⟨⟨3, -1, by norm_num, by norm_num, by norm_num, by norm_num⟩, by norm_num [abs_of_pos]⟩
    have db : IsDouble (2 ^ 53) ∧ |(2 ^ 53 : Rat)| ≤ 2 ^ 53 :=
      ⟨⟨2 ^ 52, 1, by norm_num, by norm_num, by norm_num, by norm_num⟩, by norm_num [abs_of_pos]⟩
    have ok : ∀ v : Rat, (IsDouble v ∧ |v| ≤ 2 ^ 53) → ∃ x, [(⟨[2], [2 ^ 53, v]⟩ : Arr Rat)] = [x] ∧ DoubleArr 2 (fun v => |v| ≤ 2 ^ 53) x := by
      intro v hv
      refine ⟨_, rfl, by simp, ?_⟩
      intro w hw
      simp only [List.mem_cons, List.not_mem_nil, or_false] at hw
      rcases hw with rfl | rfl
      · exact db
      · exact hv
    have rel : ∀ a b : Rat, (IsDouble b ∧ |b| ≤ 2 ^ 53) →
        DoubleRel 2 (fun v => |v| ≤ 2 ^ 53) ⟨[2], [2 ^ 53, a]⟩ [⟨1, some a, some b⟩] ⟨[2], [2 ^ 53, b]⟩ := by
      intro a b hb
      refine ⟨⟨rfl, ?_, ?_⟩, by simp, ?_⟩
      · simp [Replays, Update.step]
      · simp [Update.isChange]
      · intro u hu v hv
        rw [List.mem_singleton.1 hu] at hv
        cases hv
        exact hb
    induction j with
    | zero => exact .nil
    | succ j ih =>
      rw [wobbles_succ]
      exact .cons (.cons (rel _ _ d3) .nil) (ok _ d3) (.cons (.cons (rel _ _ d2) .nil) (ok _ d2)
        (.cons (.cons (rel _ _ d1) .nil) (ok _ d1) (.cons (.cons (rel _ _ d0) .nil) (ok _ d0) (ih (by omega)))))
  · clear hj
    induction j with
    | zero => rfl
    | succ j ih =>
      have : committedChanges (wobbles (j + 1)) = 4 + committedChanges (wobbles j) := by
        rw [wobbles_succ]
        unfold committedChanges allChanges
        rw [List.filter_append, List.map_append, List.sum_append]
        rfl
      rw [this, ih]
      omega
  · have key : ∀ (j i : Nat), i + j < 2 ^ 52 → (wobbles j).foldlM (flSumNode fl red 0).round (ReduceState.mk' (2 ^ 53 + 2 * i) ()) =
        .ok (ReduceState.mk' (2 ^ 53 + 2 * ((i + j : Nat) : Rat)) ()) := by
      intro j
      induction j with
      | zero => intro i _; rfl
      | succ j ih =>
        intro i hi
        rw [wobbles_succ, List.foldlM_append, wobble_once R red (by omega)]
        have := ih (i + 1) (by omega)
        rw [show i + (j + 1) = i + 1 + j by omega]
        push_cast at this ⊢
        exact this
    have e0 : red [0, 2 ^ 53, 0] = 2 ^ 53 := by
      have := (hred [0, 2 ^ 53, 0] (by simp)).sum_eq R.keepsWhole (by
        intro x hx
        simp only [List.mem_cons, List.not_mem_nil, or_false] at hx
        rcases hx with rfl | rfl | rfl
        · exact ⟨0, by norm_num⟩
        · exact ⟨2 ^ 53, by norm_num⟩
        · exact ⟨0, by norm_num⟩) (by norm_num [magnitudes, abs_of_pos])
      rw [this.1]
      norm_num
    have := key j 0 (by omega)
    rw [Nat.zero_add, Nat.cast_zero, mul_zero, add_zero] at this
    unfold NodeSem.after
    simp only [Res.ok_bind, e0]
    rw [this]
    simp only [Res.ok_bind, ReduceState.mk', ReduceState.diff, ne_eq, not_true_eq_false, if_false]

end Verif
