import Verif.Props.Drift

/-!
# C68: products
-/

namespace Verif

/-! ## Relative errors -/

/-- `p` is `P`, up to a relative error. -/
def Close (g p P : Rat) : Prop := |p - P| ≤ (g - 1) * |P|

theorem Close.refl {g : Rat} (hg : 1 ≤ g) (P : Rat) : Close g P P := by
  unfold Close
  rw [sub_self, abs_zero]
  exact mul_nonneg (by linarith) (abs_nonneg _)

theorem grow_one : grow 1 = 1 + 1 / 2 ^ 53 := pow_one _

theorem Close.mono {g h p P : Rat} (hc : Close g p P) (hl : g ≤ h) : Close h p P :=
  le_trans hc (mul_le_mul_of_nonneg_right (by linarith) (abs_nonneg _))

theorem Close.mul {g h p P t T : Rat} (hg : 1 ≤ g) (hp : Close g p P) (ht : Close h t T) :
    Close (g * h) (p * t) (P * T) := by
  unfold Close at *
  have e : p * t - P * T = (p - P) * (t - T) + (p - P) * T + P * (t - T) := by ring
  rw [e, abs_mul P T]
  have h1 : |(p - P) * (t - T)| ≤ ((g - 1) * |P|) * ((h - 1) * |T|) := by
    rw [abs_mul]
    exact mul_le_mul hp ht (abs_nonneg _) (mul_nonneg (by linarith) (abs_nonneg _))
  have h2 : |(p - P) * T| ≤ (g - 1) * |P| * |T| := by
    rw [abs_mul]
    exact mul_le_mul_of_nonneg_right hp (abs_nonneg _)
  have h3 : |P * (t - T)| ≤ |P| * ((h - 1) * |T|) := by
    rw [abs_mul]
    exact mul_le_mul_of_nonneg_left ht (abs_nonneg _)
  have h4 : (g * h - 1) * (|P| * |T|) = ((g - 1) * |P|) * ((h - 1) * |T|) + (g - 1) * |P| * |T| + |P| * ((h - 1) * |T|) := by ring
  rw [h4]
  exact le_trans (abs_add_le _ _) (add_le_add (le_trans (abs_add_le _ _) (add_le_add h1 h2)) h3)

theorem Close.range {g q Q : Rat} (h : Close g q Q) (hg : g ≤ 3 / 2) : |Q| / 2 ≤ |q| ∧ |q| ≤ 2 * |Q| := by
  unfold Close at h
  have h0 := abs_nonneg Q
  have h1 : (g - 1) * |Q| ≤ 1 / 2 * |Q| := mul_le_mul_of_nonneg_right (by linarith) h0
  have h2 := abs_sub_abs_le_abs_sub q Q
  have h3 := abs_sub_abs_le_abs_sub Q q
  rw [abs_sub_comm Q q] at h3
  constructor <;> linarith

/-- Rounding where there is neither overflow nor underflow. -/
theorem Rounding.relative {fl : Rat → Rat} (R : Rounding fl) {q : Rat} (h1 : 1 / 2 ^ 1001 ≤ |q|) (h2 : |q| ≤ 2 ^ 1001) :
    |fl q - q| ≤ |q| / 2 ^ 53 := by
  have e0 : (2 : Rat) ^ 1001 = (2 : Rat) ^ (1001 : Int) := by rw [← zpow_natCast]; rfl
  have hg : (2 : Rat) ^ 1001 ≤ greatestDouble := by
    unfold greatestDouble
    have h3 : (2 : Rat) ^ (1001 : Int) = 2 ^ 30 * (2 : Rat) ^ (971 : Int) := by
      rw [show (1001 : Int) = 30 + 971 by norm_num, two_zpow_add]
      norm_num
    rw [e0, h3]
    exact mul_le_mul_of_nonneg_right (by norm_num) (two_zpow_pos _).le
  rcases R.error (le_trans h2 hg) with h | ⟨_, h⟩
  · exact h
  · exfalso
    have h3 : (1 : Rat) / 2 ^ 1001 = (2 : Rat) ^ (-1001 : Int) := by
      rw [e0, zpow_neg, one_div]
    have h4 : (2 : Rat) ^ 53 * (2 : Rat) ^ (-1074 : Int) = (2 : Rat) ^ (-1021 : Int) := by
      rw [show (-1021 : Int) = 53 + -1074 by norm_num, two_zpow_add]
      norm_num
    rw [h3] at h1
    rw [h4] at h
    have h5 : (2 : Rat) ^ (-1021 : Int) ≤ (2 : Rat) ^ (-1001 : Int) := zpow_le_zpow_right₀ (by norm_num) (by norm_num)
    exact absurd (lt_of_le_of_lt h1 h) (not_lt.2 h5)

theorem Close.round {fl : Rat → Rat} (R : Rounding fl) {g q Q B : Rat} (h : Close g q Q) (hg : g ≤ 3 / 2) (hB : 0 < B)
    (hB' : B ≤ 2 ^ 1000) (hl : 1 / B ≤ |Q|) (hu : |Q| ≤ B) : Close (g * (1 + 1 / 2 ^ 53)) (fl q) Q := by
  obtain ⟨r1, r2⟩ := h.range hg
  have e : (2 : Rat) ^ 1001 = 2 * 2 ^ 1000 := pow_succ' 2 1000
  have hp : (0 : Rat) < 2 ^ 1000 := pow_pos (by norm_num) _
  have he := R.relative (q := q) (by
    refine le_trans ?_ r1
    have h1 : 1 / 2 ^ 1000 ≤ 1 / B := one_div_le_one_div_of_le hB hB'
    have h2 : (1 : Rat) / 2 ^ 1001 = 1 / 2 ^ 1000 / 2 := by
      rw [e, div_div, mul_comm]
    rw [h2]
    exact div_le_div_of_nonneg_right (le_trans h1 hl) (by norm_num)) (by
    rw [e]
    exact le_trans r2 (mul_le_mul_of_nonneg_left (le_trans hu hB') (by norm_num)))
  unfold Close at *
  have h1 : fl q - Q = (fl q - q) + (q - Q) := by ring
  have h2 : |q| ≤ g * |Q| := by
    have h3 : q = (q - Q) + Q := by ring
    have h4 := abs_add_le (q - Q) Q
    rw [← h3] at h4
    linarith
  have h5 : |q| / 2 ^ 53 ≤ g * |Q| / 2 ^ 53 := div_le_div_of_nonneg_right h2 (by norm_num)
  have h6 : (g * (1 + 1 / 2 ^ 53) - 1) * |Q| = g * |Q| / 2 ^ 53 + (g - 1) * |Q| := by ring
  rw [h1, h6]
  exact le_trans (abs_add_le _ _) (by linarith)

/-- Zero, or of a magnitude between `1 / B` and `B`. -/
def Moderate (B : Rat) (v : Rat) : Prop := v = 0 ∨ (1 / B ≤ |v| ∧ |v| ≤ B)

theorem noZero_moderate {B v : Rat} (hB : 1 ≤ B) (h : Moderate B v) : 1 / B ≤ |noZero v| ∧ |noZero v| ≤ B := by
  rcases h with rfl | h
  · rw [noZero_zero, abs_one]
    exact ⟨(div_le_one (by linarith)).2 hB, hB⟩
  · rw [noZero_of]
    · exact h
    · rintro rfl
      have : 0 < 1 / B := by positivity
      rw [abs_zero] at h
      linarith

theorem nzProd_moderate {B : Rat} (hB : 1 ≤ B) : ∀ {l : List Rat}, (∀ v ∈ l, Moderate B v) →
    1 ≤ |nzProd l| * B ^ l.length ∧ |nzProd l| ≤ B ^ l.length := by
  intro l
  induction l with
  | nil => intro _; simp [nzProd]
  | cons x l ih =>
    intro h
    obtain ⟨h1, h2⟩ := ih (fun v hv => h v (List.mem_cons_of_mem _ hv))
    obtain ⟨h3, h4⟩ := noZero_moderate hB (h x List.mem_cons_self)
    rw [div_le_iff₀ (by linarith)] at h3
    have e : nzProd (x :: l) = noZero x * nzProd l := by simp [nzProd]
    rw [e, abs_mul, List.length_cons, pow_succ]
    have hb : 0 ≤ B ^ l.length := by positivity
    constructor
    · calc (1 : Rat) = 1 * 1 := by norm_num
        _ ≤ (|noZero x| * B) * (|nzProd l| * B ^ l.length) := mul_le_mul h3 h1 (by norm_num) (by positivity)
        _ = _ := by ring
    · calc |noZero x| * |nzProd l| ≤ B * B ^ l.length := mul_le_mul h4 h2 (abs_nonneg _) (by linarith)
        _ = _ := by ring

theorem summary_moderate {B I init : Rat} (hB : 1 ≤ B) (hI : 0 < I) (hi : 1 / I ≤ |init| ∧ |init| ≤ I) {n : Nat} {l : List Rat}
    (hl : l.length ≤ n) (h : ∀ v ∈ l, Moderate B v) :
    1 / (I * B ^ n) ≤ |init * nzProd l| ∧ |init * nzProd l| ≤ I * B ^ n := by
  obtain ⟨h1, h2⟩ := nzProd_moderate hB h
  obtain ⟨h3, h4⟩ := hi
  rw [div_le_iff₀ hI] at h3
  have hp : B ^ l.length ≤ B ^ n := pow_le_pow_right₀ hB hl
  have hb : 0 ≤ B ^ l.length := by positivity
  have hbn : 0 < B ^ n := by positivity
  constructor
  · rw [div_le_iff₀ (by positivity), abs_mul]
    calc (1 : Rat) = 1 * 1 := by norm_num
      _ ≤ (|init| * I) * (|nzProd l| * B ^ l.length) := mul_le_mul h3 h1 (by norm_num) (by positivity)
      _ ≤ (|init| * I) * (|nzProd l| * B ^ n) :=
        mul_le_mul_of_nonneg_left (mul_le_mul_of_nonneg_left hp (abs_nonneg _)) (by positivity)
      _ = _ := by ring
  · rw [abs_mul]
    exact mul_le_mul h4 (le_trans h2 hp) (abs_nonneg _) hI.le

/-! ## The theorem -/

/-- What one update does to the exact numbers. -/
theorem prodStep_one (init : Rat) {l m : List Rat} {u : Update Rat} (hm : u.step l = some m) :
    prodStep (prodSummary init l) u = .ok (prodSummary init m) := by
  have := prodStep_ok init (d := [u]) (a := l) (b := m) (by simp [Replays, hm])
  rw [List.foldlM_cons] at this
  simp only [List.foldlM_nil] at this
  obtain ⟨r, hr, hr'⟩ := Res.bind_eq_ok.1 this
  rw [hr]
  exact hr'

/-- C68, products.  Let an array never have more than `n` elements, each zero or a double of magnitude between `1 / B` and `B`, and let
the initial value be of magnitude between `1 / I` and `I`.  After every history in which `k` changes have been committed, the value of a
product in the arithmetic of doubles differs from the exact product by at most `(n + 2 k) / 2^52` times the exact product; in particular
it is zero if and only if there is a zero among the elements.  Changes that are reverted leave no error.  (As long as `n + 2 k` is at most
2^51 and nothing overflows or underflows: `I B^n` and `B^2` are at most 2^1000.) -/
theorem C68_product {fl : Rat → Rat} (R : Rounding fl) {init B I : Rat} {n limit : Nat} (hB : 1 ≤ B) (hI : 0 < I)
    (hi : 1 / I ≤ |init| ∧ |init| ≤ I) (hbig : I * B ^ n ≤ 2 ^ 1000) (hB2 : B * B ≤ 2 ^ 1000) (hlim : n + 2 * limit ≤ 2 ^ 51) :
    Drifts (DoubleRel n (Moderate B)) (flProdNode fl init) (fun x => init * x.data.prod) (DoubleArr n (Moderate B))
      (fun k x => (n + 2 * k) / 2 ^ 52 * |init * x.data.prod|) limit := by
  -- the numbers are too large to be calculated with
  obtain ⟨C, hbigC, hB2C, rnd⟩ : ∃ C : Rat, I * B ^ n ≤ C ∧ B * B ≤ C ∧ ∀ {g q Q D : Rat}, Close g q Q → g ≤ 3 / 2 → 0 < D → D ≤ C →
      1 / D ≤ |Q| → |Q| ≤ D → Close (g * (1 + 1 / 2 ^ 53)) (fl q) Q :=
    ⟨2 ^ 1000, hbig, hB2, fun h hg hD hD' hl hu => h.round R hg hD hD' hl hu⟩
  clear hbig hB2
  have hR : 0 < I * B ^ n := mul_pos hI (pow_pos (lt_of_lt_of_le one_pos hB) _)
  have hg : ∀ j, j ≤ n + 2 * limit → grow j ≤ 3 / 2 := by
    intro j hj
    have h1 : grow j ≤ 1 + (j : Rat) / 2 ^ 52 := grow_le (le_trans (le_trans hj hlim) (by norm_num))
    have h2 : (j : Rat) ≤ 2 ^ 51 := by exact_mod_cast le_trans hj hlim
    have h3 : (j : Rat) / 2 ^ 52 ≤ 2 ^ 51 / 2 ^ 52 := div_le_div_of_nonneg_right h2 (by norm_num)
    have h4 : (2 : Rat) ^ 51 / 2 ^ 52 = 1 / 2 := by norm_num
    linarith
  -- one rounded multiplication with a number that is exact
  have times : ∀ {l m : List Rat} {p t : Rat} {j : Nat}, j ≤ n + 2 * limit → m.length ≤ n → (∀ v ∈ m, Moderate B v) →
      Close (grow j) p (init * nzProd l) → init * nzProd l * t = init * nzProd m →
      Close (grow (j + 1)) (fl (p * t)) (init * nzProd m) := by
    intro l m p t j hj hml hmw hc e
    obtain ⟨b1, b2⟩ := summary_moderate hB hI hi hml hmw
    have h1 := hc.mul (one_le_grow j) (Close.refl (le_refl 1) t)
    rw [mul_one, e] at h1
    rw [grow_succ]
    exact rnd h1 (hg j hj) hR hbigC b1 b2
  have hword : ∀ {m : List Rat}, (∀ v ∈ m, IsDouble v ∧ Moderate B v) → ∀ v ∈ m, Moderate B v := fun h v hv => (h v hv).2
  refine reduce_drifts (fun j l (p : Rat × (Rat × Int)) => p.1 = (if p.2.2 > 0 then 0 else p.2.1) ∧ p.2.2 = zeros l ∧ l.length ≤ n ∧
    (∀ v ∈ l, IsDouble v ∧ Moderate B v) ∧ Close (grow (n + 2 * j)) p.2.1 (init * nzProd l)) ?_ ?_ ?_
  · intro x hx
    have key : ∀ (l pre : List Rat) (p : Rat), (∀ z ∈ pre ++ l, Moderate B z) → (pre ++ l).length ≤ n →
        Close (grow pre.length) p (init * nzProd pre) →
        (l.foldl (flProdCount fl) (p, zeros pre)).2 = zeros (pre ++ l) ∧
        Close (grow (pre ++ l).length) (l.foldl (flProdCount fl) (p, zeros pre)).1 (init * nzProd (pre ++ l)) := by
      intro l
      induction l with
      | nil => intro pre p _ _ hc; rw [List.append_nil]; exact ⟨rfl, hc⟩
      | cons z l ih =>
        intro pre p hw hl hc
        have hmw : ∀ v ∈ pre ++ [z], Moderate B v := by
          intro y hy
          refine hw y ?_
          simp only [List.mem_append, List.mem_cons] at hy ⊢
          tauto
        have hml : (pre ++ [z]).length ≤ n := by simp at hl ⊢; omega
        have hf : ∃ q, flProdCount fl (p, zeros pre) z = (q, zeros (pre ++ [z])) ∧
            Close (grow (pre ++ [z]).length) q (init * nzProd (pre ++ [z])) := by
          unfold flProdCount
          by_cases h0 : z = 0
          · subst h0
            refine ⟨p, by rw [if_pos rfl, zeros_snoc, isz_zero], ?_⟩
            rw [nzProd_snoc, noZero_zero, mul_one]
            exact hc.mono (grow_mono (by simp))
          · refine ⟨fl (p * z), by rw [if_neg h0, zeros_snoc, isz_ne h0, add_zero]; rfl, ?_⟩
            rw [List.length_append, List.length_singleton]
            exact times (by simp at hl; omega) hml hmw hc (by rw [nzProd_snoc, noZero_of h0]; ring)
        obtain ⟨q, e, hq⟩ := hf
        rw [List.foldl_cons, e]
        have := ih (pre ++ [z]) q (by simpa using hw) (by simpa using hl) hq
        simpa using this
    have e0 : ((init, 0) : Rat × Int) = (init, zeros []) := rfl
    obtain ⟨k1, k2⟩ := key x.data [] init (by simpa using hword hx.double) (by simpa using hx.size)
      (by simpa [nzProd] using Close.refl (one_le_grow 0) init)
    rw [List.nil_append] at k1 k2
    refine ⟨_, rfl, rfl, ?_, hx.size, hx.double, ?_⟩
    · exact k1
    · exact k2.mono (grow_mono (by have := hx.size; omega))
  · rintro j x d y ⟨v, p, z⟩ _ hy hr hj ⟨hv, hz, hl, hw, hc⟩
    dsimp only at hv hz hc
    obtain ⟨⟨p', z'⟩, e', hz', hl', hw', hc'⟩ := foldlM_good (fun j l (s : Rat × Int) => s.2 = zeros l ∧ l.length ≤ n ∧
        (∀ v ∈ l, IsDouble v ∧ Moderate B v) ∧ Close (grow (n + 2 * j)) s.1 (init * nzProd l)) (step := flProdStep fl) (limit := limit)
      (P := fun u => u.index < n ∧ ∀ v, u.value = some v → IsDouble v ∧ Moderate B v) (by
      rintro j l u m ⟨p, z⟩ ⟨hz, hl, hw, hc⟩ ⟨hun, hu⟩ hm hj
      dsimp only at hz hc
      have hone := prodStep_one init hm
      have hml : m.length ≤ n := by
        rcases step_cases hm with ⟨w, rfl, rfl⟩ | ⟨w, rfl, rfl⟩ | ⟨o, w, hlo, hue, rfl⟩
        · simp at hun ⊢; omega
        · simp at hl; omega
        · simpa using hl
      have hmw : ∀ v ∈ m, IsDouble v ∧ Moderate B v := by
        rcases step_cases hm with ⟨w, rfl, rfl⟩ | ⟨w, rfl, rfl⟩ | ⟨o, w, hlo, hue, rfl⟩
        · intro v hv
          rcases List.mem_append.1 hv with hv | hv
          · exact hw v hv
          · rw [List.mem_singleton.1 hv]; exact hu w rfl
        · exact fun v hv => hw v (List.mem_append_left _ hv)
        · intro v hv
          rcases List.mem_or_eq_of_mem_set hv with hv | hv
          · exact hw v hv
          · rw [hv]; exact hu w (by rw [hue])
      have e2 : n + 2 * (j + 1) = n + 2 * j + 1 + 1 := by omega
      -- the product is unchanged
      have same : init * nzProd l = init * nzProd m → Close (grow (n + 2 * (j + 1))) p (init * nzProd m) := fun e => by
        rw [← e]; exact hc.mono (grow_mono (by omega))
      -- one rounding
      have once : ∀ t, init * nzProd l * t = init * nzProd m → Close (grow (n + 2 * (j + 1))) (fl (p * t)) (init * nzProd m) := fun t e =>
        (times (by omega) hml (hword hmw) hc e).mono (grow_mono (by omega))
      rcases step_cases hm with ⟨w, rfl, hm'⟩ | ⟨w, rfl, rfl⟩ | ⟨o, w, hlo, hue, hm'⟩
      · simp only [prodStep, prodSummary] at hone
        simp only [flProdStep]
        by_cases h0 : w = 0
        · rw [if_pos h0] at hone ⊢
          have h1 := Prod.mk.inj (Res.ok.inj hone)
          exact ⟨_, rfl, by rw [← h1.2, hz], hml, hmw, same h1.1⟩
        · rw [if_neg h0] at hone ⊢
          have h1 := Prod.mk.inj (Res.ok.inj hone)
          exact ⟨_, rfl, by rw [← h1.2, hz], hml, hmw, once w h1.1⟩
      · simp only [prodStep, prodSummary] at hone
        simp only [flProdStep]
        by_cases h0 : w = 0
        · rw [if_pos h0] at hone ⊢
          have h1 := Prod.mk.inj (Res.ok.inj hone)
          exact ⟨_, rfl, by rw [← h1.2, hz], hml, hmw, same h1.1⟩
        · rw [if_neg h0] at hone ⊢
          have h1 := Prod.mk.inj (Res.ok.inj hone)
          refine ⟨_, rfl, by rw [← h1.2, hz], hml, hmw, ?_⟩
          rw [flDiv, div_eq_mul_inv]
          exact once _ (by rw [← div_eq_mul_inv]; exact h1.1)
      · have huo : u.old = some o := by rw [hue]
        have huw : u.value = some w := by rw [hue]
        simp only [prodStep, prodSummary, huo, huw] at hone
        simp only [flProdStep, huo, huw]
        by_cases h00 : o = 0 ∧ w = 0
        · rw [if_pos h00] at hone ⊢
          have h1 := Prod.mk.inj (Res.ok.inj hone)
          exact ⟨_, rfl, by rw [← h1.2, hz], hml, hmw, same h1.1⟩
        · rw [if_neg h00] at hone ⊢
          by_cases h0 : o = 0
          · rw [if_pos h0] at hone ⊢
            have h1 := Prod.mk.inj (Res.ok.inj hone)
            exact ⟨_, rfl, by rw [← h1.2, hz], hml, hmw, once w h1.1⟩
          · rw [if_neg h0] at hone ⊢
            by_cases hw0 : w = 0
            · rw [if_pos hw0] at hone ⊢
              have h1 := Prod.mk.inj (Res.ok.inj hone)
              refine ⟨_, rfl, by rw [← h1.2, hz], hml, hmw, ?_⟩
              rw [flDiv, div_eq_mul_inv]
              exact once _ (by rw [← div_eq_mul_inv]; exact h1.1)
            · rw [if_neg hw0] at hone ⊢
              have h1 := Prod.mk.inj (Res.ok.inj hone)
              refine ⟨_, rfl, by rw [← h1.2, hz], hml, hmw, ?_⟩
              -- two roundings
              have ho := (hw o (List.mem_of_getElem? hlo)).2.resolve_left h0
              have hw' := (hu w huw).2.resolve_left hw0
              have hB0 : 0 < B := by linarith
              have ho0 : 0 < |o| := abs_pos.2 h0
              have ht : Close (grow 1) (fl (w / o)) (w / o) := by
                rw [grow_one, ← one_mul (1 + 1 / 2 ^ 53 : Rat)]
                refine rnd (Close.refl (le_refl 1) (w / o)) (by norm_num) (mul_pos hB0 hB0) hB2C ?_ ?_
                · rw [abs_div, div_le_div_iff₀ (mul_pos hB0 hB0) ho0, one_mul]
                  have := ho.2
                  have h3 : 1 ≤ |w| * B := (div_le_iff₀ hB0).1 hw'.1
                  calc |o| ≤ B * 1 := by linarith
                    _ ≤ B * (|w| * B) := mul_le_mul_of_nonneg_left h3 hB0.le
                    _ = _ := by ring
                · rw [abs_div, div_le_iff₀ ho0]
                  have h3 : 1 ≤ |o| * B := (div_le_iff₀ hB0).1 ho.1
                  calc |w| ≤ B * 1 := by linarith [hw'.2]
                    _ ≤ B * (|o| * B) := mul_le_mul_of_nonneg_left h3 hB0.le
                    _ = _ := by ring
              have h3 := hc.mul (one_le_grow _) ht
              rw [h1.1, show grow (n + 2 * j) * grow 1 = grow (n + 2 * j + 1) by
                rw [grow_succ (n + 2 * j), grow_one]] at h3
              obtain ⟨b1, b2⟩ := summary_moderate hB hI hi hml (hword hmw)
              rw [e2, grow_succ]
              exact rnd h3 (hg _ (by omega)) hR hbigC b1 b2)
      d j x.data y.data (p, z) ⟨hz, hl, hw, hc⟩ (fun u hu => ⟨hr.index u hu, hr.new u hu⟩) hr.exact.replays hj
    refine ⟨(if z' > 0 then 0 else p', (p', z')), ?_, rfl, hz', hl', hw', hc'⟩
    simp only [flProdPropagate]
    rw [guardUB_true, Res.ok_bind, e', Res.ok_bind]
    have := zeros_nonneg x.data
    rw [hv]
    by_cases h : z > 0
    · right; rw [if_pos h]
    · left; omega
  · rintro j x ⟨v, p, z⟩ _ hj ⟨hv, hz, _, _, hc⟩
    dsimp only at hv hz hc ⊢
    have hval : (if zeros x.data > 0 then 0 else init * nzProd x.data) = init * x.data.prod := prodSummary_value init x.data
    rw [hv, hz]
    by_cases h : zeros x.data > 0
    · rw [if_pos h] at hval ⊢
      rw [← hval]
      simp
    · rw [if_neg h] at hval ⊢
      rw [← hval]
      refine le_trans hc (mul_le_mul_of_nonneg_right ?_ (abs_nonneg _))
      have h1 : grow (n + 2 * j) ≤ 1 + ((n + 2 * j : Nat) : Rat) / 2 ^ 52 :=
        grow_le (le_trans (by omega : n + 2 * j ≤ n + 2 * limit) (le_trans hlim (by norm_num)))
      push_cast at h1
      linarith

/-- Fifty factors between a thousandth and a thousand, a million changes: the product is right to nine digits. -/
example : Drifts (DoubleRel 50 (Moderate 1000)) (flProdNode roundDouble 1) (fun x => 1 * x.data.prod) (DoubleArr 50 (Moderate 1000))
    (fun k x => ((50 : Nat) + 2 * k) / 2 ^ 52 * |1 * x.data.prod|) (10 ^ 6) ∧
    (((50 : Nat) : Rat) + 2 * (10 ^ 6 : Nat)) / 2 ^ 52 < 1 / 10 ^ 9 := by
  have h10 : (1000 : Rat) ≤ 2 ^ 10 := by norm_num
  have e : (2 : Rat) ^ 1000 = (2 ^ 10) ^ 50 * 2 ^ 500 := by rw [← pow_mul, ← pow_add]
  have h500 : (1 : Rat) ≤ 2 ^ 500 := one_le_pow₀ (by norm_num)
  have hp : (0 : Rat) ≤ (2 ^ 10) ^ 50 := pow_nonneg (by norm_num) _
  have h50 : ((2 : Rat) ^ 10) ^ 50 ≤ 2 ^ 1000 := by
    rw [e]
    exact le_mul_of_one_le_right hp h500
  refine ⟨C68_product roundDouble_rounding (I := 1) (by norm_num) one_pos (by norm_num) ?_ ?_ (by norm_num), by norm_num⟩
  · rw [one_mul]
    exact le_trans (pow_le_pow_left₀ (by norm_num) h10 50) h50
  · refine le_trans ?_ h50
    calc (1000 : Rat) * 1000 ≤ (2 ^ 10) ^ 2 := by norm_num
      _ ≤ (2 ^ 10) ^ 50 := pow_le_pow_right₀ (by norm_num) (by norm_num)

/-- Such a history: a factor changes, another one is appended. -/
example : Legal (DoubleRel 50 (Moderate 1000)) (fun xs => ∃ x, xs = [x] ∧ DoubleArr 50 (Moderate 1000) x) [⟨[-1], [3, 1 / 2]⟩]
    [⟨[(⟨[-1], [7, 1 / 2, 0]⟩, [⟨0, some 3, some 7⟩, ⟨2, none, some 0⟩])], true⟩] [⟨[-1], [7, 1 / 2, 0]⟩] := by
  have d0 : IsDouble 0 ∧ Moderate 1000 0 := ⟨⟨0, 0, by norm_num, by norm_num, by norm_num, by norm_num⟩, Or.inl rfl⟩
  have d1 : IsDouble (1 / 2) ∧ Moderate 1000 (1 / 2) :=
    ⟨⟨1, -1, by norm_num, by norm_num, by norm_num, by norm_num⟩, Or.inr (by norm_num [abs_of_pos])⟩
  have d7 : IsDouble 7 ∧ Moderate 1000 7 :=
    ⟨⟨7, 0, by norm_num, by norm_num, by norm_num, by norm_num⟩, Or.inr (by norm_num [abs_of_pos])⟩
  refine .cons (.cons ⟨by decide +kernel, by simp, ?_⟩ .nil) ⟨_, rfl, by simp, ?_⟩ .nil
  · simpa using ⟨d7, d0⟩
  · simpa using ⟨d7, by simpa using d1, d0⟩

end Verif
