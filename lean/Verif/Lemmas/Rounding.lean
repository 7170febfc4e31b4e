import Verif.Spec.Rounding
import Mathlib.Algebra.Order.Round
import Mathlib.Algebra.Order.Archimedean.Basic
import Mathlib.Data.Rat.Floor
import Mathlib.Data.Int.Log
import Mathlib.Tactic.Linarith
import Mathlib.Tactic.Ring
import Mathlib.Tactic.NormNum
import Mathlib.Tactic.Positivity
import Mathlib.Tactic.FieldSimp

/-!
# Rounding to doubles
-/

namespace Verif

theorem two_zpow_pos (e : Int) : (0 : Rat) < (2 : Rat) ^ e := zpow_pos (by norm_num) e

theorem two_zpow_add (a b : Int) : (2 : Rat) ^ (a + b) = (2 : Rat) ^ a * (2 : Rat) ^ b :=
  zpow_add₀ (by norm_num) a b

/-- A multiple of a greater power of two is one of a smaller. -/
theorem multiple_of_le {e e' : Int} (h : e ≤ e') (m : Int) :
    ∃ k : Int, (m : Rat) * (2 : Rat) ^ e' = k * (2 : Rat) ^ e := by
  obtain ⟨n, rfl⟩ := Int.le.dest h
  refine ⟨m * 2 ^ n, ?_⟩
  rw [two_zpow_add, zpow_natCast]
  push_cast
  ring

/-- A double with a small exponent is small. -/
theorem small_of_lt {e e' m : Int} (hm : |m| < 2 ^ 53) (h : e' < e) :
    |(m : Rat) * (2 : Rat) ^ e'| < 2 ^ 52 * (2 : Rat) ^ e := by
  rw [abs_mul, abs_of_pos (two_zpow_pos e'), ← Int.cast_abs]
  have h1 : ((|m| : Int) : Rat) < 2 ^ 53 := by exact_mod_cast hm
  have h2 : (2 : Rat) ^ e' ≤ (2 : Rat) ^ (e - 1) := zpow_le_zpow_right₀ (by norm_num) (by omega)
  have h3 : (2 : Rat) ^ e = 2 * (2 : Rat) ^ (e - 1) := by
    rw [show e = 1 + (e - 1) by ring, two_zpow_add]; norm_num
  have hp := two_zpow_pos e'
  calc ((|m| : Int) : Rat) * (2 : Rat) ^ e' < 2 ^ 53 * (2 : Rat) ^ e' := by
        exact mul_lt_mul_of_pos_right h1 hp
    _ ≤ 2 ^ 53 * (2 : Rat) ^ (e - 1) := by
        exact mul_le_mul_of_nonneg_left h2 (by norm_num)
    _ = 2 ^ 52 * (2 : Rat) ^ e := by rw [h3]; ring

/-- What is exact is kept. -/
theorem Rounding.exact {fl : Rat → Rat} (R : Rounding fl) {q : Rat} (hq : IsDouble q) (hb : |q| ≤ greatestDouble) : fl q = q := by
  have h := R.nearest q hb q hq
  rw [sub_self, abs_zero] at h
  exact sub_eq_zero.1 (abs_nonpos_iff.1 h)

theorem greatest_large : (2 : Rat) ^ 53 ≤ greatestDouble := by
  unfold greatestDouble
  have : (2 : Rat) ^ (1 : Int) ≤ (2 : Rat) ^ (971 : Int) := zpow_le_zpow_right₀ (by norm_num) (by norm_num)
  have h1 : (2 : Rat) ≤ (2 : Rat) ^ (971 : Int) := by simpa using this
  calc (2 : Rat) ^ 53 ≤ (2 ^ 53 - 1) * 2 := by norm_num
    _ ≤ _ := mul_le_mul_of_nonneg_left h1 (by norm_num)

theorem isDouble_whole {z : Int} (h : |z| ≤ 2 ^ 53) : IsDouble z := by
  by_cases h' : |z| = 2 ^ 53
  · rcases abs_eq (by norm_num) |>.1 h' with e | e <;> subst e
    · exact ⟨2 ^ 52, 1, by norm_num, by norm_num, by norm_num, by norm_num⟩
    · exact ⟨-2 ^ 52, 1, by norm_num, by norm_num, by norm_num, by norm_num⟩
  · exact ⟨z, 0, lt_of_le_of_ne h h', by norm_num, by norm_num, by simp⟩

/-- Rounding to doubles keeps whole numbers. -/
theorem Rounding.keepsWhole {fl : Rat → Rat} (R : Rounding fl) : KeepsWhole fl := by
  intro z hz
  refine R.exact (isDouble_whole hz) (le_trans ?_ greatest_large)
  rw [← Int.cast_abs]
  exact_mod_cast hz

/-- A number whose distance to a multiple of the spacing of doubles around it is less than half of that spacing is rounded to it. -/
theorem Rounding.eq_of_near {fl : Rat → Rat} (R : Rounding fl) {q : Rat} (m e : Int) (hD : IsDouble (m * (2 : Rat) ^ e))
    (hlow : 2 ^ 52 * (2 : Rat) ^ e ≤ q) (hb : q ≤ greatestDouble)
    (hc : |m * (2 : Rat) ^ e - q| < (2 : Rat) ^ e / 2) : fl q = m * (2 : Rat) ^ e := by
  have hu := two_zpow_pos e
  have hq0 : 0 ≤ q := le_trans (by positivity) hlow
  have hqb : |q| ≤ greatestDouble := by rwa [abs_of_nonneg hq0]
  have hn := R.nearest q hqb (m * (2 : Rat) ^ e) hD
  obtain ⟨m', e', hm', -, -, hd⟩ := R.double q hqb
  have hf : |fl q - q| < (2 : Rat) ^ e / 2 := lt_of_le_of_lt hn hc
  have hdist : |fl q - m * (2 : Rat) ^ e| < (2 : Rat) ^ e := by
    have : fl q - m * (2 : Rat) ^ e = (fl q - q) - (m * (2 : Rat) ^ e - q) := by ring
    rw [this]
    have := abs_sub (fl q - q) (m * (2 : Rat) ^ e - q)
    linarith
  by_cases h : e ≤ e'
  · obtain ⟨k, hk⟩ := multiple_of_le h m'
    rw [hd, hk] at hdist ⊢
    rw [← sub_mul, abs_mul, abs_of_pos hu] at hdist
    have h1 : |((k : Rat) - m)| < 1 := by
      by_contra h1
      have := mul_le_mul_of_nonneg_right (not_lt.1 h1) hu.le
      linarith
    have h2 : |k - m| < 1 := by
      have : ((|k - m| : Int) : Rat) < 1 := by push_cast; exact h1
      exact_mod_cast this
    have : k = m := by
      have := Int.abs_lt_one_iff.1 h2; omega
    rw [this]
  · exfalso
    have hs := small_of_lt hm' (not_le.1 h)
    rw [← hd] at hs
    have hlt : fl q < 2 ^ 52 * (2 : Rat) ^ e := lt_of_le_of_lt (le_abs_self _) hs
    -- `m` is at least `2 ^ 52`
    have hmm : (2 : Int) ^ 52 ≤ m := by
      by_contra hm2
      have h1 : m ≤ 2 ^ 52 - 1 := by omega
      have h2 : (m : Rat) ≤ 2 ^ 52 - 1 := by exact_mod_cast h1
      have h3 := mul_le_mul_of_nonneg_right h2 hu.le
      have h4 := (abs_lt.1 hc).1
      nlinarith
    have hmr : (2 : Rat) ^ 52 ≤ m := by exact_mod_cast hmm
    have h5 := mul_le_mul_of_nonneg_right hmr hu.le
    have h6 := (abs_le.1 (le_of_lt hf)).1
    by_cases hmq : m * (2 : Rat) ^ e ≤ q
    · have a1 : |fl q - q| = q - fl q := by
        rw [abs_sub_comm]; exact abs_of_nonneg (by linarith)
      have a2 : |m * (2 : Rat) ^ e - q| = q - m * (2 : Rat) ^ e := by
        rw [abs_sub_comm]; exact abs_of_nonneg (by linarith)
      rw [a1, a2] at hn
      linarith
    · -- then `m` is greater than `2 ^ 52`
      have hmq' := not_le.1 hmq
      have hm3 : (2 : Int) ^ 52 < m := by
        by_contra hm4
        have : m = 2 ^ 52 := by omega
        rw [this] at hmq'
        push_cast at hmq'
        linarith
      have hm5 : (2 : Rat) ^ 52 + 1 ≤ m := by exact_mod_cast hm3
      have h7 := mul_le_mul_of_nonneg_right hm5 hu.le
      have h8 := (abs_lt.1 hc).2
      nlinarith

theorem Rounding.eq_of_close {fl : Rat → Rat} (R : Rounding fl) {q : Rat} (m e : Int) (hm : |m| < 2 ^ 53)
    (he : -1074 ≤ e) (he' : e ≤ 971) (hlow : 2 ^ 52 * (2 : Rat) ^ e ≤ q) (hb : q ≤ greatestDouble)
    (hc : |m * (2 : Rat) ^ e - q| < (2 : Rat) ^ e / 2) : fl q = m * (2 : Rat) ^ e :=
  R.eq_of_near m e ⟨m, e, hm, he, he', rfl⟩ hlow hb hc

/-! ## A rounding -/

/-- The exponent of the last bit of doubles near `q`. -/
def lastBit (q : Rat) : Int := if q = 0 then -1074 else max (-1074) (min 971 (Int.log 2 |q| - 52))

/-- A rounding to doubles. -/
def roundDouble (q : Rat) : Rat := round (q / (2 : Rat) ^ lastBit q) * (2 : Rat) ^ lastBit q

theorem round_close (q : Rat) (e : Int) (k : Int) :
    |round (q / (2 : Rat) ^ e) * (2 : Rat) ^ e - q| ≤ |k * (2 : Rat) ^ e - q| := by
  have hu := two_zpow_pos e
  have h := round_le (q / (2 : Rat) ^ e) k
  have h1 : ∀ z : Int, |(z : Rat) * (2 : Rat) ^ e - q| = |q / (2 : Rat) ^ e - z| * (2 : Rat) ^ e := by
    intro z
    rw [show (z : Rat) * (2 : Rat) ^ e - q = -((q / (2 : Rat) ^ e - z) * (2 : Rat) ^ e) by field_simp; ring]
    rw [abs_neg, abs_mul, abs_of_pos hu]
  rw [h1, h1]
  exact mul_le_mul_of_nonneg_right h hu.le

/-- Where a number lies, seen from its last bit. -/
theorem lastBit_spec {q : Rat} (hq : |q| ≤ greatestDouble) :
    |q| < 2 ^ 53 * (2 : Rat) ^ lastBit q ∧ (lastBit q = -1074 ∨ 2 ^ 52 * (2 : Rat) ^ lastBit q ≤ |q|) := by
  by_cases h0 : q = 0
  · subst h0
    refine ⟨by rw [abs_zero]; exact mul_pos (by norm_num) (two_zpow_pos _), Or.inl ?_⟩
    unfold lastBit
    simp
  have hp : 0 < |q| := abs_pos.2 h0
  have hl := Int.zpow_log_le_self (b := 2) (by norm_num) hp
  have hu := Int.lt_zpow_succ_log_self (b := 2) (by norm_num) |q|
  push_cast at hl hu
  have e53 : ∀ e : Int, (2 : Rat) ^ 53 * (2 : Rat) ^ e = (2 : Rat) ^ (53 + e) := by
    intro e; rw [two_zpow_add]; norm_num
  have e52 : ∀ e : Int, (2 : Rat) ^ 52 * (2 : Rat) ^ e = (2 : Rat) ^ (52 + e) := by
    intro e; rw [two_zpow_add]; norm_num
  have hlog : Int.log 2 |q| ≤ 1023 := by
    by_contra hc
    have : (2 : Rat) ^ (1024 : Int) ≤ (2 : Rat) ^ Int.log 2 |q| := zpow_le_zpow_right₀ (by norm_num) (by omega)
    have h1 : (2 : Rat) ^ (1024 : Int) ≤ greatestDouble := le_trans this (le_trans hl hq)
    have h2 : greatestDouble < 2 ^ 53 * (2 : Rat) ^ (971 : Int) :=
      mul_lt_mul_of_pos_right (by norm_num) (two_zpow_pos _)
    rw [e53, show (53 + 971 : Int) = 1024 by norm_num] at h2
    exact absurd (lt_of_le_of_lt h1 h2) (lt_irrefl _)
  have hmin : lastBit q = max (-1074) (Int.log 2 |q| - 52) := by
    unfold lastBit
    rw [if_neg h0, min_eq_right (by omega)]
  rw [hmin, e53, e52]
  constructor
  · refine lt_of_lt_of_le hu (zpow_le_zpow_right₀ (by norm_num) ?_)
    have := le_max_right (-1074) (Int.log 2 |q| - 52)
    omega
  · by_cases hc : Int.log 2 |q| - 52 ≤ -1074
    · exact Or.inl (max_eq_left hc)
    · right
      rw [max_eq_right (by omega)]
      refine le_trans (zpow_le_zpow_right₀ (by norm_num) ?_) hl
      omega

theorem lastBit_range (q : Rat) : -1074 ≤ lastBit q ∧ lastBit q ≤ 971 := by
  unfold lastBit
  split
  · exact ⟨le_refl _, by norm_num⟩
  constructor
  · exact le_max_left _ _
  · exact max_le (by norm_num) (min_le_left _ _)

/-- There is a rounding to doubles. -/
theorem roundDouble_rounding : Rounding roundDouble where
  double := by
    intro q hq
    obtain ⟨h1, h2⟩ := lastBit_spec hq
    obtain ⟨r1, r2⟩ := lastBit_range q
    have hu := two_zpow_pos (lastBit q)
    have hle : |round (q / (2 : Rat) ^ lastBit q)| ≤ 2 ^ 53 := by
      have ha : |q / (2 : Rat) ^ lastBit q| < 2 ^ 53 := by
        rw [abs_div, abs_of_pos hu, div_lt_iff₀ hu]; exact h1
      have hr := abs_sub_round (q / (2 : Rat) ^ lastBit q)
      have hi : ((|round (q / (2 : Rat) ^ lastBit q)| : Int) : Rat) < 2 ^ 53 + 1 := by
        rw [Int.cast_abs]
        have h3 := abs_sub_abs_le_abs_sub ((round (q / (2 : Rat) ^ lastBit q) : Int) : Rat) (q / (2 : Rat) ^ lastBit q)
        rw [abs_sub_comm] at h3
        linarith
      have : |round (q / (2 : Rat) ^ lastBit q)| < 2 ^ 53 + 1 := by exact_mod_cast hi
      omega
    by_cases heq : |round (q / (2 : Rat) ^ lastBit q)| = 2 ^ 53
    · -- the next power of two
      have htop : lastBit q ≤ 970 := by
        by_contra hc
        have he : lastBit q = 971 := by omega
        have hq' := hq
        unfold greatestDouble at hq'
        have hc1 := round_close q (lastBit q) (if 0 ≤ q then 2 ^ 53 - 1 else -(2 ^ 53 - 1))
        have hd : |q / (2 : Rat) ^ lastBit q| ≤ 2 ^ 53 - 1 := by
          rw [abs_div, abs_of_pos hu, div_le_iff₀ hu, he]; exact hq'
        have hr := round_le (q / (2 : Rat) ^ lastBit q) (if 0 ≤ q then 2 ^ 53 - 1 else -(2 ^ 53 - 1))
        have ha := abs_sub_round (q / (2 : Rat) ^ lastBit q)
        have hi : ((|round (q / (2 : Rat) ^ lastBit q)| : Int) : Rat) = 2 ^ 53 := by rw [heq]; norm_num
        rw [Int.cast_abs] at hi
        have h3 := abs_sub_abs_le_abs_sub ((round (q / (2 : Rat) ^ lastBit q) : Int) : Rat) (q / (2 : Rat) ^ lastBit q)
        rw [abs_sub_comm] at h3
        linarith
      rcases abs_eq (by norm_num) |>.1 heq with e | e
      · refine ⟨2 ^ 52, lastBit q + 1, by norm_num, by omega, by omega, ?_⟩
        unfold roundDouble
        rw [e, two_zpow_add]; push_cast; ring
      · refine ⟨-2 ^ 52, lastBit q + 1, by norm_num, by omega, by omega, ?_⟩
        unfold roundDouble
        rw [e, two_zpow_add]; push_cast; norm_num; ring
    · exact ⟨_, lastBit q, lt_of_le_of_ne hle heq, r1, r2, rfl⟩
  nearest := by
    intro q hq d hd
    obtain ⟨h1, h2⟩ := lastBit_spec hq
    obtain ⟨m, e, hm, he, he', rfl⟩ := hd
    by_cases h : lastBit q ≤ e
    · obtain ⟨k, hk⟩ := multiple_of_le h m
      rw [hk]
      exact round_close q (lastBit q) k
    · have h' := not_le.1 h
      have h2 : 2 ^ 52 * (2 : Rat) ^ lastBit q ≤ |q| := h2.resolve_left (by omega)
      have hs := small_of_lt hm h'
      obtain ⟨s1, s2⟩ := abs_lt.1 hs
      by_cases hq0 : 0 ≤ q
      · rw [abs_of_nonneg hq0] at h2
        have hc := round_close q (lastBit q) (2 ^ 52)
        push_cast at hc
        refine le_trans hc ?_
        rw [abs_sub_comm, abs_of_nonneg (by linarith), abs_sub_comm, abs_of_nonneg (by linarith)]
        linarith
      · rw [abs_of_neg (not_le.1 hq0)] at h2
        have hc := round_close q (lastBit q) (-2 ^ 52)
        push_cast at hc
        refine le_trans hc ?_
        rw [abs_of_nonneg (by linarith), abs_of_nonneg (by linarith)]
        linarith

end Verif
