import Verif.Model.Operations
import Mathlib.Tactic.Ring
import Mathlib.Tactic.Linarith
import Mathlib.Tactic.FieldSimp
import Mathlib.Tactic.SplitIfs

/-!
# C38: modulus agrees with NumPy
-/

namespace Verif

/-- NumPy's remainder: the remainder of the division rounded down; zero for a zero divisor. -/
def npRemainder (x y : Rat) : Rat := if y = 0 then 0 else x - ⌊x / y⌋ * y

theorem fmod_eq_zero {x y : Rat} (hy : y ≠ 0) : fmod x y = 0 ↔ (truncate (x / y) : Rat) = x / y := by
  unfold fmod
  rw [sub_eq_zero, eq_comm, ← eq_div_iff hy]

theorem truncate_int (n : Int) : truncate (n : Rat) = n := by
  unfold truncate
  split_ifs
  · exact Int.floor_intCast n
  · exact Int.ceil_intCast n

/-- C38.  The modulus symbol computes NumPy's remainder. -/
theorem C38_modulus_eq_numpy (x y : Rat) : modulus x y = npRemainder x y := by
  unfold modulus npRemainder
  by_cases hy : y = 0
  · simp [hy]
  rw [if_neg hy, if_neg hy]
  have hsign : decide (x < 0) ≠ decide (y < 0) ↔ (x < 0 ∧ 0 < y) ∨ (0 ≤ x ∧ y < 0) := by
    rcases lt_or_gt_of_ne hy with h | h
    · by_cases hx : x < 0
      · simp [hx, h, not_lt.2 h.le]
      · simp [hx, h, not_lt.1 hx]
    · by_cases hx : x < 0
      · simp [hx, h, not_lt.2 h.le]
      · simp [hx, h, not_lt.2 h.le]
  by_cases hq : 0 ≤ x / y
  · -- same signs, or `x = 0`
    have ht : truncate (x / y) = ⌊x / y⌋ := by simp [truncate, hq]
    rw [if_neg]
    · simp only [fmod, ht]
    · rintro ⟨h1, h2⟩
      rw [hsign] at h1
      apply h2
      have hx : x = 0 := by
        rcases h1 with ⟨h, h'⟩ | ⟨h, h'⟩
        · exact absurd (div_neg_of_neg_of_pos h h') (not_lt.2 hq)
        · by_contra hx
          exact absurd (div_neg_of_pos_of_neg (lt_of_le_of_ne h (Ne.symm hx)) h') (not_lt.2 hq)
      subst hx
      simp [fmod, truncate]
  · have hq' : x / y < 0 := not_le.1 hq
    have ht : truncate (x / y) = ⌈x / y⌉ := by simp [truncate, hq]
    have h1 : decide (x < 0) ≠ decide (y < 0) := by
      rw [hsign]
      rcases lt_or_gt_of_ne hy with h | h
      · right
        refine ⟨?_, h⟩
        by_contra hx
        exact absurd (div_pos_of_neg_of_neg (not_le.1 hx) h) (not_lt.2 hq'.le)
      · left
        refine ⟨?_, h⟩
        by_contra hx
        exact absurd (div_nonneg (not_lt.1 hx) h.le) hq
    by_cases hz : fmod x y = 0
    · rw [if_neg (by simp [hz])]
      have h2 := (fmod_eq_zero hy).1 hz
      rw [← h2, Int.floor_intCast, h2, div_mul_cancel₀ _ hy, sub_self, hz]
    · rw [if_pos ⟨h1, hz⟩]
      have hne : (⌈x / y⌉ : Rat) ≠ x / y := by
        intro h
        exact hz ((fmod_eq_zero hy).2 (by rw [ht]; exact h))
      have hfc : ⌈x / y⌉ = ⌊x / y⌋ + 1 := by
        apply le_antisymm (Int.ceil_le_floor_add_one _)
        have : (⌊x / y⌋ : Rat) < ⌈x / y⌉ := by
          have h3 := Int.floor_le (x / y)
          have h4 := Int.le_ceil (x / y)
          exact lt_of_le_of_lt h3 (lt_of_le_of_ne h4 (Ne.symm hne))
        exact_mod_cast this
      simp only [fmod, ht, hfc]
      push_cast
      ring

/-- C38.  Zero for a zero divisor; otherwise the result differs from the dividend by a multiple of the
divisor, is smaller than the divisor in magnitude and has its sign (or is zero). -/
theorem C38_modulus (x y : Rat) :
    modulus x 0 = 0 ∧ (y ≠ 0 → ∃ k : Int, x = k * y + modulus x y) ∧
    (0 < y → 0 ≤ modulus x y ∧ modulus x y < y) ∧ (y < 0 → y < modulus x y ∧ modulus x y ≤ 0) := by
  rw [C38_modulus_eq_numpy, C38_modulus_eq_numpy]
  have h1 := Int.floor_le (x / y)
  have h2 := Int.lt_floor_add_one (x / y)
  refine ⟨by simp [npRemainder], fun hy => ⟨⌊x / y⌋, by simp [npRemainder, hy]⟩, ?_, ?_⟩
  · intro hy
    rw [npRemainder, if_neg hy.ne']
    rw [le_div_iff₀ hy] at h1
    rw [div_lt_iff₀ hy] at h2
    constructor <;> linarith
  · intro hy
    rw [npRemainder, if_neg hy.ne]
    rw [le_div_iff_of_neg hy] at h1
    rw [div_lt_iff_of_neg hy] at h2
    constructor <;> linarith

example : modulus (-7) 3 = 2 ∧ modulus 7 (-3) = -2 ∧ modulus (-7) (-3) = -1 ∧ modulus (-6) 3 = 0 ∧
    modulus (5 / 2) (-1) = -(1 / 2) ∧ modulus 5 0 = 0 := by
  decide +kernel

end Verif
