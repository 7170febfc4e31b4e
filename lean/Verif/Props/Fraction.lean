import Verif.Model.Fraction
import Mathlib.Tactic.FieldSimp
import Mathlib.Tactic.Ring
import Mathlib.Data.Rat.Lemmas

set_option linter.unusedSimpArgs false

/-!
# C15: fractions are exact rationals in lowest terms
-/

namespace Verif

/-- The fraction is the rational `q` written in lowest terms with positive denominator (this is the
canonical form in which Lean stores rationals: coprime, positive denominator). -/
def Fraction.Is (f : Fraction) (q : Rat) : Prop := f.num = q.num ∧ f.den = (q.den : Int)

theorem Fraction.Is.lowest_terms {f : Fraction} {q : Rat} (h : f.Is q) :
    0 < f.den ∧ Int.gcd f.num f.den = 1 ∧ (f.num : Rat) / f.den = q := by
  refine ⟨by rw [h.2]; exact_mod_cast q.den_pos, ?_, ?_⟩
  · rw [h.1, h.2]; exact q.reduced
  · rw [h.1, h.2]; exact_mod_cast Rat.num_div_den q

theorem Fraction.is_of {f : Fraction} {q : Rat} (hd : 0 < f.den) (hg : Int.gcd f.num f.den = 1)
    (he : (f.num : Rat) / f.den = q) : f.Is q := by
  have h1 : q.num = f.num := by
    rw [← he]
    exact Rat.num_div_eq_of_coprime hd hg
  have h2 : (q.den : Int) = f.den := by
    rw [← he]
    exact Rat.den_div_eq_of_coprime hd hg
  exact ⟨h1.symm, h2.symm⟩

theorem Fraction.reduce_spec (f : Fraction) (hd : f.den ≠ 0) :
    ∃ g, f.reduce = .ok g ∧ g.Is ((f.num : Rat) / f.den) := by
  obtain ⟨a, b⟩ := f
  simp only at hd
  have hg : (Int.gcd a b : Int) ≠ 0 := by
    simp only [ne_eq, Int.natCast_eq_zero, Int.gcd_eq_zero_iff, not_and]
    exact fun _ => hd
  obtain ⟨a', ha⟩ : (Int.gcd a b : Int) ∣ a := Int.gcd_dvd_left ..
  obtain ⟨b', hb⟩ : (Int.gcd a b : Int) ∣ b := Int.gcd_dvd_right ..
  have key : ∀ g x y : Int, g ≠ 0 → x = g * y → x.tdiv g = y := by
    rintro g x y hg rfl; exact Int.mul_tdiv_cancel_left _ hg
  have ea := key _ _ _ hg ha
  have eb := key _ _ _ hg hb
  have hb0 : b' ≠ 0 := by rintro rfl; simp at hb; exact hd hb
  have hcop : Int.gcd a' b' = 1 := by
    have : Int.gcd a b * Int.gcd a' b' = Int.gcd a b := by
      have h := Int.gcd_mul_left (Int.gcd a b : Int) a' b'
      rw [← ha, ← hb] at h
      simpa using h.symm
    have h0 : 0 < Int.gcd a b := by
      rcases Nat.eq_zero_or_pos (Int.gcd a b) with h | h
      · rw [h] at hg; simp at hg
      · exact h
    exact Nat.eq_of_mul_eq_mul_left h0 (by omega)
  have hval : (a : Rat) / b = (a' : Rat) / b' := by
    have hg' : ((Int.gcd a b : Int) : Rat) ≠ 0 := by exact_mod_cast hg
    have hb0' : (b' : Rat) ≠ 0 := by exact_mod_cast hb0
    have e1 : (a : Rat) = ((Int.gcd a b : Int) : Rat) * a' := by exact_mod_cast ha
    have e2 : (b : Rat) = ((Int.gcd a b : Int) : Rat) * b' := by exact_mod_cast hb
    rw [e1, e2]
    field_simp
  have step : Fraction.cancel ⟨a, b⟩ = .ok ⟨a', b'⟩ := by
    unfold Fraction.cancel
    split_ifs with h1
    · rw [guardUB_true hg, Res.ok_bind, ea, eb]
    · have h1 : (Int.gcd a b : Int) = 1 := by simpa using h1
      rw [h1, one_mul] at ha hb
      rw [← ha, ← hb]
  unfold Fraction.reduce
  rw [step, Res.ok_bind]
  rw [hval]
  split_ifs with h
  · refine ⟨_, rfl, Fraction.is_of ?_ ?_ ?_⟩
    · simp; exact h
    · simpa using hcop
    · simp
  · exact ⟨_, rfl, Fraction.is_of (by simp only at h ⊢; omega) hcop rfl⟩

/-- **C15.** A fraction built from two integers is their quotient in lowest terms with positive
denominator; a zero denominator is rejected. -/
theorem C15_make (a b : Int) :
    (b = 0 → Fraction.make a b = .throw) ∧
    (b ≠ 0 → ∃ f, Fraction.make a b = .ok f ∧ f.Is ((a : Rat) / b)) := by
  refine ⟨fun h => by simp [Fraction.make, h], fun h => ?_⟩
  simpa [Fraction.make, h] using Fraction.reduce_spec ⟨a, b⟩ h

theorem C15_ofInt (n : Int) : (Fraction.ofInt n).Is n := ⟨rfl, rfl⟩

private theorem run1_spec {f : Fraction} {q : Rat} (h : f.Is q) (op : FracOp) :
    match op.effect q with
    | some q' => ∃ g, f.run1 op = .ok g ∧ g.Is q'
    | none => f.run1 op = .throw := by
  obtain ⟨h1, _, h3⟩ := h.lowest_terms
  have hd : (f.den : Rat) ≠ 0 := by exact_mod_cast h1.ne'
  cases op with
  | mulInt n =>
    obtain ⟨g, hg, hi⟩ := Fraction.reduce_spec ⟨f.num * n, f.den⟩ h1.ne'
    refine ⟨g, hg, ?_⟩
    have : (((f.num * n : Int) : Rat)) / f.den = q * n := by
      rw [← h3]; push_cast; field_simp
    rw [← this]; exact hi
  | mulFrac a b =>
    simp only [FracOp.effect]
    split_ifs with hb
    · simp [Fraction.run1, (C15_make a b).1 hb]
    · obtain ⟨g, hg, hi⟩ := (C15_make a b).2 hb
      obtain ⟨g1, _, g3⟩ := hi.lowest_terms
      have hgd : (g.den : Rat) ≠ 0 := by exact_mod_cast g1.ne'
      obtain ⟨k, hk, hki⟩ := Fraction.reduce_spec ⟨f.num * g.num, f.den * g.den⟩
        (Int.mul_ne_zero h1.ne' g1.ne')
      refine ⟨k, by simp [Fraction.run1, hg, Fraction.mul, hk], ?_⟩
      have : (((f.num * g.num : Int) : Rat)) / ((f.den * g.den : Int) : Rat) = q * (a / b) := by
        rw [← h3, ← g3]; push_cast; field_simp
      rw [← this]; exact hki
  | divInt n =>
    simp only [FracOp.effect]
    split_ifs with hn
    · simp [Fraction.run1, Fraction.divInt, hn]
    · obtain ⟨g, hg, hi⟩ := Fraction.reduce_spec ⟨f.num, f.den * n⟩ (Int.mul_ne_zero h1.ne' hn)
      refine ⟨g, by simp [Fraction.run1, Fraction.divInt, hn, hg], ?_⟩
      have hn' : (n : Rat) ≠ 0 := by exact_mod_cast hn
      have : ((f.num : Int) : Rat) / ((f.den * n : Int) : Rat) = q / n := by
        rw [← h3]; push_cast; field_simp
      rw [← this]; exact hi

/-- **C15.** Any sequence of multiplications and divisions on a fraction yields the rational number
which these operations yield mathematically, in lowest terms with positive denominator; the sequence
is rejected exactly when it divides by zero. -/
theorem C15_operations (ops : List FracOp) (f : Fraction) (q : Rat) (h : f.Is q) :
    match ops.foldlM FracOp.effect q with
    | some q' => ∃ g, ops.foldlM Fraction.run1 f = .ok g ∧ g.Is q'
    | none => ops.foldlM Fraction.run1 f = .throw := by
  induction ops generalizing f q with
  | nil => exact ⟨f, rfl, h⟩
  | cons op ops ih =>
    have h1 := run1_spec h op
    rw [List.foldlM_cons, List.foldlM_cons]
    cases he : op.effect q with
    | none =>
      rw [he] at h1
      simp only at h1
      simp [h1]
    | some q' =>
      rw [he] at h1
      obtain ⟨g, hg, hi⟩ := h1
      simpa [hg] using ih g q' hi

/-- **C15.** Comparison of fractions is equality of the rationals. -/
theorem C15_equality (f g : Fraction) (q r : Rat) (hf : f.Is q) (hg : g.Is r) :
    f.beq g = true ↔ q = r := by
  simp only [Fraction.beq, Bool.and_eq_true, beq_iff_eq, hf.1, hf.2, hg.1, hg.2, Nat.cast_inj]
  exact ⟨fun h => Rat.ext h.1 h.2, fun h => by simp [h]⟩

/-- **C15.** Comparison with an integer is equality of the rational with the integer. -/
theorem C15_equality_int (f : Fraction) (q : Rat) (n : Int) (hf : f.Is q) :
    f.beqInt n = true ↔ q = n := by
  simp only [Fraction.beqInt, Bool.and_eq_true, beq_iff_eq, hf.1, hf.2]
  constructor
  · rintro ⟨h1, h2⟩
    exact Rat.ext (by simpa using h1) (by simpa using h2)
  · rintro rfl
    simp

/-- **C15.** Conversion to an integer rounds towards zero. -/
theorem C15_toInt (f : Fraction) (q : Rat) (hf : f.Is q) : f.toInt = truncRat q := by
  have h0 : (0 : Int) < q.den := by exact_mod_cast q.den_pos
  have hfl : ∀ q : Rat, ⌊q⌋ = q.num / q.den := fun q => Rat.floor_def q
  unfold Fraction.toInt truncRat
  rw [hf.1, hf.2]
  split_ifs with h
  · rw [hfl, Int.tdiv_eq_ediv_of_nonneg (Rat.num_nonneg.2 h)]
  · have hn : q.num < 0 := by
      rw [Rat.num_neg]; exact not_le.1 h
    have hc : ⌈q⌉ = -(⌊-q⌋) := by rw [Int.floor_neg]; ring
    rw [hc, hfl, Rat.num_neg_eq_neg_num, Rat.den_neg_eq_den, ← Int.tdiv_eq_ediv_of_nonneg (by omega),
      Int.neg_tdiv]
    ring

example : Fraction.make 6 (-4) = .ok ⟨-3, 2⟩ := by decide
example : [FracOp.mulInt 4, .divInt (-6), .mulFrac 3 9].foldlM Fraction.run1 ⟨-3, 2⟩ = .ok ⟨1, 3⟩ := by
  decide
example : (Fraction.mk (-3) 2).toInt = -1 := by decide

end Verif
