import Verif.Spec.Slice
import Verif.Model.Slice
import Mathlib.Tactic.Linarith
import Mathlib.Data.Int.Init

/-!
# C10: slices
-/

namespace Verif

open Slice

/-- **C10, fitting.** For every start and stop (absent or any `ssize_t`), every non-zero step and
every size, fitting gives exactly Python's `slice.indices`. -/
theorem C10_fit_python (start stop step : Option Int) (n : Int)
    (hn : 0 ≤ n) (hn' : n ≤ ssMax) (hstep : step.getD 1 ≠ 0) :
    ∃ s, Slice.make start stop step = .ok s ∧
      (let f := s.fit n; (f.start, f.stop, f.step)) = pyIndices start stop (step.getD 1) n := by
  unfold Slice.make
  simp only [hstep, if_false]
  refine ⟨_, rfl, ?_⟩
  generalize step.getD 1 = st at *
  simp only [ssMax] at hn'
  unfold Slice.fit pyIndices ssMax ssMin
  cases start <;> cases stop <;> simp only [Option.getD_none, Option.getD_some, Prod.mk.injEq] <;>
    (refine ⟨?_, ?_, trivial⟩ <;> (repeat' split) <;> omega)

/-- A zero step is rejected; so is fitting to a negative size. -/
theorem C10_zero_step (start stop : Option Int) : Slice.make start stop (some 0) = .throw := rfl

theorem C10_negative_size (s : Slice) (n : Int) (h : n < 0) : s.fitAt n = .throw := by
  unfold Slice.fitAt guardThrow; rw [if_neg (by omega)]; rfl

example : ∃ s, Slice.make (some (-3)) none (some (-2)) = .ok s ∧ s.fit 7 = ⟨4, -1, -2⟩ :=
  ⟨⟨-3, ssMin, -2⟩, by decide, by decide⟩

/-- Counting lemma. -/
theorem lt_div_add_one {d c : Int} (hc : 0 < c) (m : Nat) :
    (m : Int) < (d - 1) / c + 1 ↔ (m : Int) * c < d := by
  rw [Int.lt_add_one_iff, Int.le_ediv_iff_mul_le hc]
  omega

/-- **C10, length.** Whenever `size()` is defined, it is the number of elements of
`range(start, stop, step)`: the `m`-th element exists exactly when it is still before the stop. -/
theorem C10_size_counts (s : Slice) (hstep : s.step ≠ 0) (h1 : IsSS s.start) (h2 : IsSS s.stop)
    (h3 : IsSS s.step) {k : Int} (hk : s.size = .ok k) (m : Nat) :
    (m : Int) < k ↔ ∀ j : Nat, j ≤ m → beforeStop s.stop s.step (s.start + j * s.step) := by
  have hmono : (∀ j : Nat, j ≤ m → beforeStop s.stop s.step (s.start + j * s.step)) ↔
      beforeStop s.stop s.step (s.start + m * s.step) ∧ beforeStop s.stop s.step s.start := by
    constructor
    · intro h
      exact ⟨h m (Nat.le_refl m), by simpa using h 0 (Nat.zero_le m)⟩
    · rintro ⟨h, h0⟩ j hj
      obtain ⟨ha, hb⟩ := h
      refine ⟨fun hs => ?_, fun hs => ?_⟩
      · have : (j : Int) * s.step ≤ m * s.step := Int.mul_le_mul_of_nonneg_right (by omega) (by omega)
        have := ha hs; omega
      · have : (m : Int) * s.step ≤ j * s.step := Int.mul_le_mul_of_nonpos_right (by omega) (by omega)
        have := hb hs; omega
  rw [hmono]
  simp only [IsSS, ssMin, ssMax] at h1 h2 h3
  have hm0 : (0 : Int) ≤ m := Int.natCast_nonneg m
  unfold Slice.size guardUB at hk
  unfold beforeStop
  by_cases hneg : s.step < 0
  · rw [if_pos hneg] at hk
    have hpos : 0 < -s.step := by omega
    have hq : ∀ d : Int, 0 ≤ d - 1 → (d - 1) / (-s.step) ≤ d - 1 ∧ 0 ≤ (d - 1) / (-s.step) := by
      intro d hd
      exact ⟨Int.ediv_le_self _ hd, Int.ediv_nonneg hd (by omega)⟩
    have hmul : (m : Int) * (-s.step) = - ((m : Int) * s.step) := Int.mul_neg _ _
    have hmn : (m : Int) * s.step ≤ 0 := Int.mul_nonpos_of_nonneg_of_nonpos hm0 (by omega)
    by_cases hss : s.stop < s.start
    · rw [if_pos hss] at hk
      have key := lt_div_add_one (d := s.start - s.stop) hpos m
      have hq' := hq (s.start - s.stop) (by omega)
      have hkk : k = (s.start - s.stop - 1) / (-s.step) + 1 := by
        by_cases h0 : s.start > 0
        · rw [if_pos h0] at hk
          split at hk
          · simp only [Res.ok_bind, Res.pure_eq, Res.ok.injEq] at hk
            rw [← hk, Int.emod_eq_of_lt (a := s.start - s.stop - 1) (by omega) (by omega),
              Int.emod_eq_of_lt (by omega) (by omega)]
          · simp at hk
        · rw [if_neg h0] at hk
          split at hk
          · split at hk
            · simp only [Res.ok_bind, Res.pure_eq, Res.ok.injEq] at hk
              exact hk.symm
            · simp at hk
          · simp at hk
      rw [hkk, key, hmul]
      constructor
      · intro h; exact ⟨⟨fun h' => by omega, fun _ => by omega⟩, ⟨fun h' => by omega, fun _ => by omega⟩⟩
      · rintro ⟨⟨-, h⟩, -⟩; have := h hneg; omega
    · rw [if_neg hss] at hk
      simp only [Res.pure_eq, Res.ok.injEq] at hk
      subst hk
      constructor
      · intro h; omega
      · rintro ⟨-, -, h⟩; have := h hneg; omega
  · rw [if_neg hneg] at hk
    have hpos : 0 < s.step := by omega
    have hq : ∀ d : Int, 0 ≤ d - 1 → (d - 1) / s.step ≤ d - 1 ∧ 0 ≤ (d - 1) / s.step := by
      intro d hd
      exact ⟨Int.ediv_le_self _ hd, Int.ediv_nonneg hd (by omega)⟩
    have hmn : 0 ≤ (m : Int) * s.step := Int.mul_nonneg hm0 (by omega)
    by_cases hss : s.start < s.stop
    · rw [if_pos hss] at hk
      have key := lt_div_add_one (d := s.stop - s.start) hpos m
      have hq' := hq (s.stop - s.start) (by omega)
      have hkk : k = (s.stop - s.start - 1) / s.step + 1 := by
        by_cases h0 : s.stop > 0
        · rw [if_pos h0] at hk
          simp only [Res.pure_eq, Res.ok.injEq] at hk
          rw [← hk, Int.emod_eq_of_lt (a := s.stop - s.start - 1) (by omega) (by omega),
            Int.emod_eq_of_lt (by omega) (by omega)]
        · rw [if_neg h0] at hk
          split at hk
          · simp only [Res.ok_bind, Res.pure_eq, Res.ok.injEq] at hk
            exact hk.symm
          · simp at hk
      rw [hkk, key]
      constructor
      · intro h; exact ⟨⟨fun _ => by omega, fun _ => by omega⟩, ⟨fun _ => by omega, fun _ => by omega⟩⟩
      · rintro ⟨⟨h, -⟩, -⟩; have := h hpos; omega
    · rw [if_neg hss] at hk
      simp only [Res.pure_eq, Res.ok.injEq] at hk
      subst hk
      constructor
      · intro h; omega
      · rintro ⟨-, h, -⟩; have := h hpos; omega

/-- **C10, fitted slices always have a size**, between 0 and the size of the dimension, and all
their elements are valid indices.  (The smallest `ssize_t` as a step is excluded: negating it
overflows.) -/
theorem C10_fitted_size (s : Slice) (n : Int) (hn : 0 ≤ n) (hn' : n ≤ ssMax) (hstep : s.step ≠ 0)
    (h1 : IsSS s.start) (h2 : IsSS s.stop) (h3 : IsSS s.step) (h4 : s.step ≠ ssMin) :
    ∃ k, (s.fit n).size = .ok k ∧ 0 ≤ k ∧ k ≤ n ∧
      ∀ m : Nat, (m : Int) < k →
        0 ≤ (s.fit n).start + m * (s.fit n).step ∧ (s.fit n).start + m * (s.fit n).step < n := by
  simp only [IsSS, ssMin, ssMax] at h1 h2 h3 h4 hn'
  have hst : (s.fit n).step = s.step := rfl
  have hb : -1 ≤ (s.fit n).start ∧ (s.fit n).start ≤ n ∧ -1 ≤ (s.fit n).stop ∧ (s.fit n).stop ≤ n ∧
      (s.step < 0 → (s.fit n).start < n) ∧ (0 < s.step → 0 ≤ (s.fit n).start) := by
    unfold Slice.fit
    simp only
    refine ⟨?_, ?_, ?_, ?_, ?_, ?_⟩ <;> (repeat' split) <;> omega
  have hex : ∃ k, (s.fit n).size = .ok k := by
    unfold Slice.size guardUB
    rw [hst]
    by_cases hneg : s.step < 0
    · simp only [hneg, if_true]
      split
      · split
        · rw [if_pos (by simp only [IsSS, ssMin, ssMax]; omega)]; exact ⟨_, rfl⟩
        · rw [if_pos (by simp only [IsSS, ssMin, ssMax]; omega), if_pos (by simp only [IsSS, ssMin, ssMax]; omega)]; exact ⟨_, rfl⟩
      · exact ⟨_, rfl⟩
    · simp only [hneg, if_false]
      split
      · split
        · exact ⟨_, rfl⟩
        · rw [if_pos (by simp only [IsSS, ssMin, ssMax]; omega)]; exact ⟨_, rfl⟩
      · exact ⟨_, rfl⟩
  obtain ⟨k, hk⟩ := hex
  have hcount := C10_size_counts (s.fit n) hstep
    (by simp only [IsSS, ssMin, ssMax]; omega) (by simp only [IsSS, ssMin, ssMax]; omega)
    (by simp only [IsSS, ssMin, ssMax]; omega) hk
  have hin : ∀ m : Nat, (m : Int) < k →
      0 ≤ (s.fit n).start + m * (s.fit n).step ∧ (s.fit n).start + m * (s.fit n).step < n := by
    intro m hm
    have h := (hcount m).1 hm
    obtain ⟨ha, hb'⟩ := h m (Nat.le_refl m)
    rw [hst] at *
    rcases Int.lt_or_gt_of_ne hstep with hs | hs
    · have h0 : (m : Int) * s.step ≤ 0 :=
        Int.mul_nonpos_of_nonneg_of_nonpos (Int.natCast_nonneg m) (by omega)
      have := hb' hs
      have := hb.2.2.2.2.1 hs
      omega
    · have h0 : 0 ≤ (m : Int) * s.step := Int.mul_nonneg (Int.natCast_nonneg m) (by omega)
      have := ha hs
      have := hb.2.2.2.2.2 hs
      omega
  refine ⟨k, hk, ?_, ?_, hin⟩
  · unfold Slice.size guardUB at hk
    rw [hst] at hk
    have hd1 : ∀ a : Int, s.step < 0 → 0 ≤ a → 0 ≤ a / (-s.step) := fun a h1 h2 => Int.ediv_nonneg h2 (by omega)
    have hd2 : ∀ a : Int, 0 ≤ s.step → 0 ≤ a → 0 ≤ a / s.step := fun a h1 h2 => Int.ediv_nonneg h2 (by omega)
    by_cases hneg : s.step < 0
    · simp only [hneg, if_true] at hk
      split at hk
      · split at hk
        · split at hk
          · simp at hk; rw [← hk]; exact Int.emod_nonneg _ (by omega)
          · simp at hk
        · split at hk
          · split at hk
            · simp at hk
              have := hd1 ((s.fit n).start - (s.fit n).stop - 1) hneg (by omega)
              rw [Int.ediv_neg] at this
              omega
            · simp at hk
          · simp at hk
      · simp at hk; omega
    · simp only [hneg, if_false] at hk
      split at hk
      · split at hk
        · simp at hk; rw [← hk]; exact Int.emod_nonneg _ (by omega)
        · split at hk
          · simp at hk
            have := hd2 ((s.fit n).stop - (s.fit n).start - 1) (by omega) (by omega)
            omega
          · simp at hk
      · simp at hk; omega
  · by_contra hgt
    have hlt : ((n.toNat : Nat) : Int) < k := by omega
    have := hin n.toNat hlt
    rw [hst] at this
    have hnn : ((n.toNat : Nat) : Int) = n := Int.toNat_of_nonneg hn
    rw [hnn] at this
    rcases Int.lt_or_gt_of_ne hstep with hs | hs
    · have h0 : n * s.step ≤ n * (-1) := Int.mul_le_mul_of_nonneg_left (by omega) hn
      have := hb.2.2.2.2.1 hs
      omega
    · have h0 : n * 1 ≤ n * s.step := Int.mul_le_mul_of_nonneg_left (by omega) hn
      have := hb.2.2.2.2.2 hs
      omega

example : (Slice.fit ⟨1, ssMax, 3⟩ 8).size = .ok 3 := by decide

/-- **Disagreement found**: `size()` of the slice `0::-1` (legal in Python, one element) before
fitting computes `0 - MIN`, a signed overflow. -/
theorem C10_unfitted_size_fails :
    ∃ s, Slice.make (some 0) none (some (-1)) = .ok s ∧ s.size = .ub ∧
      (s.fit 5).size = .ok 1 := ⟨⟨0, ssMin, -1⟩, by decide, by decide, by decide⟩

end Verif
