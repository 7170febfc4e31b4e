import Verif.Model.SizeInfo
import Mathlib.Tactic.Linarith
import Mathlib.Tactic.Ring
import Mathlib.Tactic.NormNum
import Mathlib.Tactic.SplitIfs
import Mathlib.Tactic.ByContra

set_option linter.unusedSectionVars false
set_option linter.unusedSimpArgs false
set_option linter.unusedVariables false

/-!
# C16: static size bounds
-/

namespace Verif

/-- Specification: a reported size is right for an array with `n` elements, when the arrays have the sizes
given by `len`: a fixed size is the size, a reference to another array refers to one with as many elements,
and the size is within the bounds. -/
structure SizeInfo.Describes (s : SizeInfo) (len : Nat → Nat) (n : Nat) : Prop where
  min : ∀ m ∈ s.min, m ≤ (n : Int)
  max : ∀ m ∈ s.max, (n : Int) ≤ m
  exact : s.multiplier = 0 → s.offset = n
  linked : s.multiplier ≠ 0 → s.multiplier = 1 ∧ s.offset = 0 ∧ ∃ a ∈ s.array, len a = n

namespace SizeInfo

theorem truncate_zero : truncate 0 = 0 := by decide

theorem truncate_int (k : Int) : truncate (k : Rat) = k := by
  simp only [truncate]; split_ifs <;> simp

theorem capMin_le {a b : Option Int} {n : Int} (ha : ∀ m ∈ a, m ≤ n) (hb : ∀ m ∈ b, m ≤ n) :
    ∀ m ∈ capMin a b, m ≤ n := by
  intro m hm
  cases a <;> cases b <;> simp [capMin] at hm ha hb
  · omega
  · omega
  · omega

theorem le_capMax {a b : Option Int} {n : Int} (ha : ∀ m ∈ a, n ≤ m) (hb : ∀ m ∈ b, n ≤ m) :
    ∀ m ∈ capMax a b, n ≤ m := by
  intro m hm
  cases a <;> cases b <;> simp [capMax] at hm ha hb
  · omega
  · omega
  · omega

/-- The invariant of substitution: it stays right, and still refers to an array that answers right. -/
def Sound (s : SizeInfo) (info : Nat → SizeInfo) (len : Nat → Nat) (good : Nat → Prop) (n : Nat) : Prop :=
  s.Describes len n ∧ (∃ a, s.array = some a ∧ good a) ∧
    (s.multiplier = 0 → s.min = some (n : Int) ∧ s.max = some (n : Int))

/-- Arrays that refer to arrays: a dynamic array refers, without scaling, to a dynamic array with as many
elements. -/
structure Chain (info : Nat → SizeInfo) (len : Nat → Nat) (good : Nat → Prop) : Prop where
  describes : ∀ a, good a → (info a).Describes len (len a)
  plain : ∀ a, good a → (info a).multiplier = 1
  closed : ∀ a, good a → ∃ b, (info a).array = some b ∧ good b

theorem sound_join {info : Nat → SizeInfo} {len : Nat → Nat} {good : Nat → Prop} (hC : Chain info len good)
    {s : SizeInfo} {n : Nat} (h : Sound s info len good n) {a : Nat} (ha : s.array = some a) :
    Sound (s.join (info a)) info len good n := by
  obtain ⟨hd, ⟨a', ha', hga⟩, hz⟩ := h
  obtain rfl : a' = a := by rw [ha'] at ha; simpa using ha
  have hda := hC.describes a' hga
  have hone := hC.plain a' hga
  obtain ⟨b, hb, hgb⟩ := hC.closed a' hga
  obtain ⟨-, hoff, c, hc, hlen⟩ := hda.linked (by rw [hone]; decide)
  obtain rfl : c = b := by rw [hb] at hc; simpa using hc.symm
  by_cases h0 : s.multiplier = 0
  · -- the size is already known
    obtain ⟨e1, e2⟩ := hz h0
    have ho := hd.exact h0
    have hsc : ∀ x, scale s.multiplier s.offset x = n := by
      intro x
      simp only [scale, h0, zero_mul, truncate_zero]
      rw [if_pos (by decide)]
      omega
    have m1 : (capMin s.min (info a').min).map (scale s.multiplier s.offset) = some (n : Int) := by
      rw [e1]
      cases (info a').min <;> simp [capMin, hsc]
    have m2 : (capMax s.max (info a').max).map (scale s.multiplier s.offset) = some (n : Int) := by
      rw [e2]
      cases (info a').max <;> simp [capMax, hsc]
    simp only [join, m1, m2]
    rw [if_pos ⟨by simp, trivial⟩]
    refine ⟨⟨?_, ?_, fun _ => rfl, fun h => absurd rfl h⟩, ⟨c, hb, hgb⟩, fun _ => ⟨rfl, rfl⟩⟩
    · intro m hm; simp at hm; omega
    · intro m hm; simp at hm; omega
  · obtain ⟨k1, k2, u, hu, hun⟩ := hd.linked h0
    obtain rfl : u = a' := by rw [ha'] at hu; simpa using hu.symm
    have hsc : ∀ x, scale s.multiplier s.offset x = Max.max 0 x := by
      intro x
      simp [scale, k1, k2]
    have hmin : ∀ m ∈ (capMin s.min (info u).min).map (scale s.multiplier s.offset), m ≤ (n : Int) := by
      intro m hm
      obtain ⟨x, hx, rfl⟩ := Option.map_eq_some_iff.1 hm
      rw [hsc]
      have := capMin_le hd.min (by rw [← hun]; exact hda.min) x hx
      omega
    have hmax : ∀ m ∈ (capMax s.max (info u).max).map (scale s.multiplier s.offset), (n : Int) ≤ m := by
      intro m hm
      obtain ⟨x, hx, rfl⟩ := Option.map_eq_some_iff.1 hm
      rw [hsc]
      have := le_capMax hd.max (by rw [← hun]; exact hda.max) x hx
      omega
    simp only [join]
    split_ifs with hc
    · obtain ⟨c1, c2⟩ := hc
      obtain ⟨v, hv⟩ := Option.ne_none_iff_exists'.1 c1
      have e1 := hmin v hv
      have e2 := hmax v (by rw [← c2]; exact hv)
      have e : v = n := le_antisymm e1 e2
      refine ⟨⟨hmin, hmax, fun _ => ?_, fun h => absurd rfl h⟩, ⟨c, hb, hgb⟩, fun _ => ⟨?_, ?_⟩⟩
      · simp only [hv]; exact e
      · simp only [hv, e]
      · simp only [← c2, hv, e]
    · refine ⟨⟨hmin, hmax, fun h => ?_, fun _ => ?_⟩, ⟨c, hb, hgb⟩, fun h => ?_⟩
      · simp [hone, k1] at h
      · refine ⟨by simp [hone, k1], ?_, c, hb, by omega⟩
        simp [hoff, k1, k2, truncate_zero]
      · simp [hone, k1] at h

theorem sound_substitute {info : Nat → SizeInfo} {len : Nat → Nat} {good : Nat → Prop} (hC : Chain info len good)
    (depth : Nat) {s : SizeInfo} {n : Nat} (h : Sound s info len good n) :
    ∃ t, s.substitute info depth = .ok t ∧ Sound t info len good n := by
  induction depth generalizing s with
  | zero => exact ⟨s, rfl, h⟩
  | succ depth ih =>
    obtain ⟨a, ha, hga⟩ := h.2.1
    unfold substitute
    simp only [ha]
    split_ifs with hc
    · exact ⟨s, rfl, h⟩
    · have hoff : (info a).offset = 0 :=
        ((hC.describes a hga).linked (by rw [hC.plain a hga]; decide)).2.1
      have : (s.multiplier * ((info a).offset : Rat)).den = 1 := by rw [hoff]; simp
      rw [guardUB_true this, Res.ok_bind]
      exact ih (sound_join hC h ha)

end SizeInfo

/-- C16 for symbols that do not slice: if every array's own report is right, and dynamic arrays refer to dynamic
arrays without scaling or shifting, then following the chain of arrays to any depth never fails and the bounds
found contain the actual size.  Missing: slices, see `C16_slice_substitute_fails`. -/
theorem C16_substitute_partial {info : Nat → SizeInfo} {len : Nat → Nat} {good : Nat → Prop}
    (hC : SizeInfo.Chain info len good) {a : Nat} (ha : good a) (depth : Nat) :
    ∃ t, (info a).substitute info depth = .ok t ∧ (∀ m ∈ t.min, m ≤ (len a : Int)) ∧
      ∀ m ∈ t.max, (len a : Int) ≤ m := by
  obtain ⟨t, e, h⟩ := SizeInfo.sound_substitute hC depth (s := info a) (n := len a)
    ⟨hC.describes a ha, hC.closed a ha, fun h => by rw [hC.plain a ha] at h; exact absurd h (by decide)⟩
  exact ⟨t, e, h.1.min, h.1.max⟩

/-- A binary symbol of a set of four to eight items: the bounds are found after one step. -/
example : (SizeInfo.of 1 none none).substitute
      (fun a => if a = 1 then .of 0 none none else .of 0 (some 4) (some 8)) 100 =
    .ok ⟨some 0, 1, 0, some 4, some 8⟩ := by
  decide +kernel

/-! ### Slices -/

/-- The number of items of a slice of an array of `n` items. -/
def sliceLen (s : Slice) (n : Int) : Int :=
  match (s.fit n).size with
  | .ok k => k
  | _ => 0

/-- C16 fails for slices when the chain is followed (as `sum` and indexing do).  With a set `x` of four to ten
items out of ten: `x[1:5]` is reported to have exactly three items, but it has four when `x` has ten;
`x[:5]`, for a set of seven to ten items, at least seven, but it has five. -/
theorem C16_slice_substitute_fails :
    (∃ s t, SizeInfo.ofSlice 0 1 1 ⟨1, 5, 1⟩ = .ok s ∧
      s.substitute (fun _ => .of 0 (some 4) (some 10)) 100 = .ok t ∧ t.max = some 3 ∧ t.min = some 3 ∧
      sliceLen ⟨1, 5, 1⟩ 10 = 4) ∧
    (∃ s t, SizeInfo.ofSlice 0 1 1 ⟨0, 5, 1⟩ = .ok s ∧
      s.substitute (fun _ => .of 0 (some 7) (some 10)) 100 = .ok t ∧ t.min = some 7 ∧
      sliceLen ⟨0, 5, 1⟩ 7 = 5) := by
  refine ⟨⟨⟨some 0, 1, -1, none, some 5⟩, ⟨some 0, 0, 3, some 3, some 3⟩, ?_⟩,
    ⟨some 0, 1, 0, none, some 5⟩, ⟨some 0, 1, 0, some 7, some 5⟩, ?_⟩ <;> decide +kernel

/-- `x[::2]` of a set of four to eight items is reported to have exactly two items; of eight items it has
four. -/
theorem C16_step_substitute_fails :
    ∃ s t, SizeInfo.ofSlice 0 1 1 ⟨0, ssMax, 2⟩ = .ok s ∧
      s.substitute (fun _ => .of 0 (some 4) (some 8)) 100 = .ok t ∧ t.max = some 2 ∧
      sliceLen ⟨0, ssMax, 2⟩ 8 = 4 := by
  refine ⟨⟨some 0, 1 / 2, 0, none, none⟩, ⟨some 0, 0, 2, some 2, some 2⟩, ?_⟩
  decide +kernel

/-- Even without following the chain, `x[:5:2]` is reported to have at most two items; of a set of five
items it has three. -/
theorem C16_step_fails :
    ∃ s, SizeInfo.ofSlice 0 1 1 ⟨0, 5, 2⟩ = .ok s ∧ s.max = some 2 ∧ sliceLen ⟨0, 5, 2⟩ 5 = 3 := by
  refine ⟨⟨some 0, 1 / 2, 0, none, some 2⟩, ?_⟩
  decide +kernel

/-- A step that does not divide the start breaks an assertion (indexing.cpp 1555): `x[1::2]`. -/
theorem C16_start_step_fails : SizeInfo.ofSlice 0 1 1 ⟨1, ssMax, 2⟩ = .ub := by
  decide +kernel

/-- Without following the chain, the bounds reported for a slice of a one-dimensional array by step one are
right. -/
theorem C16_slice_partial (s : Slice) (hs : s.step = 1) (hst : IsSS s.start) (hsp : IsSS s.stop) {a : Nat} {i : SizeInfo}
    (hi : SizeInfo.ofSlice a 1 1 s = .ok i) {n : Nat} (hn : (n : Int) ≤ ssMax) :
    ∃ k : Int, (s.fit n).size = .ok k ∧ 0 ≤ k ∧ i.min = none ∧ ∀ m ∈ i.max, k ≤ m := by
  simp only [SizeInfo.ofSlice, hs] at hi
  obtain ⟨_, _, hi⟩ := Res.bind_eq_ok.1 hi
  obtain ⟨_, _, hi⟩ := Res.bind_eq_ok.1 hi
  obtain ⟨q1, q2⟩ := hst
  obtain ⟨q3, q4⟩ := hsp
  have hm : ((1 : Rat) / ((1 : Int) : Rat) * ((1 : Int) : Rat) / ((1 : Int) : Rat)) = 1 := by norm_num
  rw [hm] at hi
  have t1 : truncate ((1 : Rat) * (s.stop : Rat)) = s.stop := by rw [one_mul]; exact SizeInfo.truncate_int _
  have t2 : truncate ((1 : Rat) * -1 * (s.start : Rat)) = -s.start := by
    have : (1 : Rat) * -1 * (s.start : Rat) = ((-s.start : Int) : Rat) := by push_cast; ring
    rw [this]; exact SizeInfo.truncate_int _
  rw [t1, t2] at hi
  cases hi
  have key : ∃ k : Int, (s.fit n).size = .ok k ∧ 0 ≤ k ∧ (0 < s.stop → k ≤ s.stop) ∧
      (s.start < 0 → k ≤ -s.start) := by
    obtain ⟨st, sp, sv⟩ := s
    simp only at hs q1 q2 q3 q4
    subst hs
    have hfit : ∃ b e : Int, (Slice.mk st sp 1).fit n = ⟨b, e, 1⟩ ∧ 0 ≤ b ∧ b ≤ n ∧ 0 ≤ e ∧ e ≤ n ∧
        (0 < sp → e ≤ sp) ∧ (st < 0 → (n : Int) ≤ b - st) := by
      refine ⟨((Slice.mk st sp 1).fit n).start, ((Slice.mk st sp 1).fit n).stop, rfl, ?_⟩
      simp only [Slice.fit]
      split_ifs <;> omega
    obtain ⟨b, e, hf, b0, b1, e0, e1, e2, b2⟩ := hfit
    rw [hf]
    simp only [ssMax] at hn
    simp only [Slice.size]
    rw [if_neg (by decide)]
    by_cases hbe : b < e
    · rw [if_pos hbe, if_pos (by omega)]
      have : ((e - b - 1) % 2 ^ 64 / 1 + 1) % 2 ^ 64 = e - b := by
        rw [Int.ediv_one, Int.emod_eq_of_lt (by omega) (by omega), Int.emod_eq_of_lt (by omega) (by omega)]
        omega
      refine ⟨_, rfl, ?_⟩
      rw [this]
      refine ⟨by omega, fun h => ?_, fun h => ?_⟩
      · have := e2 h; omega
      · have := b2 h; omega
    · rw [if_neg hbe]
      exact ⟨0, rfl, le_rfl, fun h => h.le, fun h => by omega⟩
  obtain ⟨k, hk, k0, k1, k2⟩ := key
  refine ⟨k, hk, k0, rfl, ?_⟩
  intro m hm'
  simp only at hm'
  split_ifs at hm' with c1 c2
  · cases hm'; exact k1 c1.1
  · cases hm'; exact k2 c2
  · cases hm'

/-- `x[-3:]` has at most three items, `x[1:5]` at most five. -/
example : SizeInfo.ofSlice 0 1 1 ⟨-3, ssMax, 1⟩ = .ok ⟨some 0, 1, 0, none, some 3⟩ ∧
    SizeInfo.ofSlice 0 1 1 ⟨1, 5, 1⟩ = .ok ⟨some 0, 1, -1, none, some 5⟩ := by
  decide +kernel

end Verif
