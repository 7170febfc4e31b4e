import Verif.Model.Bounds
import Verif.Props.Bounds
import Mathlib.Tactic.Ring
import Mathlib.Tactic.Linarith
import Mathlib.Tactic.SplitIfs
import Mathlib.Tactic.ByContra

set_option linter.unusedSectionVars false
set_option linter.unusedSimpArgs false
set_option linter.unusedVariables false

/-!
# C36: declared value ranges of reductions
-/

namespace Verif

/-! ## Products -/

/-- The number is between two others, in either order. -/
def Betw (a b x : Rat) : Prop := (a ≤ x ∧ x ≤ b) ∨ (b ≤ x ∧ x ≤ a)

theorem Betw.mul_left {a b x : Rat} (c : Rat) (h : Betw a b x) : Betw (c * a) (c * b) (c * x) := by
  rcases le_total 0 c with hc | hc
  · rcases h with ⟨h1, h2⟩ | ⟨h1, h2⟩
    · exact .inl ⟨mul_le_mul_of_nonneg_left h1 hc, mul_le_mul_of_nonneg_left h2 hc⟩
    · exact .inr ⟨mul_le_mul_of_nonneg_left h1 hc, mul_le_mul_of_nonneg_left h2 hc⟩
  · rcases h with ⟨h1, h2⟩ | ⟨h1, h2⟩
    · exact .inr ⟨mul_le_mul_of_nonpos_left h2 hc, mul_le_mul_of_nonpos_left h1 hc⟩
    · exact .inl ⟨mul_le_mul_of_nonpos_left h2 hc, mul_le_mul_of_nonpos_left h1 hc⟩

theorem Betw.hull {a b c d x : Rat} (h : Betw a b x) (ha : Betw c d a) (hb : Betw c d b) : Betw c d x := by
  rcases h with ⟨h1, h2⟩ | ⟨h1, h2⟩ <;> rcases ha with ⟨a1, a2⟩ | ⟨a1, a2⟩ <;>
    rcases hb with ⟨b1, b2⟩ | ⟨b1, b2⟩ <;>
    first
    | exact .inl ⟨by linarith, by linarith⟩
    | exact .inr ⟨by linarith, by linarith⟩

theorem Betw.left (a b : Rat) : Betw a b a := by
  rcases le_total a b with h | h
  · exact .inl ⟨le_rfl, h⟩
  · exact .inr ⟨h, le_rfl⟩

theorem Betw.right (a b : Rat) : Betw a b b := by
  rcases le_total a b with h | h
  · exact .inl ⟨h, le_rfl⟩
  · exact .inr ⟨le_rfl, h⟩

theorem Betw.le {a b x m M : Rat} (h : Betw a b x) (h1 : m ≤ a) (h2 : m ≤ b) (h3 : a ≤ M) (h4 : b ≤ M) :
    m ≤ x ∧ x ≤ M := by
  rcases h with ⟨a, b⟩ | ⟨a, b⟩ <;> constructor <;> linarith

/-- If `v ^ 2` is between `u * v` and `u ^ 2` then a product of numbers between `u` and `v` is between
`u ^ n` and `u ^ (n - 1) * v`. -/
theorem prod_betw_mixed {u v : Rat} (h : Betw (u * u) (u * v) (v * v)) (x : Rat) (xs : List Rat)
    (hx : Betw u v x) (hxs : ∀ y ∈ xs, Betw u v y) :
    Betw (u ^ (xs.length + 1)) (u ^ xs.length * v) (x * xs.prod) := by
  induction xs generalizing x with
  | nil => simpa using hx
  | cons y ys ih =>
    have hp := ih y (hxs y (by simp)) fun z hz => hxs z (by simp [hz])
    rw [List.prod_cons, List.length_cons]
    have e1 := (hx.mul_left (y * ys.prod))
    rw [mul_comm x]
    refine e1.hull ?_ ?_
    · have := hp.mul_left u
      rw [mul_comm _ u]
      refine this.hull ?_ ?_
      · rw [← pow_succ']; exact Betw.left _ _
      · rw [← mul_assoc, ← pow_succ']; exact Betw.right _ _
    · have := hp.mul_left v
      rw [mul_comm (y * ys.prod) v]
      refine this.hull ?_ ?_
      · rw [mul_comm]; exact Betw.right _ _
      · have := h.mul_left (u ^ ys.length)
        have k1 : u ^ ys.length * (u * u) = u ^ (ys.length + 1 + 1) := by ring
        have k2 : u ^ ys.length * (u * v) = u ^ (ys.length + 1) * v := by ring
        have k3 : u ^ ys.length * (v * v) = v * (u ^ ys.length * v) := by ring
        rwa [k1, k2, k3] at this

theorem prod_between_nonneg {l h : Rat} (h0 : 0 ≤ l) (xs : List Rat) (hxs : ∀ y ∈ xs, l ≤ y ∧ y ≤ h) :
    l ^ xs.length ≤ xs.prod ∧ xs.prod ≤ h ^ xs.length := by
  induction xs with
  | nil => simp
  | cons x xs ih =>
    obtain ⟨i1, i2⟩ := ih fun y hy => hxs y (by simp [hy])
    obtain ⟨k1, k2⟩ := hxs x (by simp)
    have hp : 0 ≤ l ^ xs.length := pow_nonneg h0 _
    rw [List.prod_cons, List.length_cons, pow_succ', pow_succ']
    exact ⟨mul_le_mul k1 i1 hp (le_trans h0 k1),
      mul_le_mul k2 i2 (le_trans hp i1) (le_trans h0 (le_trans k1 k2))⟩

theorem prod_neg_map (xs : List Rat) : xs.prod = (-1) ^ xs.length * (xs.map Neg.neg).prod := by
  induction xs with
  | nil => simp
  | cons x xs ih =>
    rw [List.prod_cons, List.map_cons, List.prod_cons, List.length_cons, ih]; ring

/-- A product of at least one number is between two of the four candidates. -/
theorem prod_betw {r : Range} (x : Rat) (xs : List Rat) (hx : r.Has x) (hxs : ∀ y ∈ xs, r.Has y) {a b : Rat}
    (ha : a ≤ r.lo ^ (xs.length + 1) ∧ r.lo ^ (xs.length + 1) ≤ b)
    (hb : a ≤ r.hi ^ (xs.length + 1) ∧ r.hi ^ (xs.length + 1) ≤ b)
    (hc : a ≤ r.lo * r.hi ^ xs.length ∧ r.lo * r.hi ^ xs.length ≤ b)
    (hd : a ≤ r.hi * r.lo ^ xs.length ∧ r.hi * r.lo ^ xs.length ≤ b) :
    a ≤ (x :: xs).prod ∧ (x :: xs).prod ≤ b := by
  have hall : ∀ y ∈ x :: xs, r.Has y := by
    intro y hy
    rcases List.mem_cons.1 hy with rfl | hy
    · exact hx
    · exact hxs y hy
  have hlr : r.lo ≤ r.hi := le_trans hx.1 hx.2
  rcases le_or_gt 0 r.lo with h0 | h0
  · obtain ⟨k1, k2⟩ := prod_between_nonneg h0 (x :: xs) hall
    rw [List.length_cons] at k1 k2
    exact ⟨le_trans ha.1 k1, le_trans k2 hb.2⟩
  rcases le_or_gt r.hi 0 with h1 | h1
  · obtain ⟨k1, k2⟩ := prod_between_nonneg (l := -r.hi) (h := -r.lo) (by linarith) ((x :: xs).map Neg.neg) (by
      intro y hy
      obtain ⟨z, hz, rfl⟩ := List.mem_map.1 hy
      obtain ⟨z1, z2⟩ := hall z hz
      exact ⟨neg_le_neg z2, neg_le_neg z1⟩)
    have hm := (Betw.mul_left ((-1) ^ (x :: xs).length) (Or.inl ⟨k1, k2⟩))
    rw [← prod_neg_map, List.length_map, ← mul_pow, ← mul_pow, List.length_cons] at hm
    simp only [neg_mul_neg, one_mul] at hm
    exact hm.le hb.1 ha.1 hb.2 ha.2
  · have hneg : r.lo * r.hi ≤ 0 := mul_nonpos_of_nonpos_of_nonneg h0.le h1.le
    rcases le_total (-r.lo) r.hi with c | c
    · have hsq : Betw (r.hi * r.hi) (r.hi * r.lo) (r.lo * r.lo) := by
        refine .inr ⟨by nlinarith, ?_⟩
        nlinarith
      have := prod_betw_mixed hsq x xs (.inr hx) fun y hy => .inr (hxs y hy)
      rw [List.prod_cons]
      refine this.le hb.1 ?_ hb.2 ?_ <;> rw [mul_comm]
      · exact hc.1
      · exact hc.2
    · have hsq : Betw (r.lo * r.lo) (r.lo * r.hi) (r.hi * r.hi) := by
        refine .inr ⟨by nlinarith, ?_⟩
        nlinarith
      have := prod_betw_mixed hsq x xs (.inl hx) fun y hy => .inl (hxs y hy)
      rw [List.prod_cons]
      refine this.le ha.1 ?_ ha.2 ?_ <;> rw [mul_comm]
      · exact hd.1
      · exact hd.2

/-- The same with an initial value. -/
theorem init_prod_betw {r : Range} (init x : Rat) (xs : List Rat) (hx : r.Has x) (hxs : ∀ y ∈ xs, r.Has y)
    {m M : Rat}
    (ha : m ≤ init * r.lo ^ (xs.length + 1) ∧ init * r.lo ^ (xs.length + 1) ≤ M)
    (hb : m ≤ init * r.hi ^ (xs.length + 1) ∧ init * r.hi ^ (xs.length + 1) ≤ M)
    (hc : m ≤ init * r.lo * r.hi ^ xs.length ∧ init * r.lo * r.hi ^ xs.length ≤ M)
    (hd : m ≤ init * r.hi * r.lo ^ xs.length ∧ init * r.hi * r.lo ^ xs.length ≤ M) :
    m ≤ init * (x :: xs).prod ∧ init * (x :: xs).prod ≤ M := by
  rw [mul_assoc] at hc hd
  rcases lt_trichotomy init 0 with hi | rfl | hi
  · have conv : ∀ {t}, (m ≤ init * t ∧ init * t ≤ M) → (M / init ≤ t ∧ t ≤ m / init) := fun {t} h =>
      ⟨(div_le_iff_of_neg hi).2 (by rw [mul_comm]; exact h.2),
        (le_div_iff_of_neg hi).2 (by rw [mul_comm]; exact h.1)⟩
    obtain ⟨k1, k2⟩ := prod_betw x xs hx hxs (conv ha) (conv hb) (conv hc) (conv hd)
    have e1 := (div_le_iff_of_neg hi).1 k1
    have e2 := (le_div_iff_of_neg hi).1 k2
    exact ⟨by rw [mul_comm]; exact e2, by rw [mul_comm]; exact e1⟩
  · simpa using ha
  · have conv : ∀ {t}, (m ≤ init * t ∧ init * t ≤ M) → (m / init ≤ t ∧ t ≤ M / init) := fun {t} h =>
      ⟨(div_le_iff₀ hi).2 (by rw [mul_comm]; exact h.1), (le_div_iff₀ hi).2 (by rw [mul_comm]; exact h.2)⟩
    obtain ⟨k1, k2⟩ := prod_betw x xs hx hxs (conv ha) (conv hb) (conv hc) (conv hd)
    have e1 := (div_le_iff₀ hi).1 k1
    have e2 := (le_div_iff₀ hi).1 k2
    exact ⟨by rw [mul_comm]; exact e1, by rw [mul_comm]; exact e2⟩

/-! ## Sums -/

theorem sum_between {r : Range} (xs : List Rat) (hxs : ∀ y ∈ xs, r.Has y) :
    (xs.length : Rat) * r.lo ≤ xs.sum ∧ xs.sum ≤ (xs.length : Rat) * r.hi := by
  induction xs with
  | nil => simp
  | cons x xs ih =>
    obtain ⟨i1, i2⟩ := ih fun y hy => hxs y (by simp [hy])
    obtain ⟨k1, k2⟩ := hxs x (by simp)
    rw [List.sum_cons, List.length_cons]
    push_cast
    constructor <;> linarith

/-- The value of a reduction. -/
def reduceValue : ReduceOp → Rat → List Rat → Rat
  | .all => allValue
  | .any => anyValue
  | .sum => fun init xs => init + xs.sum
  | .prod => fun init xs => init * xs.prod

/-- C36: if the elements are in the declared range, the number of elements is as known, and the result
does not overflow, then the result is in the declared range. -/
theorem C36_reduce {op : ReduceOp} {init : Rat} {size : SizeKnown} {r : Range} {xs : List Rat}
    (hs : size.Has xs.length) (hxs : ∀ x ∈ xs, r.Has x) (hf : Finite (reduceValue op init xs)) :
    (Range.mk (op.min init size r) (op.max init size r)).Has (reduceValue op init xs) := by
  obtain ⟨f1, f2⟩ := hf
  cases op with
  | all =>
    simp only [ReduceOp.min, ReduceOp.max, reduceValue, allValue, Range.Has]
    split_ifs <;> norm_num
  | any =>
    simp only [ReduceOp.min, ReduceOp.max, reduceValue, anyValue, Range.Has]
    split_ifs <;> norm_num
  | sum =>
    obtain ⟨k1, k2⟩ := sum_between xs hxs
    simp only [reduceValue] at f1 f2 ⊢
    cases size with
    | fixed n =>
      obtain rfl : xs.length = n := hs
      simp only [ReduceOp.min, ReduceOp.max, Range.Has]
      constructor
      · split_ifs with h
        · rw [h] at k1; linarith
        · linarith
      · split_ifs with h
        · rw [h] at k2; linarith
        · linarith
    | dynamic lo hi =>
      obtain ⟨s1, s2⟩ := hs
      simp only [ReduceOp.min, ReduceOp.max, Range.Has]
      have hlen : (0 : Rat) ≤ xs.length := Nat.cast_nonneg _
      have hlo : ((lo.getD 0 : Int) : Rat) ≤ xs.length := by
        cases lo with
        | none => simp
        | some m =>
          have := s1 m rfl
          have : (m : Rat) ≤ ((xs.length : Int) : Rat) := Int.cast_le.2 this
          simpa using this
      constructor
      · split_ifs with h h'
        · rw [h] at k1; linarith
        · cases hi with
          | none => exact f1
          | some m =>
            have := s2 m rfl
            have hm : ((xs.length : Int) : Rat) ≤ (m : Rat) := Int.cast_le.2 this
            have hm : (xs.length : Rat) ≤ m := by simpa using hm
            have := mul_le_mul_of_nonpos_right hm h'.le
            simp only
            linarith
        · have := mul_le_mul_of_nonneg_right hlo (not_lt.1 h')
          linarith
      · split_ifs with h h'
        · rw [h] at k2; linarith
        · cases hi with
          | none => exact f2
          | some m =>
            have := s2 m rfl
            have hm : ((xs.length : Int) : Rat) ≤ (m : Rat) := Int.cast_le.2 this
            have hm : (xs.length : Rat) ≤ m := by simpa using hm
            have := mul_le_mul_of_nonneg_right hm (le_of_lt h')
            simp only
            linarith
        · have := mul_le_mul_of_nonpos_right hlo (not_lt.1 h')
          linarith
  | prod =>
    cases size with
    | dynamic lo hi => exact ⟨f1, f2⟩
    | fixed n =>
      obtain rfl : xs.length = n := hs
      cases xs with
      | nil => simp [ReduceOp.min, ReduceOp.max, reduceValue, Range.Has]
      | cons x xs =>
        have hx := hxs x (by simp)
        have hrest : ∀ y ∈ xs, r.Has y := fun y hy => hxs y (by simp [hy])
        cases xs with
        | nil =>
          simp only [ReduceOp.min, ReduceOp.max, reduceValue, Range.Has, List.length_cons, List.length_nil,
            List.prod_cons, List.prod_nil, mul_one]
          exact (Betw.mul_left init (Or.inl hx)).le (min_le_left _ _) (min_le_right _ _) (le_max_left _ _)
            (le_max_right _ _)
        | cons y ys =>
          have h1 := min4_le (init * r.lo ^ (ys.length + 2)) (init * r.hi ^ (ys.length + 2))
            (init * r.lo * r.hi ^ (ys.length + 1)) (init * r.hi * r.lo ^ (ys.length + 1))
          have h2 := le_max4 (init * r.lo ^ (ys.length + 2)) (init * r.hi ^ (ys.length + 2))
            (init * r.lo * r.hi ^ (ys.length + 1)) (init * r.hi * r.lo ^ (ys.length + 1))
          exact init_prod_betw init x (y :: ys) hx hrest ⟨h1.1, h2.1⟩ ⟨h1.2.1, h2.2.1⟩
            ⟨h1.2.2.1, h2.2.2.1⟩ ⟨h1.2.2.2, h2.2.2.2⟩

/-- The initial value times the product of three elements between -2 and 3, and a sum of at most five such
elements. -/
example : ReduceOp.min .prod (-1) (.fixed 3) ⟨-2, 3⟩ = -27 ∧ ReduceOp.max .prod (-1) (.fixed 3) ⟨-2, 3⟩ = 18 ∧
    reduceValue .prod (-1) [3, -2, 3] = 18 ∧ ReduceOp.max .sum 1 (.dynamic (some 2) (some 5)) ⟨-2, 3⟩ = 16 ∧
    ReduceOp.min .sum 1 (.dynamic (some 2) none) ⟨2, 3⟩ = 5 := by
  decide +kernel

/-- C36: partial sums. -/
theorem C36_partialSum {init : Rat} {dim : Int} {r : Range} {xs : List Rat} (hd : (xs.length : Int) = dim)
    (hxs : ∀ x ∈ xs, r.Has x) :
    (Range.mk (partialSumMin init dim r) (partialSumMax init dim r)).Has (init + xs.sum) := by
  obtain ⟨k1, k2⟩ := sum_between xs hxs
  have : ((dim : Int) : Rat) = xs.length := by rw [← hd]; simp
  simp only [partialSumMin, partialSumMax, Range.Has, this]
  constructor <;> linarith

example : partialSumMin 1 3 ⟨-2, 3⟩ = -5 ∧ partialSumMax 1 3 ⟨-2, 3⟩ = 10 := by decide +kernel

/-! ## Greatest and least elements -/

theorem foldl_max_between (xs : List Rat) (r : Range) (hxs : ∀ x ∈ xs, r.Has x) (b : Rat) :
    b ≤ xs.foldl max b ∧ xs.foldl max b ≤ max b r.hi ∧ (xs ≠ [] → r.lo ≤ xs.foldl max b) := by
  induction xs generalizing b with
  | nil => exact ⟨le_rfl, le_max_left _ _, fun h => absurd rfl h⟩
  | cons x xs ih =>
    obtain ⟨h1, h2⟩ := hxs x (by simp)
    obtain ⟨i1, i2, i3⟩ := ih (fun y hy => hxs y (by simp [hy])) (max b x)
    rw [List.foldl_cons]
    refine ⟨le_trans (le_max_left _ _) i1, le_trans i2 ?_, fun _ => le_trans h1 (le_trans (le_max_right _ _) i1)⟩
    exact max_le (max_le (le_max_left _ _) (le_trans h2 (le_max_right _ _))) (le_max_right _ _)

theorem foldl_min_between (xs : List Rat) (r : Range) (hxs : ∀ x ∈ xs, r.Has x) (b : Rat) :
    xs.foldl min b ≤ b ∧ min b r.lo ≤ xs.foldl min b ∧ (xs ≠ [] → xs.foldl min b ≤ r.hi) := by
  induction xs generalizing b with
  | nil => exact ⟨le_rfl, min_le_left _ _, fun h => absurd rfl h⟩
  | cons x xs ih =>
    obtain ⟨h1, h2⟩ := hxs x (by simp)
    obtain ⟨i1, i2, i3⟩ := ih (fun y hy => hxs y (by simp [hy])) (min b x)
    rw [List.foldl_cons]
    refine ⟨le_trans i1 (min_le_left _ _), le_trans ?_ i2, fun _ => le_trans (le_trans i1 (min_le_right _ _)) h2⟩
    exact le_min (le_min (min_le_left _ _) (le_trans (min_le_right _ _) h1)) (min_le_right _ _)

/-- The value of the greatest or least element. -/
def extremeValue : FoldOp → Option Rat → List Rat → Rat
  | .max => foldValue max
  | .min => foldValue min

/-- C36: the greatest and the least element of a non-empty array (together with the initial value).
Missing: empty arrays with an initial value, see `C36_extreme_empty_fails`. -/
theorem C36_extreme_partial {op : FoldOp} {init : Option Rat} {r : Range} {xs : List Rat} (hne : xs ≠ [])
    (hxs : ∀ x ∈ xs, r.Has x) :
    (Range.mk (op.rangeMin init r) (op.rangeMax init r)).Has (extremeValue op init xs) := by
  cases op with
  | max =>
    cases init with
    | some i =>
      obtain ⟨i1, i2, i3⟩ := foldl_max_between xs r hxs i
      exact ⟨max_le i1 (i3 hne), i2⟩
    | none =>
      cases xs with
      | nil => exact absurd rfl hne
      | cons x xs =>
        have hx := hxs x (by simp)
        obtain ⟨i1, i2, -⟩ := foldl_max_between xs r (fun y hy => hxs y (by simp [hy])) x
        exact ⟨le_trans hx.1 i1, le_trans i2 (max_le hx.2 le_rfl)⟩
  | min =>
    cases init with
    | some i =>
      obtain ⟨i1, i2, i3⟩ := foldl_min_between xs r hxs i
      exact ⟨i2, le_min i1 (i3 hne)⟩
    | none =>
      cases xs with
      | nil => exact absurd rfl hne
      | cons x xs =>
        have hx := hxs x (by simp)
        obtain ⟨i1, i2, -⟩ := foldl_min_between xs r (fun y hy => hxs y (by simp [hy])) x
        exact ⟨le_trans (le_min hx.1 le_rfl) i2, le_trans i1 hx.2⟩

example : FoldOp.rangeMin .max (some 3) ⟨-2, 8⟩ = 3 ∧ FoldOp.rangeMax .max (some 3) ⟨-2, 8⟩ = 8 ∧
    extremeValue .max (some 3) [7, -1] = 7 := by decide +kernel

/-- C36 fails for an empty (dynamic) array: the greatest of no elements with initial value 0 is 0, but
if the elements are declared to be from 5 to 10 then the symbol declares at least 5; likewise the least with
initial value 20 is declared to be at most 10 (mathematical.cpp 1310-1317, 1397-1404). -/
theorem C36_extreme_empty_fails :
    ¬ (Range.mk (FoldOp.rangeMin .max (some 0) ⟨5, 10⟩) (FoldOp.rangeMax .max (some 0) ⟨5, 10⟩)).Has
      (extremeValue .max (some 0) []) ∧
    ¬ (Range.mk (FoldOp.rangeMin .min (some 20) ⟨5, 10⟩) (FoldOp.rangeMax .min (some 20) ⟨5, 10⟩)).Has
      (extremeValue .min (some 20) []) := by
  decide +kernel

end Verif
