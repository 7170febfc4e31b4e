import Verif.Model.Bounds
import Verif.Props.Modulus
import Mathlib.Tactic.Ring
import Mathlib.Tactic.Linarith
import Mathlib.Tactic.SplitIfs
import Mathlib.Tactic.ByContra

set_option linter.unusedSectionVars false
set_option linter.unusedSimpArgs false
set_option linter.unusedVariables false

/-!
# C35: declared value ranges contain all element-wise results
-/

namespace Verif

/-! ## Unary symbols -/

/-- The function computed by `std::sqrt` is monotone on the numbers it is meant for. -/
def UnaryOp.Sound : UnaryOp → Prop
  | squareRoot root => ∀ x y, 0 ≤ x → x ≤ y → root x ≤ root y
  | _ => True

/-- C35, unary symbols, except `square` of a symbol that may be negative (see below): if the operand's
value is in its declared range and the result does not overflow then the result is in the declared range. -/
theorem C35_unary_partial {op : UnaryOp} (hs : op.Sound) {r : Range} (ha : op.accepts r)
    (hsq : op = .square → 0 ≤ r.lo) {x : Rat} (hx : r.Has x) (hf : Finite (op.func x)) {lo hi : Rat}
    (hlo : op.min r = .ok lo) (hhi : op.max r = .ok hi) : (Range.mk lo hi).Has (op.func x) := by
  obtain ⟨h1, h2⟩ := hx
  obtain ⟨f1, f2⟩ := hf
  cases op with
  | absolute =>
    simp only [UnaryOp.min, UnaryOp.max] at hlo hhi
    obtain ⟨_, hg, hlo⟩ := Res.bind_eq_ok.1 hlo
    obtain ⟨_, _, hhi⟩ := Res.bind_eq_ok.1 hhi
    have hg := guardUB_eq_ok.1 hg
    simp only [UnaryOp.func, Range.Has]
    have hx' : (if x < 0 then -x else x) = |x| := by
      split_ifs with h
      · rw [abs_of_neg h]
      · rw [abs_of_nonneg (not_lt.1 h)]
    rw [hx']
    split_ifs at hlo hhi with c1 c2
    · cases hlo; cases hhi
      rw [abs_of_nonneg (le_trans c1.1 h1)]
      exact ⟨h1, h2⟩
    · cases hlo; cases hhi
      refine ⟨abs_nonneg x, abs_le.2 ⟨?_, le_trans h2 (le_max_left _ _)⟩⟩
      have := le_max_right r.hi (-r.lo)
      linarith
    · cases hlo; cases hhi
      rw [abs_of_neg (lt_of_le_of_lt h2 (not_le.1 c2))]
      constructor <;> linarith
  | logical =>
    cases hlo; cases hhi
    simp only [UnaryOp.func, ofBool, Range.Has]
    split_ifs <;> norm_num
  | not =>
    cases hlo; cases hhi
    simp only [UnaryOp.func, ofBool, Range.Has]
    split_ifs <;> norm_num
  | negative =>
    cases hlo; cases hhi
    exact ⟨neg_le_neg h2, neg_le_neg h1⟩
  | square =>
    have h0 := hsq rfl
    have e1 : r.lo * r.lo ≤ x * x := mul_le_mul h1 h1 h0 (le_trans h0 h1)
    have e2 : x * x ≤ r.hi * r.hi := mul_le_mul h2 h2 (le_trans h0 h1) (le_trans h0 (le_trans h1 h2))
    simp only [UnaryOp.min, UnaryOp.max] at hlo hhi
    simp only [UnaryOp.func, Range.Has] at f1 f2 ⊢
    split_ifs at hlo hhi with c1 c2 c2 <;> cases hlo <;> cases hhi <;>
      constructor <;> linarith
  | squareRoot root =>
    simp only [UnaryOp.min, UnaryOp.max] at hlo hhi
    obtain ⟨_, hg, hlo⟩ := Res.bind_eq_ok.1 hlo
    obtain ⟨_, _, hhi⟩ := Res.bind_eq_ok.1 hhi
    have hg := guardUB_eq_ok.1 hg
    cases hlo; cases hhi
    exact ⟨hs _ _ hg h1, hs _ _ (le_trans hg h1) h2⟩

/-- The range of an accepted unary symbol is well-defined. -/
theorem C35_unary_defined {op : UnaryOp} {r : Range} (ha : op.accepts r) (hr : r.lo ≤ r.hi) :
    ∃ lo hi, op.min r = .ok lo ∧ op.max r = .ok hi := by
  cases op with
  | absolute =>
    simp only [UnaryOp.min, UnaryOp.max, guardUB_true hr, Res.ok_bind]
    split_ifs <;> exact ⟨_, _, rfl, rfl⟩
  | square =>
    simp only [UnaryOp.min, UnaryOp.max]
    split_ifs <;> exact ⟨_, _, rfl, rfl⟩
  | squareRoot root =>
    have h := not_lt.1 ha
    simp only [UnaryOp.min, UnaryOp.max, guardUB_true h, guardUB_true (le_trans h hr), Res.ok_bind]
    exact ⟨_, _, rfl, rfl⟩
  | logical => exact ⟨_, _, rfl, rfl⟩
  | not => exact ⟨_, _, rfl, rfl⟩
  | negative => exact ⟨_, _, rfl, rfl⟩

/-- C35 fails for `square`: the squares of numbers between -3 and 2 are declared to be at least nine and at
most four (mathematical.cpp 1799-1807, 1848-1856), but 0 and 9 are squares of such numbers. -/
theorem C35_square_fails :
    ∃ (r : Range) (lo hi : Rat), UnaryOp.square.min r = .ok lo ∧ UnaryOp.square.max r = .ok hi ∧
      (∃ x, r.Has x ∧ Finite (UnaryOp.square.func x) ∧ UnaryOp.square.func x < lo) ∧
      ∃ x, r.Has x ∧ Finite (UnaryOp.square.func x) ∧ hi < UnaryOp.square.func x := by
  refine ⟨⟨-3, 2⟩, 9, 4, ?_, ?_, ⟨0, ?_, ?_, ?_⟩, -3, ?_, ?_, ?_⟩
  · simp only [UnaryOp.min]
    rw [if_neg (by decide +kernel)]; norm_num
  · simp only [UnaryOp.max]
    rw [if_neg (by decide +kernel)]; norm_num
  all_goals decide +kernel

/-- The range of `abs` of an array whose declared range is empty is undefined: the symbol asserts
`min <= max` (mathematical.cpp 1781, 1830), but a list of no items declares the range from 0 to -1
(collections.hpp 44-45). -/
theorem C35_absolute_empty_fails : UnaryOp.absolute.max ⟨0, 0 - 1⟩ = .ub := by
  decide +kernel

example : (Range.mk 0 (25 / 4)).Has (UnaryOp.square.func (5 / 2)) ∧
    UnaryOp.absolute.min ⟨-3, 2⟩ = .ok 0 ∧ UnaryOp.absolute.max ⟨-3, 2⟩ = .ok 3 := by
  decide +kernel

/-! ## Binary symbols -/

theorem le_max4 (a b c d : Rat) : a ≤ max4 a b c d ∧ b ≤ max4 a b c d ∧ c ≤ max4 a b c d ∧
    d ≤ max4 a b c d := by
  simp only [max4, le_max_iff]
  exact ⟨.inl (.inl (.inl le_rfl)), .inl (.inl (.inr le_rfl)), .inl (.inr le_rfl), .inr le_rfl⟩

theorem min4_le (a b c d : Rat) : min4 a b c d ≤ a ∧ min4 a b c d ≤ b ∧ min4 a b c d ≤ c ∧
    min4 a b c d ≤ d := by
  simp only [min4, min_le_iff]
  exact ⟨.inl (.inl (.inl le_rfl)), .inl (.inl (.inr le_rfl)), .inl (.inr le_rfl), .inr le_rfl⟩

/-- A product lies between products of the ends. -/
theorem mul_between {a b c d x y : Rat} (h1 : a ≤ x) (h2 : x ≤ b) (h3 : c ≤ y) (h4 : y ≤ d) {m M : Rat}
    (ha : m ≤ a * c) (hb : m ≤ a * d) (hc : m ≤ b * c) (hd : m ≤ b * d)
    (ka : a * c ≤ M) (kb : a * d ≤ M) (kc : b * c ≤ M) (kd : b * d ≤ M) : m ≤ x * y ∧ x * y ≤ M := by
  rcases le_total 0 y with hy | hy
  · have e1 : a * y ≤ x * y := mul_le_mul_of_nonneg_right h1 hy
    have e2 : x * y ≤ b * y := mul_le_mul_of_nonneg_right h2 hy
    have low : m ≤ a * y := by
      rcases le_total 0 a with h | h
      · exact le_trans ha (mul_le_mul_of_nonneg_left h3 h)
      · exact le_trans hb (mul_le_mul_of_nonpos_left h4 h)
    have high : b * y ≤ M := by
      rcases le_total 0 b with h | h
      · exact le_trans (mul_le_mul_of_nonneg_left h4 h) kd
      · exact le_trans (mul_le_mul_of_nonpos_left h3 h) kc
    exact ⟨le_trans low e1, le_trans e2 high⟩
  · have e1 : b * y ≤ x * y := mul_le_mul_of_nonpos_right h2 hy
    have e2 : x * y ≤ a * y := mul_le_mul_of_nonpos_right h1 hy
    have low : m ≤ b * y := by
      rcases le_total 0 b with h | h
      · exact le_trans hc (mul_le_mul_of_nonneg_left h3 h)
      · exact le_trans hd (mul_le_mul_of_nonpos_left h4 h)
    have high : a * y ≤ M := by
      rcases le_total 0 a with h | h
      · exact le_trans (mul_le_mul_of_nonneg_left h4 h) kb
      · exact le_trans (mul_le_mul_of_nonpos_left h3 h) ka
    exact ⟨le_trans low e1, le_trans e2 high⟩

theorem mul4_between {l r : Range} {x y : Rat} (hx : l.Has x) (hy : r.Has y) :
    (productRange l r).Has (x * y) := by
  have h1 := min4_le (l.lo * r.lo) (l.lo * r.hi) (l.hi * r.lo) (l.hi * r.hi)
  have h2 := le_max4 (l.lo * r.lo) (l.lo * r.hi) (l.hi * r.lo) (l.hi * r.hi)
  exact mul_between hx.1 hx.2 hy.1 hy.2 h1.1 h1.2.1 h1.2.2.1 h1.2.2.2 h2.1 h2.2.1 h2.2.2.1 h2.2.2.2

theorem has_ofBool (b : Bool) : (Range.mk 0 1).Has (ofBool b) := by
  simp only [ofBool, Range.Has]
  split_ifs <;> norm_num

theorem modulus_between {r : Range} {x y : Rat} (hy : r.Has y) :
    (if -r.hi < r.lo then -r.hi else r.lo) ≤ modulus x y ∧
      modulus x y ≤ if -r.lo > r.hi then -r.lo else r.hi := by
  obtain ⟨h1, h2⟩ := hy
  have hM : r.hi ≤ (if -r.lo > r.hi then -r.lo else r.hi) ∧ -r.lo ≤ if -r.lo > r.hi then -r.lo else r.hi := by
    split_ifs with h
    · exact ⟨h.le, le_rfl⟩
    · exact ⟨le_rfl, not_lt.1 h⟩
  have hm : (if -r.hi < r.lo then -r.hi else r.lo) ≤ -r.hi ∧ (if -r.hi < r.lo then -r.hi else r.lo) ≤ r.lo := by
    split_ifs with h
    · exact ⟨le_rfl, h.le⟩
    · exact ⟨not_lt.1 h, le_rfl⟩
  obtain ⟨k0, -, k1, k2⟩ := C38_modulus x y
  rcases lt_trichotomy y 0 with hy | rfl | hy
  · obtain ⟨a, b⟩ := k2 hy
    constructor <;> linarith
  · rw [k0]; constructor <;> linarith
  · obtain ⟨a, b⟩ := k1 hy
    constructor <;> linarith

/-- C35, binary symbols: if the operands' values are in their declared ranges then the result is in the
declared range. -/
theorem C35_binary {op : BinaryOp} {l r : Range} (ha : op.accepts r) {x y : Rat} (hx : l.Has x)
    (hy : r.Has y) {lo hi : Rat} (hlo : op.min l r = .ok lo) (hhi : op.max l r = .ok hi) :
    (Range.mk lo hi).Has (op.func x y) := by
  obtain ⟨h1, h2⟩ := hx
  obtain ⟨h3, h4⟩ := hy
  cases op with
  | add => cases hlo; cases hhi; exact ⟨add_le_add h1 h3, add_le_add h2 h4⟩
  | subtract =>
    cases hlo; cases hhi
    simp only [BinaryOp.func, Range.Has]
    constructor <;> linarith
  | multiply => cases hlo; cases hhi; exact mul4_between ⟨h1, h2⟩ ⟨h3, h4⟩
  | modulus => cases hlo; cases hhi; exact modulus_between ⟨h3, h4⟩
  | and => cases hlo; cases hhi; exact has_ofBool _
  | or => cases hlo; cases hhi; exact has_ofBool _
  | xor => cases hlo; cases hhi; exact has_ofBool _
  | equal => cases hlo; cases hhi; exact has_ofBool _
  | lessEqual => cases hlo; cases hhi; exact has_ofBool _
  | maximum =>
    cases hlo; cases hhi
    simp only [BinaryOp.func, Range.Has]
    split_ifs <;> constructor <;> linarith
  | minimum =>
    cases hlo; cases hhi
    simp only [BinaryOp.func, Range.Has]
    split_ifs <;> constructor <;> linarith
  | divide =>
    simp only [BinaryOp.min, BinaryOp.max] at hlo hhi
    obtain ⟨_, _, hhi⟩ := Res.bind_eq_ok.1 hhi
    obtain ⟨_, _, hhi⟩ := Res.bind_eq_ok.1 hhi
    obtain ⟨_, _, hhi⟩ := Res.bind_eq_ok.1 hhi
    obtain ⟨_, _, hhi⟩ := Res.bind_eq_ok.1 hhi
    cases hlo; cases hhi
    -- the reciprocal of the divisor lies between the reciprocals of the ends
    have hinv : r.hi⁻¹ ≤ y⁻¹ ∧ y⁻¹ ≤ r.lo⁻¹ := by
      rcases ha with ⟨c1, c2⟩ | ⟨c1, c2⟩
      · have hy0 : y < 0 := lt_of_le_of_lt h4 c2
        exact ⟨(inv_le_inv_of_neg c2 hy0).2 h4, (inv_le_inv_of_neg hy0 c1).2 h3⟩
      · have hy0 : 0 < y := lt_of_lt_of_le c1 h3
        exact ⟨inv_anti₀ hy0 h4, inv_anti₀ c1 h3⟩
    simp only [BinaryOp.func, Range.Has, div_eq_mul_inv]
    have k1 := min4_le (l.lo * r.lo⁻¹) (l.lo * r.hi⁻¹) (l.hi * r.lo⁻¹) (l.hi * r.hi⁻¹)
    have k2 := le_max4 (l.lo * r.lo⁻¹) (l.lo * r.hi⁻¹) (l.hi * r.lo⁻¹) (l.hi * r.hi⁻¹)
    exact mul_between h1 h2 hinv.1 hinv.2 k1.2.1 k1.1 k1.2.2.2 k1.2.2.1 k2.2.1 k2.1 k2.2.2.2 k2.2.2.1

/-- Their ranges are well-defined, except for a division whose numerator's range begins or ends at zero. -/
theorem C35_binary_defined_partial {op : BinaryOp} {l r : Range} (ha : op.accepts r)
    (hd : op = .divide → l.lo ≠ 0 ∧ l.hi ≠ 0) :
    ∃ lo hi, op.min l r = .ok lo ∧ op.max l r = .ok hi := by
  cases op with
  | divide =>
    obtain ⟨c1, c2⟩ := hd rfl
    have c3 : r.lo ≠ 0 ∧ r.hi ≠ 0 := by
      rcases ha with ⟨a, b⟩ | ⟨a, b⟩
      · exact ⟨a.ne, b.ne⟩
      · exact ⟨a.ne', b.ne'⟩
    simp only [BinaryOp.min, BinaryOp.max, guardUB_true c1, guardUB_true c2, guardUB_true c3.1,
      guardUB_true c3.2, Res.ok_bind]
    exact ⟨_, _, rfl, rfl⟩
  | _ => exact ⟨_, _, rfl, rfl⟩

/-- An accepted division whose maximum is undefined: the numerator's range begins at zero, which the
symbol asserts it does not (mathematical.cpp 173-174), although only the denominator matters. -/
theorem C35_divide_fails : BinaryOp.divide.accepts ⟨1, 2⟩ ∧ (Range.mk 0 5).Has 1 ∧
    BinaryOp.divide.max ⟨0, 5⟩ ⟨1, 2⟩ = .ub := by
  refine ⟨Or.inr (by norm_num), by decide +kernel, by decide +kernel⟩

example : BinaryOp.multiply.min ⟨-2, 3⟩ ⟨-5, 7⟩ = .ok (-15) ∧
    BinaryOp.multiply.max ⟨-2, 3⟩ ⟨-5, 7⟩ = .ok 21 := by decide +kernel
example : BinaryOp.divide.min ⟨-2, 3⟩ ⟨-4, -1⟩ = .ok (-3) ∧ BinaryOp.divide.max ⟨-2, 3⟩ ⟨-4, -1⟩ = .ok 2 := by
  decide +kernel

/-! ## N-ary symbols -/

/-- The value at one position of an n-ary symbol whose operands have the given values there. -/
def naryAt (op : NaryOp) : List Rat → Rat
  | [] => 0
  | x :: xs => xs.foldl (fun val y => op.func y val) x

theorem nary_fold_add (rs : List Range) (xs : List Rat) (h : List.Forall₂ Range.Has rs xs) (a b c : Rat)
    (h1 : a ≤ b) (h2 : b ≤ c) :
    rs.foldl (fun lhs r => lhs + r.lo) a ≤ xs.foldl (fun val y => y + val) b ∧
      xs.foldl (fun val y => y + val) b ≤ rs.foldl (fun lhs r => lhs + r.hi) c := by
  induction h generalizing a b c with
  | nil => exact ⟨h1, h2⟩
  | cons hx _ ih =>
    obtain ⟨k1, k2⟩ := hx
    exact ih _ _ _ (by linarith) (by linarith)

theorem nary_fold_max (rs : List Range) (xs : List Rat) (h : List.Forall₂ Range.Has rs xs) (a b c : Rat)
    (h1 : a ≤ b) (h2 : b ≤ c) :
    rs.foldl (fun lhs r => max lhs r.lo) a ≤ xs.foldl (fun val y => max y val) b ∧
      xs.foldl (fun val y => max y val) b ≤ rs.foldl (fun lhs r => max lhs r.hi) c := by
  induction h generalizing a b c with
  | nil => exact ⟨h1, h2⟩
  | cons hx _ ih =>
    obtain ⟨k1, k2⟩ := hx
    refine ih _ _ _ ?_ ?_
    · exact le_trans (max_le_max h1 k1) (max_comm _ _).le
    · exact le_trans (max_comm _ _).le (max_le_max h2 k2)

theorem nary_fold_min (rs : List Range) (xs : List Rat) (h : List.Forall₂ Range.Has rs xs) (a b c : Rat)
    (h1 : a ≤ b) (h2 : b ≤ c) :
    rs.foldl (fun lhs r => min lhs r.lo) a ≤ xs.foldl (fun val y => min y val) b ∧
      xs.foldl (fun val y => min y val) b ≤ rs.foldl (fun lhs r => min lhs r.hi) c := by
  induction h generalizing a b c with
  | nil => exact ⟨h1, h2⟩
  | cons hx _ ih =>
    obtain ⟨k1, k2⟩ := hx
    refine ih _ _ _ ?_ ?_
    · exact le_trans (min_le_min h1 k1) (min_comm _ _).le
    · exact le_trans (min_comm _ _).le (min_le_min h2 k2)

theorem nary_fold_mul (rs : List Range) (xs : List Rat) (h : List.Forall₂ Range.Has rs xs) (r : Range)
    (b : Rat) (hb : r.Has b) :
    (rs.foldl productRange r).Has (xs.foldl (fun val y => y * val) b) := by
  induction h generalizing r b with
  | nil => exact hb
  | cons hx _ ih => exact ih _ _ (by have := mul4_between hb hx; rwa [mul_comm] at this)

/-- C35, n-ary symbols. -/
theorem C35_nary {op : NaryOp} {rs : List Range} {xs : List Rat} (hne : xs ≠ [])
    (h : List.Forall₂ Range.Has rs xs) :
    ∃ lo hi, op.min rs = .ok lo ∧ op.max rs = .ok hi ∧ (Range.mk lo hi).Has (naryAt op xs) := by
  cases h with
  | nil => exact absurd rfl hne
  | cons hx h =>
    rename_i r x rs xs
    cases op with
    | add =>
      refine ⟨_, _, rfl, rfl, ?_⟩
      simp only [List.foldl_cons, zero_add]
      exact nary_fold_add rs xs h _ _ _ hx.1 hx.2
    | multiply => exact ⟨_, _, rfl, rfl, nary_fold_mul rs xs h _ _ hx⟩
    | maximum => exact ⟨_, _, rfl, rfl, nary_fold_max rs xs h _ _ _ hx.1 hx.2⟩
    | minimum => exact ⟨_, _, rfl, rfl, nary_fold_min rs xs h _ _ _ hx.1 hx.2⟩

example : NaryOp.multiply.min [⟨-2, 3⟩, ⟨-1, 1⟩, ⟨0, 5⟩] = .ok (-15) ∧
    NaryOp.multiply.max [⟨-2, 3⟩, ⟨-1, 1⟩, ⟨0, 5⟩] = .ok 15 := by decide +kernel

/-! ## Where -/

/-- C35, selection: whichever value is selected. -/
theorem C35_where {r s : Range} {x y : Rat} (hx : r.Has x) (hy : s.Has y) (c : Bool) :
    (Range.mk (whereMin r s) (whereMax r s)).Has (if c then x else y) := by
  cases c with
  | true => exact ⟨le_trans (min_le_left _ _) hx.1, le_trans hx.2 (le_max_left _ _)⟩
  | false => exact ⟨le_trans (min_le_right _ _) hy.1, le_trans hy.2 (le_max_right _ _)⟩

example : whereMin ⟨0, 4⟩ ⟨-1, 2⟩ = -1 ∧ whereMax ⟨0, 4⟩ ⟨-1, 2⟩ = 4 := by decide +kernel

end Verif
