import Verif.Model.NumberArguments
import Verif.Lemmas.QuadraticArguments
import Verif.Props.Numbers
import Mathlib.Algebra.Order.BigOperators.Group.List
import Mathlib.Data.Int.ModEq
import Mathlib.Tactic.Linarith

/-!
# C82: integer and binary variables have the shape and the bounds they are given
-/

namespace Verif

/-- The shape an argument stands for: none for a single number, an integer for a vector, a sequence for its items; none may be negative. -/
def ShapeArg.dims? : ShapeArg → Option (List Int)
  | .none => some []
  | .int n => if 0 ≤ n then some [n] else Option.none
  | .sequence items => if ∀ x ∈ items, ∃ n : Int, x = some n ∧ 0 ≤ n then some (items.filterMap id) else Option.none
  | .other => Option.none

/-- The bound an argument stands for. -/
def BoundArg.Means (default : Int) : BoundArg → Int → Prop
  | .none, k => k = default
  | .number r, k => r = (k : Rat)
  | _, _ => False

/-- The argument is no number, or a whole number of 32 bits. -/
def BoundArg.Whole : BoundArg → Prop
  | .number r => ∃ k : Int, r = (k : Rat) ∧ -2 ^ 31 ≤ k ∧ k < 2 ^ 31
  | .nonfinite => False
  | _ => True

/-- The number of elements, if dimensions without elements count as one. -/
def span (shape : List Int) : Int := (shape.map (max 1)).prod

theorem one_le_span (shape : List Int) : 1 ≤ span shape := by
  unfold span
  induction shape with
  | nil => simp
  | cons d shape ih =>
    rw [List.map_cons, List.prod_cons]
    have : 1 ≤ max 1 d := le_max_left _ _
    nlinarith

theorem span_cons (d : Int) (shape : List Int) : span (d :: shape) = max 1 d * span shape := by
  unfold span; rw [List.map_cons, List.prod_cons]

theorem prod_span {shape : List Int} (h : ∀ d ∈ shape, 0 ≤ d) : 0 ≤ shape.prod ∧ shape.prod ≤ span shape := by
  induction shape with
  | nil => simp [span]
  | cons d shape ih =>
    obtain ⟨h1, h2⟩ := ih fun e he => h e (by simp [he])
    have h0 := h d (by simp)
    rw [span_cons, List.prod_cons]
    have h3 : d ≤ max 1 d := le_max_right _ _
    exact ⟨mul_nonneg h0 h1, mul_le_mul h3 h2 h1 (by omega)⟩

theorem reduceShape_ok {shape : List Int} (h : ∀ d ∈ shape, 0 ≤ d) : ∀ {acc : Int}, 0 ≤ acc → acc * span shape < 2 ^ 31 →
    reduceShape acc shape = .ok (acc * shape.prod) := by
  induction shape with
  | nil => intro acc _ _; simp [reduceShape]
  | cons d shape ih =>
    intro acc ha hs
    have h0 := h d (by simp)
    have h3 : d ≤ max 1 d := le_max_right _ _
    have h4 := one_le_span shape
    rw [span_cons] at hs
    have h5 : acc * d ≤ acc * max 1 d := mul_le_mul_of_nonneg_left h3 ha
    have h6 : 0 ≤ acc * d := mul_nonneg ha h0
    have h7 : acc * d * span shape ≤ acc * (max 1 d * span shape) := by
      rw [← mul_assoc]; exact mul_le_mul_of_nonneg_right h5 (by omega)
    have h8 : acc * d ≤ acc * d * span shape := le_mul_of_one_le_right h6 h4
    rw [reduceShape, guardUB_true ⟨by omega, by omega⟩, Res.ok_bind, toIntc_of ⟨by omega, by omega⟩, ih (fun e he => h e (by simp [he])) h6 (by omega),
      List.prod_cons, mul_assoc]

theorem cppSize_ok {shape : List Int} (h : ∀ d ∈ shape, 0 ≤ d) (hs : span shape < 2 ^ 31) : cppSize shape = .ok shape.prod := by
  cases shape with
  | nil => rfl
  | cons d shape =>
    have h0 := h d (by simp)
    rw [cppSize, if_neg (by omega), reduceShape_ok h (by omega) (by omega), one_mul]

theorem cppStrides_ok {shape : List Int} (h : ∀ d ∈ shape, 0 ≤ d) (hs : 8 * span shape < 2 ^ 63) :
    ∃ l, cppStrides shape = .ok l ∧ (shape ≠ [] → l.headD 0 = 8 * shape.tail.prod) := by
  induction shape with
  | nil => exact ⟨[], rfl, by simp⟩
  | cons d shape ih =>
    cases shape with
    | nil => exact ⟨[8], rfl, by simp⟩
    | cons e shape =>
      have h' : ∀ k ∈ e :: shape, 0 ≤ k := fun k hk => h k (by simp only [List.mem_cons] at *; tauto)
      have h1 := one_le_span (e :: shape)
      rw [span_cons] at hs
      have h2 : span (e :: shape) ≤ max 1 d * span (e :: shape) := le_mul_of_one_le_left (by omega) (le_max_left _ _)
      obtain ⟨l, hl, hh⟩ := ih h' (by omega)
      have hp := prod_span h'
      have heq : l.headD 0 * e = 8 * (e :: shape).prod := by
        rw [hh (by simp), List.tail_cons, List.prod_cons]; ring
      refine ⟨l.headD 0 * e :: l, ?_, fun _ => ?_⟩
      · rw [cppStrides, hl, Res.ok_bind, guardUB_true ⟨by omega, by omega⟩, Res.ok_bind]
      · rw [List.headD_cons, heq, List.tail_cons]

theorem makeNumVar_cases {shape : List Int} (h : ∀ d ∈ shape, 0 ≤ d) (hs : span shape < 2 ^ 31) (lo? hi? : Option Int) :
    makeNumVar shape lo? hi? =
      if lo?.getD 0 ≤ hi?.getD 2000000000 ∧ -2000000000 ≤ lo?.getD 0 ∧ hi?.getD 2000000000 ≤ 2000000000 then
        .ok ⟨shape, shape.prod, lo?.getD 0, hi?.getD 2000000000⟩ else .throw := by
  obtain ⟨l, hl, _⟩ := cppStrides_ok h (by omega)
  rw [makeNumVar, hl, Res.ok_bind, cppSize_ok h hs, Res.ok_bind]
  split_ifs with hc
  · rw [(C09_make _ lo? hi?).1 hc, Res.ok_bind]
  · rw [(C09_make _ lo? hi?).2 hc, Res.throw_bind]

theorem convert_cases (shape : ShapeArg) (hs : ∀ l, shape.dims? = some l → span l < 2 ^ 31) :
    (∃ l, shape.dims? = some l ∧ shape.convert = .ok l ∧ ∀ d ∈ l, 0 ≤ d) ∨ (shape.dims? = none ∧ shape.convert = .throw) := by
  have hfit : ∀ l : List Int, (∀ d ∈ l, 0 ≤ d) → span l < 2 ^ 31 → ∀ d ∈ l, fitsSsize d := by
    intro l
    induction l with
    | nil => simp
    | cons e l ih =>
      intro h0 h1 d hd
      have h2 := one_le_span l
      rw [span_cons] at h1
      have h3 : e ≤ max 1 e := le_max_right _ _
      have h4 : 1 ≤ max 1 e := le_max_left _ _
      have h5 : max 1 e ≤ max 1 e * span l := le_mul_of_one_le_right (by omega) h2
      have h6 : span l ≤ max 1 e * span l := le_mul_of_one_le_left (by omega) h4
      rcases List.mem_cons.1 hd with rfl | hd
      · have := h0 d (by simp)
        exact ⟨by omega, by omega⟩
      · exact ih (fun k hk => h0 k (by simp [hk])) (by omega) d hd
  cases shape with
  | none => exact .inl ⟨[], rfl, rfl, by simp⟩
  | other => exact .inr ⟨rfl, rfl⟩
  | int n =>
    by_cases hn : 0 ≤ n
    · have h0 : ∀ d ∈ [n], 0 ≤ d := by simpa using hn
      have hd : (ShapeArg.int n).dims? = some [n] := by simp [ShapeArg.dims?, hn]
      refine .inl ⟨[n], hd, ?_, h0⟩
      rw [ShapeArg.convert, guardThrow_true hn, Res.ok_bind, guardThrow_true (hfit [n] h0 (hs _ hd) n (by simp)), Res.ok_bind]
    · refine .inr ⟨by simp [ShapeArg.dims?, hn], ?_⟩
      rw [ShapeArg.convert, guardThrow, if_neg hn, Res.throw_bind]
  | sequence items =>
    by_cases hi : ∀ x ∈ items, ∃ n : Int, x = some n ∧ 0 ≤ n
    · have h0 : ∀ d ∈ items.filterMap id, 0 ≤ d := by
        intro d hd
        obtain ⟨x, hx, e⟩ := List.mem_filterMap.1 hd
        obtain ⟨n, rfl, hn⟩ := hi x hx
        obtain rfl : n = d := by simpa using e
        exact hn
      have hd : (ShapeArg.sequence items).dims? = some (items.filterMap id) := by rw [ShapeArg.dims?, if_pos hi]
      refine .inl ⟨_, hd, ?_, h0⟩
      rw [ShapeArg.convert, guardThrow_true, Res.ok_bind, guardThrow_true h0, Res.ok_bind, guardThrow_true (hfit _ h0 (hs _ hd)), Res.ok_bind]
      intro x hx
      obtain ⟨n, rfl, _⟩ := hi x hx
      simp
    · refine .inr ⟨by rw [ShapeArg.dims?, if_neg hi], ?_⟩
      rw [ShapeArg.convert]
      by_cases h1 : ∀ x ∈ items, x ≠ Option.none
      · rw [guardThrow_true h1, Res.ok_bind]
        by_cases h2 : ∀ n ∈ items.filterMap id, 0 ≤ n
        · exfalso
          apply hi
          intro x hx
          cases x with
          | none => exact absurd rfl (h1 _ hx)
          | some n => exact ⟨n, rfl, h2 n (List.mem_filterMap.2 ⟨_, hx, rfl⟩)⟩
        · rw [guardThrow, if_neg h2, Res.throw_bind]
      · rw [guardThrow, if_neg h1, Res.throw_bind]

theorem bound_cases (default : Int) (b : BoundArg) (h : b.Whole) :
    (∃ d o k, b.toDouble = .ok d ∧ boundToInt d = .ok o ∧ o.getD default = k ∧ ∀ j, b.Means default j ↔ j = k) ∨
      (b.toDouble = .throw ∧ ∀ j, ¬b.Means default j) := by
  cases b with
  | none => exact .inl ⟨_, _, default, rfl, rfl, rfl, fun j => Iff.rfl⟩
  | number r =>
    obtain ⟨k, rfl, hk⟩ := h
    refine .inl ⟨_, some k, k, rfl, ?_, rfl, fun j => ?_⟩
    · have e : ((k : Rat)).num.tdiv ((k : Rat)).den = k := by simp
      rw [boundToInt, truncIntc, e, guardUB_true hk, Res.ok_bind, Res.ok_bind]
    · simp only [BoundArg.Means]
      rw [Int.cast_inj]
      exact eq_comm
  | nonfinite => exact absurd h (by simp [BoundArg.Whole])
  | other => exact .inr ⟨rfl, fun j => by simp [BoundArg.Means]⟩

/-- **C82**: with whole numbers of 32 bits as bounds and fewer than 2^31 elements, `integer` makes a variable exactly when the shape is one, the
bounds are bounds, the lower one is not above the upper one and both are within plus and minus 2000000000; without a bound they are 0 and
2000000000.  The variable has this shape and these bounds; anything else raises an exception.

Missing: other bounds and more elements, for which it is false (`C82_fraction_fails`, `C82_range_fails`, `C82_size_fails`). -/
theorem C82_integer_partial {shape : ShapeArg} {lower upper : BoundArg} (hs : ∀ l, shape.dims? = some l → span l < 2 ^ 31) (hl : lower.Whole)
    (hu : upper.Whole) :
    (∀ l lo hi, shape.dims? = some l → lower.Means 0 lo → upper.Means 2000000000 hi → lo ≤ hi → -2000000000 ≤ lo → hi ≤ 2000000000 →
      pyInteger shape lower upper = .ok ⟨l, l.prod, lo, hi⟩) ∧
    ((¬∃ l lo hi, shape.dims? = some l ∧ lower.Means 0 lo ∧ upper.Means 2000000000 hi ∧ lo ≤ hi ∧ -2000000000 ≤ lo ∧ hi ≤ 2000000000) →
      pyInteger shape lower upper = .throw) := by
  unfold pyInteger
  rcases convert_cases shape hs with ⟨l, h1, h2, h3⟩ | ⟨h1, h2⟩
  · rw [h2, Res.ok_bind]
    rcases bound_cases 0 lower hl with ⟨d, o, k, e1, e2, e3, e4⟩ | ⟨e1, e4⟩
    · rw [e1, Res.ok_bind]
      rcases bound_cases 2000000000 upper hu with ⟨d', o', k', f1, f2, f3, f4⟩ | ⟨f1, f4⟩
      · rw [f1, Res.ok_bind, e2, Res.ok_bind, f2, Res.ok_bind, makeNumVar_cases h3 (hs l h1), e3, f3]
        constructor
        · intro l' lo hi g1 g2 g3 g4 g5 g6
          obtain rfl : l = l' := by rw [h1] at g1; exact Option.some.inj g1
          obtain rfl := (e4 lo).1 g2
          obtain rfl := (f4 hi).1 g3
          rw [if_pos ⟨g4, g5, g6⟩]
        · intro hn
          rw [if_neg]
          rintro ⟨g4, g5, g6⟩
          exact hn ⟨l, k, k', h1, (e4 k).2 rfl, (f4 k').2 rfl, g4, g5, g6⟩
      · rw [f1, Res.throw_bind]
        exact ⟨fun _ _ hi _ _ h => absurd h (f4 hi), fun _ => rfl⟩
    · rw [e1, Res.throw_bind]
      exact ⟨fun _ lo _ _ h => absurd h (e4 lo), fun _ => rfl⟩
  · rw [h2, Res.throw_bind]
    exact ⟨(fun l _ _ h => by rw [h1] at h; cases h), fun _ => rfl⟩

example : pyInteger (.sequence [some 2, some 0, some 3]) (.number (-5)) .none = .ok ⟨[2, 0, 3], 0, -5, 2000000000⟩ :=
  (C82_integer_partial (lower := .number (-5)) (upper := .none) (by intro l h; simp [ShapeArg.dims?] at h; subst h; simp [span]) ⟨-5, by norm_num, by norm_num, by norm_num⟩ trivial).1 [2, 0, 3] (-5)
    2000000000 (by simp [ShapeArg.dims?]) (by norm_num [BoundArg.Means]) rfl (by norm_num) (by norm_num) (by norm_num)

/-- **C82** for `binary`: the bounds are 0 and 1. -/
theorem C82_binary_partial {shape : ShapeArg} (hs : ∀ l, shape.dims? = some l → span l < 2 ^ 31) :
    pyBinary shape = match shape.dims? with
      | some l => .ok ⟨l, l.prod, 0, 1⟩
      | none => .throw := by
  unfold pyBinary
  rcases convert_cases shape hs with ⟨l, h1, h2, h3⟩ | ⟨h1, h2⟩
  · rw [h2, Res.ok_bind, makeNumVar_cases h3 (hs l h1), h1, if_pos (by simp)]
    rfl
  · rw [h2, Res.throw_bind, h1]

example : pyBinary (.int 3) = .ok ⟨[3], 3, 0, 1⟩ := by
  rw [C82_binary_partial (by intro l h; simp [ShapeArg.dims?] at h; subst h; simp [span])]; rfl

/-- **C82**: the states of such a variable are the arrays of its shape with whole numbers within the bounds; others raise an exception. -/
theorem C82_states {l : List Int} (h0 : ∀ d ∈ l, 0 ≤ d) (lo hi : Int) (values : List Rat) :
    (((values.length : Int) = l.prod ∧ ∀ v ∈ values, InBounds lo hi v) →
      ∃ s, (NumVar.mk l l.prod lo hi).init values = .ok s ∧ s.buffer = values) ∧
    (¬((values.length : Int) = l.prod ∧ ∀ v ∈ values, InBounds lo hi v) → (NumVar.mk l l.prod lo hi).init values = .throw) := by
  have hp := (prod_span h0).1
  rw [NumVar.init, guardThrow_true hp, Res.ok_bind]
  have he : (values.length : Int) = l.prod ↔ values.length = l.prod.toNat := by omega
  rw [he]
  exact C09_init_accepts_iff ⟨l.prod.toNat, lo, hi⟩ values

example : ∃ s, (NumVar.mk [2] 2 (-1) 3).init [-1, 3] = .ok s ∧ s.buffer = [-1, 3] :=
  (C82_states (l := [2]) (by simp) (-1) 3 [-1, 3]).1 ⟨rfl, by
    simp only [List.mem_cons, List.not_mem_nil, or_false, forall_eq_or_imp, forall_eq]
    exact ⟨⟨-1, by norm_num, by norm_num, by norm_num⟩, 3, by norm_num, by norm_num, by norm_num⟩⟩

/-- **C82**: such a variable does not count as an array of changing size. -/
theorem C82_fixed {l : List Int} (h0 : ∀ d ∈ l, 0 ≤ d) (lo hi : Int) : (NumVar.mk l l.prod lo hi).dynamic = false := by
  have hp := (prod_span h0).1
  simp only [NumVar.dynamic, sizeChanges]
  exact decide_eq_false (by omega)

example : (NumVar.mk [2, 0] 0 0 1).dynamic = false := C82_fixed (l := [2, 0]) (by simp) 0 1

/-- **C82 fails**: a fraction as a bound is cut at the point.  With the lower bound 1/2 the variable may be 0, which is less. -/
theorem C82_fraction_fails : pyInteger .none (.number (1 / 2)) .none = .ok ⟨[], 1, 0, 2000000000⟩ ∧
    ∃ s, (NumVar.mk [] 1 0 2000000000).init [0] = .ok s ∧ s.buffer = [0] := by
  refine ⟨by decide +kernel, ?_⟩
  exact (C82_states (l := []) (by simp) 0 2000000000 [0]).1 ⟨rfl, by simpa using ⟨0, by norm_num, by norm_num, by norm_num⟩⟩

/-- **C82 fails**: bounds of more than 32 bits do not raise an exception, although they exceed the supported range; converting them is
undefined. -/
theorem C82_range_fails {k : Int} (h : 2 ^ 31 ≤ k) (lower : BoundArg) (hl : lower.Whole) (ho : lower ≠ .other) :
    pyInteger .none lower (.number k) = .ub ∧ pyInteger .none lower .nonfinite = .ub := by
  rcases bound_cases 0 lower hl with ⟨d, o, j, e1, e2, _⟩ | ⟨e1, e4⟩
  · have e : ((k : Rat)).num.tdiv ((k : Rat)).den = k := by simp
    unfold pyInteger
    constructor
    · rw [show ShapeArg.none.convert = .ok [] from rfl, Res.ok_bind, e1, Res.ok_bind, show (BoundArg.number k).toDouble = .ok (some (some (k : Rat))) from rfl, Res.ok_bind, e2, Res.ok_bind, boundToInt, truncIntc, e, guardUB,
        if_neg (by omega)]
      rfl
    · rw [show ShapeArg.none.convert = .ok [] from rfl, Res.ok_bind, e1, Res.ok_bind, show BoundArg.nonfinite.toDouble = .ok (some Option.none) from rfl, Res.ok_bind, e2, Res.ok_bind]
      rfl
  · exfalso
    cases lower with
    | none => exact e4 0 rfl
    | number r => cases e1
    | nonfinite => exact hl
    | other => exact ho rfl

/-- **C82 fails**: the number of elements is kept in 32 bits.  A matrix of 2^16 rows and columns has none, and its states are empty; a vector
of 2^31 elements has a negative number of them, so that it counts as an array of changing size, and no state. -/
theorem C82_size_fails : pyBinary (.sequence [some (2 ^ 16), some (2 ^ 16)]) = .ok ⟨[2 ^ 16, 2 ^ 16], 0, 0, 1⟩ ∧
    (∃ s, (NumVar.mk [2 ^ 16, 2 ^ 16] 0 0 1).init [] = .ok s) ∧
    pyBinary (.int (2 ^ 31)) = .ok ⟨[2 ^ 31], -2 ^ 31, 0, 1⟩ ∧ (NumVar.mk [2 ^ 31] (-2 ^ 31) 0 1).dynamic = true ∧
    ∀ values, (NumVar.mk [2 ^ 31] (-2 ^ 31) 0 1).init values = .throw := by
  refine ⟨by decide +kernel, ⟨ArrayState.mk' [], by decide +kernel⟩, by decide +kernel, by decide, fun values => ?_⟩
  rw [NumVar.init, guardThrow, if_neg (by norm_num), Res.throw_bind]

/-- In general the number of elements is right up to multiples of 2^32. -/
theorem C82_size {shape : List Int} (h : ∀ d ∈ shape, 0 ≤ d ∧ d < 2 ^ 31) : ∃ n, cppSize shape = .ok n ∧ n ≡ shape.prod [ZMOD 2 ^ 32] ∧
    -2 ^ 31 ≤ n ∧ n < 2 ^ 31 := by
  have key : ∀ {acc : Int}, -2 ^ 31 ≤ acc ∧ acc < 2 ^ 31 → ∃ n, reduceShape acc shape = .ok n ∧ n ≡ acc * shape.prod [ZMOD 2 ^ 32] ∧
      -2 ^ 31 ≤ n ∧ n < 2 ^ 31 := by
    induction shape with
    | nil => intro acc ha; exact ⟨acc, rfl, by simp [Int.ModEq], ha.1, ha.2⟩
    | cons d shape ih =>
      intro acc ha
      obtain ⟨h1, h2⟩ := h d (by simp)
      have hb : -2 ^ 31 ≤ toIntc (acc * d) ∧ toIntc (acc * d) < 2 ^ 31 := by
        unfold toIntc
        have a := Int.le_bmod (x := acc * d) (m := 2 ^ 32) (by norm_num)
        have b := Int.bmod_lt (x := acc * d) (m := 2 ^ 32) (by norm_num)
        norm_num at a b ⊢
        exact ⟨a, b⟩
      obtain ⟨n, e, hm, hn⟩ := ih (fun e he => h e (by simp [he])) hb
      refine ⟨n, ?_, ?_, hn⟩
      · rw [reduceShape, guardUB_true ⟨by nlinarith, by nlinarith⟩, Res.ok_bind, e]
      · rw [List.prod_cons, ← mul_assoc]
        refine hm.trans (Int.ModEq.mul_right _ ?_)
        unfold toIntc Int.ModEq
        exact_mod_cast Int.bmod_emod
  cases shape with
  | nil => exact ⟨1, rfl, rfl, by norm_num, by norm_num⟩
  | cons d shape =>
    rw [cppSize, if_neg (by have := (h d (by simp)).1; omega)]
    simpa using key (acc := 1) (by norm_num)

end Verif
