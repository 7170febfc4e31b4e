import Verif.Model.Bounds
import Verif.Props.Bounds
import Verif.Props.BoundsReduce
import Mathlib.Tactic.Ring
import Mathlib.Tactic.Linarith
import Mathlib.Tactic.SplitIfs

set_option linter.unusedSectionVars false
set_option linter.unusedSimpArgs false
set_option linter.unusedVariables false

/-!
# C37: symbols declared integral have integer values
-/

namespace Verif

theorem IsInt.ofInt (k : Int) : IsInt (k : Rat) := ⟨k, rfl⟩
theorem IsInt.zero : IsInt 0 := ⟨0, by simp⟩
theorem IsInt.one : IsInt 1 := ⟨1, by simp⟩
theorem IsInt.neg {x : Rat} (h : IsInt x) : IsInt (-x) := by
  obtain ⟨k, rfl⟩ := h; exact ⟨-k, by simp⟩
theorem IsInt.add {x y : Rat} (h : IsInt x) (h' : IsInt y) : IsInt (x + y) := by
  obtain ⟨k, rfl⟩ := h; obtain ⟨l, rfl⟩ := h'; exact ⟨k + l, by simp⟩
theorem IsInt.sub {x y : Rat} (h : IsInt x) (h' : IsInt y) : IsInt (x - y) := by
  obtain ⟨k, rfl⟩ := h; obtain ⟨l, rfl⟩ := h'; exact ⟨k - l, by simp⟩
theorem IsInt.mul {x y : Rat} (h : IsInt x) (h' : IsInt y) : IsInt (x * y) := by
  obtain ⟨k, rfl⟩ := h; obtain ⟨l, rfl⟩ := h'; exact ⟨k * l, by simp⟩
theorem IsInt.ite {c : Prop} [Decidable c] {x y : Rat} (h : IsInt x) (h' : IsInt y) :
    IsInt (if c then x else y) := by split_ifs; exacts [h, h']
theorem IsInt.ofBool (b : Bool) : IsInt (ofBool b) := by
  simp only [Verif.ofBool]; exact IsInt.ite IsInt.one IsInt.zero
theorem IsInt.max {x y : Rat} (h : IsInt x) (h' : IsInt y) : IsInt (max x y) := by
  rcases max_choice x y with e | e <;> rw [e] <;> assumption
theorem IsInt.min {x y : Rat} (h : IsInt x) (h' : IsInt y) : IsInt (min x y) := by
  rcases min_choice x y with e | e <;> rw [e] <;> assumption

theorem isInt_of_isInteger {x : Rat} (h : isInteger x = true) : IsInt x := by
  simp only [isInteger, decide_eq_true_eq] at h
  exact ⟨truncate x, h⟩

theorem isInteger_of_isInt {x : Rat} (h : IsInt x) : isInteger x = true := by
  obtain ⟨k, rfl⟩ := h
  simp only [isInteger, decide_eq_true_eq, truncate]
  split_ifs <;> simp

/-- `is_integer` decides integrality. -/
theorem C37_isInteger (x : Rat) : isInteger x = true ↔ IsInt x :=
  ⟨isInt_of_isInteger, isInteger_of_isInt⟩

/-- C37, unary symbols. -/
theorem C37_unary {op : UnaryOp} {i : Bool} {x : Rat} (hi : op.integral i = true) (hx : i = true → IsInt x) :
    IsInt (op.func x) := by
  cases op with
  | absolute => exact IsInt.ite (hx hi).neg (hx hi)
  | negative => exact (hx hi).neg
  | square => exact (hx hi).mul (hx hi)
  | squareRoot root => simp [UnaryOp.integral] at hi
  | logical => exact IsInt.ofBool _
  | not => exact IsInt.ofBool _

theorem IsInt.modulus {x y : Rat} (h : IsInt x) (h' : IsInt y) : IsInt (modulus x y) := by
  have hf : IsInt (fmod x y) := h.sub ((IsInt.ofInt _).mul h')
  exact IsInt.ite IsInt.zero (IsInt.ite (hf.add h') hf)

/-- C37, binary symbols. -/
theorem C37_binary {op : BinaryOp} {i j : Bool} {x y : Rat} (hi : op.integral i j = true)
    (hx : i = true → IsInt x) (hy : j = true → IsInt y) : IsInt (op.func x y) := by
  cases op with
  | divide => simp [BinaryOp.integral] at hi
  | add => simp only [BinaryOp.integral, Bool.and_eq_true] at hi; exact (hx hi.1).add (hy hi.2)
  | subtract => simp only [BinaryOp.integral, Bool.and_eq_true] at hi; exact (hx hi.1).sub (hy hi.2)
  | multiply => simp only [BinaryOp.integral, Bool.and_eq_true] at hi; exact (hx hi.1).mul (hy hi.2)
  | modulus => simp only [BinaryOp.integral, Bool.and_eq_true] at hi; exact (hx hi.1).modulus (hy hi.2)
  | maximum =>
    simp only [BinaryOp.integral, Bool.and_eq_true] at hi
    exact IsInt.ite (hy hi.2) (hx hi.1)
  | minimum =>
    simp only [BinaryOp.integral, Bool.and_eq_true] at hi
    exact IsInt.ite (hy hi.2) (hx hi.1)
  | and => exact IsInt.ofBool _
  | or => exact IsInt.ofBool _
  | xor => exact IsInt.ofBool _
  | equal => exact IsInt.ofBool _
  | lessEqual => exact IsInt.ofBool _

theorem IsInt.foldl {f : Rat → Rat → Rat} (hf : ∀ x y, IsInt x → IsInt y → IsInt (f x y)) (xs : List Rat)
    (hxs : ∀ x ∈ xs, IsInt x) (b : Rat) (hb : IsInt b) : IsInt (xs.foldl f b) := by
  induction xs generalizing b with
  | nil => exact hb
  | cons x xs ih => exact ih (fun y hy => hxs y (by simp [hy])) _ (hf _ _ hb (hxs x (by simp)))

theorem NaryOp.func_isInt (op : NaryOp) {x y : Rat} (hx : IsInt x) (hy : IsInt y) : IsInt (op.func x y) := by
  cases op with
  | add => exact hx.add hy
  | multiply => exact hx.mul hy
  | maximum => exact hx.max hy
  | minimum => exact hx.min hy

/-- C37, n-ary symbols. -/
theorem C37_nary {op : NaryOp} {is : List Bool} {xs : List Rat} (hi : op.integral is = true)
    (h : List.Forall₂ (fun i x => i = true → IsInt x) is xs) : IsInt (naryAt op xs) := by
  have hall : ∀ x ∈ xs, IsInt x := by
    simp only [NaryOp.integral, List.all_eq_true, id] at hi
    induction h with
    | nil => simp
    | cons hx _ ih =>
      intro x hm
      rcases List.mem_cons.1 hm with rfl | hm
      · exact hx (hi _ (by simp))
      · exact ih (fun i hm => hi i (by simp [hm])) x hm
  cases xs with
  | nil => exact IsInt.zero
  | cons x xs =>
    exact IsInt.foldl (fun a b ha hb => op.func_isInt hb ha) xs (fun y hy => hall y (by simp [hy])) x
      (hall x (by simp))

theorem IsInt.sum {xs : List Rat} (h : ∀ x ∈ xs, IsInt x) : IsInt xs.sum := by
  induction xs with
  | nil => exact IsInt.zero
  | cons x xs ih =>
    rw [List.sum_cons]
    exact (h x (by simp)).add (ih fun y hy => h y (by simp [hy]))

theorem IsInt.prod {xs : List Rat} (h : ∀ x ∈ xs, IsInt x) : IsInt xs.prod := by
  induction xs with
  | nil => exact IsInt.one
  | cons x xs ih =>
    rw [List.prod_cons]
    exact (h x (by simp)).mul (ih fun y hy => h y (by simp [hy]))

/-- C37, reductions. -/
theorem C37_reduce {op : ReduceOp} {init : Rat} {i : Bool} {xs : List Rat} (hi : op.integral init i = true)
    (hxs : i = true → ∀ x ∈ xs, IsInt x) : IsInt (reduceValue op init xs) := by
  cases op with
  | all => exact IsInt.ite IsInt.one IsInt.zero
  | any => exact IsInt.ite IsInt.one IsInt.zero
  | sum =>
    simp only [ReduceOp.integral, Bool.and_eq_true] at hi
    exact (isInt_of_isInteger hi.2).add (IsInt.sum (hxs hi.1))
  | prod =>
    simp only [ReduceOp.integral, Bool.and_eq_true] at hi
    exact (isInt_of_isInteger hi.2).mul (IsInt.prod (hxs hi.1))

/-- C37, greatest and least elements. -/
theorem C37_extreme {op : FoldOp} {init : Option Rat} {i : Bool} {xs : List Rat}
    (hi : FoldOp.integral init i = true) (hxs : i = true → ∀ x ∈ xs, IsInt x) :
    IsInt (extremeValue op init xs) := by
  simp only [FoldOp.integral, Bool.and_eq_true] at hi
  have hxs := hxs hi.1
  have key : ∀ f : Rat → Rat → Rat, (∀ x y, IsInt x → IsInt y → IsInt (f x y)) →
      IsInt (foldValue f init xs) := by
    intro f hf
    cases init with
    | some a => exact IsInt.foldl hf xs hxs a (isInt_of_isInteger hi.2)
    | none =>
      cases xs with
      | nil => exact IsInt.zero
      | cons x xs => exact IsInt.foldl hf xs (fun y hy => hxs y (by simp [hy])) x (hxs x (by simp))
  cases op with
  | max => exact key _ fun _ _ => IsInt.max
  | min => exact key _ fun _ _ => IsInt.min

/-- C37, partial sums. -/
theorem C37_partialSum {init : Rat} {i : Bool} {xs : List Rat} (hi : partialSumIntegral init i = true)
    (hxs : i = true → ∀ x ∈ xs, IsInt x) : IsInt (init + xs.sum) := by
  simp only [partialSumIntegral, Bool.and_eq_true] at hi
  exact (isInt_of_isInteger hi.2).add (IsInt.sum (hxs hi.1))

/-- C37, selection. -/
theorem C37_where {i j : Bool} {x y : Rat} (hi : whereIntegral i j = true) (hx : i = true → IsInt x)
    (hy : j = true → IsInt y) (c : Bool) : IsInt (if c then x else y) := by
  simp only [whereIntegral, Bool.and_eq_true] at hi
  exact IsInt.ite (hx hi.1) (hy hi.2)

/-- Integers under a sum with an initial value that is an integer, or is not. -/
example : ReduceOp.integral .sum (-3) true = true ∧ ReduceOp.integral .sum (1 / 2) true = false ∧
    BinaryOp.integral .divide true true = false ∧ UnaryOp.integral .square true = true := by
  decide +kernel

end Verif
