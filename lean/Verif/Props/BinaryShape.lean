import Verif.Props.Binary
import Verif.Props.WhereShape
import Verif.Lemmas.Catalog
import Verif.Model.Nodes.BinaryShape

/-!
# C23: what element-wise binary symbols say about their size and shape
-/

set_option linter.unusedSectionVars false

namespace Verif

variable {α : Type} [DecidableEq α] [Inhabited α]

namespace BinarySizes

theorem ones {l : List Int} (hg : GoodShape l) (h1 : sizeOne l = true) : ∀ d ∈ l, d = 1 := by
  simp only [sizeOne, Bool.and_eq_true, Bool.not_eq_true', decide_eq_true_eq] at h1
  refine prod_one_of_nonneg ?_ h1.2
  intro d hd
  cases l with
  | nil => cases hd
  | cons e l =>
    have := h1.1
    simp only [dynamicShape, decide_eq_false_iff_not, not_lt] at this
    rcases List.mem_cons.1 hd with rfl | hd
    · exact this
    · exact hg.1 d (by simpa using hd)

/-- Ones in front do not make an array dynamic. -/
theorem padded {k : Nat} {s : List Int} (h : dynamicShape (List.replicate k 1 ++ s) = true) : List.replicate k 1 ++ s = s := by
  cases k with
  | zero => rfl
  | succ k => simp [List.replicate_succ, dynamicShape] at h

/-- A symbol of changing size has one operand of one element, and the shape of the other. -/
theorem dynamic {ls rs shape : List Int} (h : BinaryShapes ls rs shape) (gl : GoodShape ls) (gr : GoodShape rs)
    (hd : dynamicShape shape = true) :
    (sizeOne ls = true ∧ shape = rs) ∨ (sizeOne ls = false ∧ sizeOne rs = true ∧ shape = ls) := by
  obtain ⟨t, ht, hg⟩ := Res.bind_eq_ok.1 h.accepted
  obtain ⟨_, hc, he⟩ := Res.bind_eq_ok.1 hg
  have hc := guardThrow_eq_ok.1 hc
  simp only [Res.ok.injEq] at he
  subst he
  obtain ⟨u, hu, he⟩ := Res.bind_eq_ok.1 ht
  simp only [Res.ok.injEq] at he
  subst he
  by_cases h1 : sizeOne ls = true
  · have hs := broadcastRev_ones (by intro d hd; exact ones gl h1 d (by simpa using hd)) hu
    have hs' : u.reverse = List.replicate (ls.length - rs.length) 1 ++ rs := by rw [hs]; simp
    rw [hs'] at hd ⊢
    exact Or.inl ⟨h1, padded hd⟩
  · by_cases h2 : sizeOne rs = true
    · have hs := broadcastRev_ones (by intro d hd; exact ones gr h2 d (by simpa using hd)) (broadcastRev_comm hu)
      have hs' : u.reverse = List.replicate (rs.length - ls.length) 1 ++ ls := by rw [hs]; simp
      rw [hs'] at hd ⊢
      exact Or.inr ⟨by simpa using h1, h2, padded hd⟩
    · obtain ⟨h3, h4⟩ := (hc.resolve_left h1).resolve_left h2
      subst h4
      have := broadcastRev_self hu
      rw [this, List.reverse_reverse] at hd
      exact absurd (Or.inl hd) h3

end BinarySizes

/-- C23: the size that `x + y` (or any other element-wise operation) reports is the number of its values, for the shapes of
`C23_binary_partial`. -/
theorem C23_size_partial (func : Rat → Rat → Rat) {ls rs shape : List Int} (h : BinaryShapes ls rs shape) (gl : GoodShape ls)
    (gr : GoodShape rs) {l r : Arr Rat} (hl : l.shape = ls) (hr : r.shape = rs) (wl : l.WF) (wr : r.WF) :
    binarySizeNow shape (.true l) (.true r) = .ok (binaryValue func l r).length := by
  unfold binarySizeNow
  cases hd : dynamicShape shape with
  | false =>
    have := (binary_out (func := func) h gl gr hl hr wl wr).length_fixed hd
    rw [WhereSizes.size_fixed hd]
    simp only at this
    rw [← this, if_pos (by omega)]
  | true =>
    rw [WhereSizes.size_dynamic hd, if_neg (by decide)]
    unfold binaryValue
    show (do
      guardUB (l.data.length = 1 ∨ r.data.length = 1)
      Res.ok (if l.data.length = 1 then (r.data.length : Int) else l.data.length)) = _
    rcases BinarySizes.dynamic h gl gr hd with ⟨h1, _⟩ | ⟨h1, h2, _⟩
    · obtain ⟨v, hv⟩ := sizeOne_data (a := l) (by rw [hl]; exact h1) wl
      rw [guardUB_true (Or.inl (by rw [hv]; rfl)), Res.ok_bind, hl, if_pos h1, if_pos (by rw [hv]; rfl), List.length_map]
    · obtain ⟨v, hv⟩ := sizeOne_data (a := r) (by rw [hr]; exact h2) wr
      rw [guardUB_true (Or.inr (by rw [hv]; rfl)), Res.ok_bind, hl, hr, if_neg (show ¬ sizeOne ls = true by rw [h1]; decide), if_pos h2, List.length_map]
      split_ifs with h3
      · rw [h3, hv]; rfl
      · rfl

/-- C23: the shape that `x + y` reports is that of its values, unless its left operand is of changing size and has one element at
present (see `C23_shape_fails`). -/
theorem C23_shape_partial (func : Rat → Rat → Rat) {ls rs shape : List Int} (h : BinaryShapes ls rs shape) (gl : GoodShape ls)
    (gr : GoodShape rs) {l r : Arr Rat} (hl : l.shape = ls) (hr : r.shape = rs) (wl : l.WF) (wr : r.WF)
    (hone : dynamicShape ls = true → l.data.length ≠ 1) :
    binaryShapeNow shape (.true l) (.true r) = .ok (Arr.mk shape (binaryValue func l r)).shapeNow := by
  unfold binaryShapeNow
  cases hd : dynamicShape shape with
  | false => simp only [if_true, Arr.shapeNow, Arr.dynamic, hd, Bool.false_eq_true, if_false]
  | true =>
    rw [if_neg (by decide)]
    unfold binaryValue
    show (do
      guardUB (l.data.length = 1 ∨ r.data.length = 1)
      Res.ok (if l.data.length = 1 then r.shapeNow else l.shapeNow)) = _
    rcases BinarySizes.dynamic h gl gr hd with ⟨h1, h2⟩ | ⟨h1, h2, h3⟩
    · obtain ⟨v, hv⟩ := sizeOne_data (a := l) (by rw [hl]; exact h1) wl
      rw [guardUB_true (Or.inl (by rw [hv]; rfl)), Res.ok_bind, hl, if_pos h1, if_pos (by rw [hv]; rfl)]
      simp only [Arr.shapeNow, Arr.dynamic, List.length_map, h2, hr]
    · obtain ⟨v, hv⟩ := sizeOne_data (a := r) (by rw [hr]; exact h2) wr
      rw [guardUB_true (Or.inr (by rw [hv]; rfl)), Res.ok_bind, hl, hr, if_neg (show ¬ sizeOne ls = true by rw [h1]; decide), if_pos h2,
        if_neg (hone (by rw [← h3]; exact hd))]
      simp only [Arr.shapeNow, Arr.dynamic, List.length_map, h3, hl]

/-- With operands that report the shapes of their values the symbol follows changes as `binaryNode` says. -/
theorem binaryPropagate_reported (func : α → α → α) (s : ArrayState α) (l r : Arr α) (dl dr : List (Update α)) :
    binaryPropagateReported func s (.true l) dl (.true r) dr = binaryPropagate func s [(l, dl), (r, dr)] := rfl

example : BinaryShapes [-1] [] [-1] ∧ binaryShapeNow [-1] (.true (⟨[-1], [5, 6]⟩ : Arr Rat)) (.true ⟨[], [1]⟩) = .ok [2] ∧
    binarySizeNow [-1] (.true (⟨[-1], [5, 6]⟩ : Arr Rat)) (.true ⟨[], [1]⟩) = .ok 2 := by decide +kernel

/-- **C23 fails**: `x + 1`, with `x` a set that has one element at present, reports the shape `()` of the number 1, and not `(1,)`.  It
still counts as an array of one dimension, so that a reader of this dimension reads beyond the shape. -/
theorem C23_shape_fails :
    binaryShape [-1] [] = .ok [-1] ∧ (Arr.WF (⟨[-1], [5]⟩ : Arr Rat) ∧ Arr.WF (⟨[], [1]⟩ : Arr Rat)) ∧
    binaryShapeNow [-1] (.true (⟨[-1], [5]⟩ : Arr Rat)) (.true ⟨[], [1]⟩) = .ok [] ∧
    (Arr.mk [-1] (binaryValue (· + ·) (⟨[-1], [5]⟩ : Arr Rat) ⟨[], [1]⟩)).shapeNow = [1] := by
  refine ⟨by decide, ⟨?_, ?_⟩, ?_, ?_⟩ <;> decide +kernel

/-- **C23 fails**: `(x + 1) + 1`, with `x` a set that shrinks from two elements to one.  `x + 1` follows and reports the removal of its
second element, and the shape `()`.  This is the shape of the number 1, so that the outer symbol takes the removal for a change in two
arrays of the same shape, and reads beyond the number. -/
theorem C23_chain_fails : ∃ s t : ArrayState Rat,
    (binaryNode (· + ·) [-1] [] [-1]).init [⟨[-1], [5, 6]⟩, ⟨[], [1]⟩] = .ok s ∧
    (binaryNode (· + ·) [-1] [] [-1]).propagate s [(⟨[-1], [5]⟩, [Update.removal 1 6]), (⟨[], [1]⟩, [])] = .ok t ∧
    ArrRel (⟨[-1], [6, 7]⟩ : Arr Rat) t.updates ⟨[-1], [6]⟩ ∧
    ∃ shape u, binaryShapeNow [-1] (.true (⟨[-1], [5]⟩ : Arr Rat)) (.true ⟨[], [1]⟩) = .ok shape ∧
      (binaryNode (· + ·) [-1] [] [-1]).init [⟨[-1], [6, 7]⟩, ⟨[], [1]⟩] = .ok u ∧
      binaryPropagateReported (· + ·) u ⟨⟨[-1], [6]⟩, shape⟩ t.updates (.true ⟨[], [1]⟩) [] = .ub := by
  refine ⟨_, _, rfl, rfl, ?_, _, _, rfl, rfl, ?_⟩ <;> decide +kernel

/-- The reach of the failure: what an operand reports matters only where it makes different shapes look equal or equal shapes look
different.  Everywhere else the symbol follows changes as `binaryNode` says. -/
theorem binaryPropagate_reach (func : α → α → α) (s : ArrayState α) (l r : Reporting α) (dl dr : List (Update α))
    (h : l.shape = r.shape ↔ l.value.shapeNow = r.value.shapeNow) :
    binaryPropagateReported func s l dl r dr = binaryPropagate func s [(l.value, dl), (r.value, dr)] := by
  rw [← binaryPropagate_reported]
  unfold binaryPropagateReported
  by_cases hs : l.shape = r.shape
  · rw [if_pos hs, if_pos (show (Reporting.true l.value).shape = (Reporting.true r.value).shape from h.1 hs)]
    rfl
  · rw [if_neg hs, if_neg (show ¬ (Reporting.true l.value).shape = (Reporting.true r.value).shape from fun e => hs (h.2 e))]
    rfl

/-- An operand that reports `()` with one element, next to an array of three rows. -/
example : ([] : List Int) = (Reporting.true (⟨[3], [1, 2, 3]⟩ : Arr Rat)).shape ↔
    (⟨[-1], [6]⟩ : Arr Rat).shapeNow = (⟨[3], [1, 2, 3]⟩ : Arr Rat).shapeNow := by decide +kernel

/-- A slice of an array of changing size is fitted to its number of rows, when the array reports the shape of its values. -/
theorem rowsReported_true {a : Arr α} (h : a.dynamic = true) : rowsReported (.true a) = .ok a.shapeNow.head! := by
  obtain ⟨shape, data⟩ := a
  cases shape with
  | nil => simp [Arr.dynamic, dynamicShape] at h
  | cons d shape =>
    simp only [rowsReported, Reporting.true, Arr.shapeNow, h, if_true]
    rfl

/-- **C23 fails**: `(x + 1)[1:]`, with `x` a set that has one element at present.  The slice asks `x + 1` for its number of rows, and reads
beyond the shape that it gets. -/
theorem C23_slice_fails : ∃ shape, binaryShapeNow [-1] (.true (⟨[-1], [5]⟩ : Arr Rat)) (.true ⟨[], [1]⟩) = .ok shape ∧
    binaryValue (· + ·) (⟨[-1], [5]⟩ : Arr Rat) ⟨[], [1]⟩ = [6] ∧ rowsReported (⟨⟨[-1], [6]⟩, shape⟩ : Reporting Rat) = .ub ∧
    rowsReported (.true (⟨[-1], [6]⟩ : Arr Rat)) = .ok 1 := by
  refine ⟨[], ?_, ?_, ?_, ?_⟩ <;> decide +kernel

end Verif
