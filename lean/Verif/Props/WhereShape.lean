import Verif.Props.Where
import Verif.Model.Nodes.WhereShape

/-!
# C27: what `where` says about its size and shape
-/

namespace Verif

namespace WhereSizes

theorem size_fixed {shape : List Int} (h : dynamicShape shape = false) : shapeToSize shape = shape.prod := by
  cases shape with
  | nil => rfl
  | cons d shape =>
    have hd : ¬ d < 0 := by simpa [dynamicShape] using h
    have key : ∀ (l : List Int) (a : Int), l.foldl (· * ·) a = a * l.prod := by
      intro l
      induction l with
      | nil => intro a; simp
      | cons b l ih => intro a; rw [List.foldl_cons, ih, List.prod_cons, Int.mul_assoc]
    simp only [shapeToSize, if_neg hd, key, List.prod_cons, Int.one_mul]

theorem size_dynamic {shape : List Int} (h : dynamicShape shape = true) : shapeToSize shape = -1 := by
  cases shape with
  | nil => cases h
  | cons d shape =>
    have hd : d < 0 := by simpa [dynamicShape] using h
    simp only [shapeToSize, if_pos hd]

theorem value_length {cshape shape : List Int} {xs : List (Arr Rat)} (hd : dynamicShape shape = false)
    (h : xs.map Arr.shape = [cshape, shape, shape] ∧ ∀ x ∈ xs, x.WF) :
    ((whereValue cshape xs).length : Int) = shape.prod := by
  obtain ⟨c, x, y, rfl, _, hx, hy⟩ := map_shape_three h.1
  have hwx := (h.2 x (by simp)).length_fixed (by rw [hx]; exact hd)
  have hwy := (h.2 y (by simp)).length_fixed (by rw [hy]; exact hd)
  rw [hx] at hwx
  rw [hy] at hwy
  unfold whereValue
  dsimp only
  split_ifs
  · exact hwx
  · exact hwy
  · rw [List.length_map, List.length_range]
    exact hwx

theorem clean_after {V D : Type} {rel : V → D → V → Prop} {quiet : D} {N : NodeSem V D} (C : Contract rel quiet N) :
    ∀ {xs rounds zs}, Legal rel N.ok xs rounds zs → ∀ s, N.ok xs → C.Clean s xs →
      ∃ s', rounds.foldlM N.round s = .ok s' ∧ C.Clean s' zs ∧ N.ok zs := by
  intro xs rounds zs hl
  induction hl with
  | nil => intro s ho hc; exact ⟨s, rfl, hc, ho⟩
  | cons hi hy _ ih =>
    rename_i xs ys zs r rs _
    intro s ho hc
    obtain ⟨s1, e1, _, _, ⟨c, ec, hcc⟩, ⟨b, eb, hcb⟩⟩ := C.propagate hc ho hy hi
    cases hr : r.accept with
    | true =>
      rw [hr] at ih
      obtain ⟨s', e', h'⟩ := ih c hy hcc
      refine ⟨s', ?_, h'⟩
      simp only [List.foldlM_cons, NodeSem.round, e1, Res.ok_bind, hr, if_true, ec]
      exact e'
    | false =>
      rw [hr] at ih
      obtain ⟨s', e', h'⟩ := ih b ho hcb
      refine ⟨s', ?_, h'⟩
      simp only [List.foldlM_cons, NodeSem.round, e1, Res.ok_bind, hr, eb]
      exact e'

/-- Size and shape are those of the values. -/
theorem agrees {cshape shape : List Int} {xs : List (Arr Rat)} {s : ArrayState Rat} (hs : WhereShapes cshape shape)
    (h : xs.map Arr.shape = [cshape, shape, shape] ∧ ∀ x ∈ xs, x.WF) (hb : s.buffer = whereValue cshape xs) :
    whereShapeNow cshape shape xs = .ok (Arr.mk shape (whereValue cshape xs)).shapeNow ∧
      whereSizeNow cshape shape s xs = .ok (whereValue cshape xs).length := by
  cases hd : dynamicShape shape with
  | false =>
    have hl := value_length hd h
    obtain ⟨c, x, y, rfl, _, _, _⟩ := map_shape_three h.1
    constructor
    · simp only [whereShapeNow, hd, if_true, Arr.shapeNow, Arr.dynamic, Bool.false_eq_true, if_false]
    · simp only [whereSizeNow]
      rw [size_fixed hd, ← hl, if_pos (by omega)]
  | true =>
    have hone : sizeOne cshape = true := hs.resolve_right fun hx => by rw [hx.2] at hd; cases hd
    obtain ⟨c, x, y, rfl, hc, hx, hy⟩ := map_shape_three h.1
    obtain ⟨v, hv, _⟩ := sizeOne_spec (by rw [hc]; exact hone) (h.2 c (by simp))
    have hf : c.front = .ok v := by simp [Arr.front, Arr.read, hv]
    have hval : whereValue cshape [c, x, y] = if v ≠ 0 then x.data else y.data := by
      unfold whereValue
      dsimp only
      rw [if_pos hone, hv]
      rfl
    rw [hval] at hb
    rw [hval]
    constructor
    · simp only [whereShapeNow, hd, Bool.true_eq_false, if_false]
      rw [guardUB_true hone, Res.ok_bind, hf, Res.ok_bind]
      split_ifs
      · rw [← hx]
      · rw [← hy]
    · simp only [whereSizeNow]
      rw [size_dynamic hd, if_neg (by decide), guardUB_true hone, Res.ok_bind, hf, Res.ok_bind]
      split_ifs at hb ⊢ <;> rw [guardUB_true (by rw [hb]), Res.ok_bind]

end WhereSizes

/-- C27: after every history, and while a further change of the operands is pending, `where` reports the size and shape of the array it
shows, although it asks its operands for them (no assertion fails), and the change of size that it reports is the true one. -/
theorem C27_sizes (cshape shape : List Int) (hs : whereShape cshape shape shape = .ok shape) {xs0 xs : List (Arr Rat)}
    (h0 : xs0.map Arr.shape = [cshape, shape, shape] ∧ ∀ x ∈ xs0, x.WF) {rounds : List (Round (Arr Rat) (List (Update Rat)))}
    (hl : Legal ArrRel (fun xs => xs.map Arr.shape = [cshape, shape, shape] ∧ ∀ x ∈ xs, x.WF) xs0 rounds xs) :
    ∃ s0 s, (whereNode cshape shape).init xs0 = .ok s0 ∧ rounds.foldlM (whereNode cshape shape).round s0 = .ok s ∧
      whereShapeNow cshape shape xs = .ok ((whereNode cshape shape).view s).shapeNow ∧
      whereSizeNow cshape shape s xs = .ok ((whereNode cshape shape).view s).data.length ∧ whereSizeDiff shape s = 0 ∧
      ∀ ins ys, Ins ArrRel xs ins ys → (ys.map Arr.shape = [cshape, shape, shape] ∧ ∀ x ∈ ys, x.WF) →
        ∃ s', (whereNode cshape shape).propagate s ins = .ok s' ∧
          whereShapeNow cshape shape ys = .ok ((whereNode cshape shape).view s').shapeNow ∧
          whereSizeNow cshape shape s' ys = .ok ((whereNode cshape shape).view s').data.length ∧
          whereSizeDiff shape s' =
            ((whereNode cshape shape).view s').data.length - ((whereNode cshape shape).view s).data.length := by
  have hw := whereShape_ok hs
  let C := whereContract cshape shape hw
  obtain ⟨s0, e0, c0⟩ := C.init h0
  obtain ⟨s, e, c, ho⟩ := WhereSizes.clean_after C hl s0 h0 c0
  have hc : s = ArrayState.mk' (whereValue cshape xs) := c
  obtain ⟨a1, a2⟩ := WhereSizes.agrees (s := s) hw ho (by rw [hc]; rfl)
  refine ⟨s0, s, e0, e, ?_, ?_, ?_, fun ins ys hi hy => ?_⟩
  · rw [a1, hc]; rfl
  · rw [a2, hc]; rfl
  · rw [hc]
    unfold whereSizeDiff
    split_ifs
    · rfl
    · simp [ArrayState.sizeDiff, ArrayState.mk']
  · obtain ⟨s', e', hv, _, _, ⟨r, er, hr⟩⟩ := C.propagate c ho hy hi
    have hb : s'.buffer = whereValue cshape ys := congrArg Arr.data hv
    have hr' : s'.revert = ArrayState.mk' (whereValue cshape xs) := (Res.ok.inj er).trans hr
    have hp : s'.prevSize = (whereValue cshape xs).length := congrArg ArrayState.prevSize hr'
    obtain ⟨b1, b2⟩ := WhereSizes.agrees (s := s') hw hy hb
    refine ⟨s', e', ?_, ?_, ?_⟩
    · rw [b1, hv]
    · rw [b2, hv]
    · rw [hv, hc]
      show whereSizeDiff shape s' = ((whereValue cshape ys).length : Int) - (whereValue cshape xs).length
      unfold whereSizeDiff
      split_ifs with hd
      · rw [WhereSizes.value_length hd ho, WhereSizes.value_length hd hy, Int.sub_self]
      · rw [ArrayState.sizeDiff, hb, hp]

/-- A scalar condition that flips from an array of two elements to one of three. -/
example : whereShape [] [-1] [-1] = .ok [-1] ∧ whereShapeNow [] [-1] [⟨[], [0]⟩, ⟨[-1], [1, 2]⟩, ⟨[-1], [7, 8, 9]⟩] = .ok [3] ∧
    Ins ArrRel [⟨[], [1]⟩, ⟨[-1], [1, 2]⟩, ⟨[-1], [7, 8, 9]⟩]
      [(⟨[], [0]⟩, [Update.change 0 1 0]), (⟨[-1], [1, 2]⟩, []), (⟨[-1], [7, 8, 9]⟩, [])]
      [⟨[], [0]⟩, ⟨[-1], [1, 2]⟩, ⟨[-1], [7, 8, 9]⟩] ∧
    (do
      let s ← (whereNode [] [-1]).init [⟨[], [1]⟩, ⟨[-1], [1, 2]⟩, ⟨[-1], [7, 8, 9]⟩]
      let s ← (whereNode [] [-1]).propagate s
        [(⟨[], [0]⟩, [Update.change 0 1 0]), (⟨[-1], [1, 2]⟩, []), (⟨[-1], [7, 8, 9]⟩, [])]
      Res.ok (whereSizeDiff [-1] s)) = .ok 1 := by decide +kernel

end Verif
