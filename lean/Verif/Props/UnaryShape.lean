import Verif.Props.Unary
import Verif.Props.BinaryShape
import Verif.Model.Nodes.UnaryShape

/-!
# C22, C23: what element-wise symbols say about their size through all histories
-/

set_option linter.unusedSectionVars false

namespace Verif

variable {α : Type} [DecidableEq α] [Inhabited α]

/-- C22: after every history, and while a further change is pending, a unary symbol reports the size and shape of its values (if its
operand reports the shape of its own), and the true change of size. -/
theorem C22_sizes (func : α → α) (shape : List Int) {x0 x : Arr α} {rounds : List (Round (Arr α) (List (Update α)))}
    (h0 : x0.shape = shape) (hh : Legal ArrRel (fun xs => xs.map Arr.shape = [shape]) [x0] rounds [x]) :
    let N := unaryNode func shape
    ∃ s0 s, N.init [x0] = .ok s0 ∧ rounds.foldlM N.round s0 = .ok s ∧
      unaryShapeNow (.true x) = (N.view s).shapeNow ∧ unarySizeNow s = (N.view s).data.length ∧ elementwiseSizeDiff s = 0 ∧
      ∀ d y, ArrRel x d y → ∃ s', N.propagate s [(y, d)] = .ok s' ∧
        unaryShapeNow (.true y) = (N.view s').shapeNow ∧ unarySizeNow s' = (N.view s').data.length ∧
        elementwiseSizeDiff s' = (N.view s').data.length - (N.view s).data.length := by
  intro N
  let C := unaryContract func shape
  have h0' : [x0].map Arr.shape = [shape] := by simp [h0]
  obtain ⟨s0, e0, c0⟩ := C.init h0'
  obtain ⟨s, e, c, ho⟩ := WhereSizes.clean_after C hh s0 h0' c0
  have hc : s = ArrayState.mk' (x.data.map func) := c
  have hx : x.shape = shape := by
    have : [x].map Arr.shape = [shape] := ho
    simpa using this
  have same : ∀ z : Arr α, z.shape = shape → z.shapeNow = (Arr.mk shape (z.data.map func)).shapeNow := by
    intro z hz
    simp only [Arr.shapeNow, Arr.dynamic, List.length_map, hz]
  refine ⟨s0, s, e0, e, ?_, rfl, ?_, fun d y hr => ?_⟩
  · show x.shapeNow = (Arr.mk shape s.buffer).shapeNow
    rw [hc]
    exact same x hx
  · rw [hc]
    simp [elementwiseSizeDiff, ArrayState.sizeDiff, ArrayState.mk']
  · have hy : y.shape = shape := hr.shape.symm.trans hx
    obtain ⟨s', e', hv, _, _, ⟨r, er, hr'⟩⟩ := C.propagate c ho (ys := [y]) (show [y].map Arr.shape = [shape] by simp [hy]) (ins := [(y, d)]) (.cons hr .nil)
    have hb : s'.buffer = y.data.map func := congrArg Arr.data hv
    have hrv : s'.revert = ArrayState.mk' (x.data.map func) := (Res.ok.inj er).trans hr'
    have hp : s'.prevSize = (x.data.map func).length := congrArg ArrayState.prevSize hrv
    refine ⟨s', e', ?_, rfl, ?_⟩
    · show y.shapeNow = (Arr.mk shape s'.buffer).shapeNow
      rw [hb]
      exact same y hy
    · show s'.sizeDiff = (s'.buffer.length : Int) - s.buffer.length
      unfold ArrayState.sizeDiff
      rw [hp, hc]
      rfl

/-- C23: the change of size that `x + y` reports is the true one, through every history. -/
theorem C23_size_diff_partial (func : α → α → α) {ls rs shape : List Int} (h : BinaryShapes ls rs shape) {xs0 xs : List (Arr α)}
    {rounds : List (Round (Arr α) (List (Update α)))} (h0 : xs0.map Arr.shape = [ls, rs] ∧ ∀ x ∈ xs0, x.WF)
    (hh : Legal ArrRel (fun xs => xs.map Arr.shape = [ls, rs] ∧ ∀ x ∈ xs, x.WF) xs0 rounds xs) :
    let N := binaryNode func ls rs shape
    ∃ s0 s, N.init xs0 = .ok s0 ∧ rounds.foldlM N.round s0 = .ok s ∧ elementwiseSizeDiff s = 0 ∧
      ∀ ins ys, Ins ArrRel xs ins ys → (ys.map Arr.shape = [ls, rs] ∧ ∀ x ∈ ys, x.WF) → ∃ s', N.propagate s ins = .ok s' ∧
        elementwiseSizeDiff s' = (N.view s').data.length - (N.view s).data.length := by
  intro N
  let C := binaryContract func h
  obtain ⟨s0, e0, c0⟩ := C.init h0
  obtain ⟨s, e, c, ho⟩ := WhereSizes.clean_after C hh s0 h0 c0
  obtain ⟨v, hc⟩ : ∃ v, s = ArrayState.mk' v ∧ ∀ t, C.Clean t xs → t = ArrayState.mk' v := ⟨_, c, fun _ ht => ht⟩
  refine ⟨s0, s, e0, e, ?_, fun ins ys hi hy => ?_⟩
  · rw [hc.1]
    simp [elementwiseSizeDiff, ArrayState.sizeDiff, ArrayState.mk']
  · obtain ⟨s', e', hv, _, _, ⟨r, er, hr'⟩⟩ := C.propagate c ho hy hi
    have hrv : s'.revert = ArrayState.mk' v := (Res.ok.inj er).trans (hc.2 r hr')
    have hp : s'.prevSize = v.length := congrArg ArrayState.prevSize hrv
    refine ⟨s', e', ?_⟩
    show s'.sizeDiff = (s'.buffer.length : Int) - s.buffer.length
    unfold ArrayState.sizeDiff
    rw [hp, hc.1]
    rfl

/-- Squares of an array that shrinks, and an array that grows plus a number. -/
example : ArrRel (⟨[-1], [1, 2]⟩ : Arr Rat) [Update.removal 1 2] ⟨[-1], [1]⟩ ∧
    (do
      let s ← (unaryNode (fun x : Rat => x * x) [-1]).init [⟨[-1], [1, 2]⟩]
      let s ← (unaryNode (fun x : Rat => x * x) [-1]).propagate s [(⟨[-1], [1]⟩, [Update.removal 1 2])]
      Res.ok (elementwiseSizeDiff s)) = .ok (-1) ∧ BinaryShapes [-1] [] [-1] ∧
    (do
      let s ← (binaryNode (fun x y : Rat => x + y) [-1] [] [-1]).init [⟨[-1], [1, 2]⟩, ⟨[], [7]⟩]
      let s ← (binaryNode (fun x y : Rat => x + y) [-1] [] [-1]).propagate s
        [(⟨[-1], [1, 2, 3, 4]⟩, [Update.placement 2 3, Update.placement 3 4]), (⟨[], [7]⟩, [])]
      Res.ok (elementwiseSizeDiff s)) = .ok 2 := by decide +kernel

end Verif
