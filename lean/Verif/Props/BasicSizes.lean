import Verif.Props.BasicIndexingDynamic
import Verif.Props.AdvancedIndexing
import Verif.Model.Nodes.BasicSizes

/-!
# C31: what a slice of a dynamic array says about its size and shape
-/

set_option linter.unusedSectionVars false

namespace Verif

variable {α : Type} [DecidableEq α] [Inhabited α]

namespace BasicSizes

/-- Size and shape of a contiguous view whose first dimension is not negative. -/
theorem agrees {rest : List Int} {P : Parsed} {s : BasicState α} (hdyn : P.dynamic = true) (hsh : P.shape = -1 :: rest)
    (hc : P.contiguous = true) (hpos : ∀ d ∈ rest, 0 < d) (h0 : 0 ≤ s.dim0) :
    s.dims P = (Arr.mk P.shape (s.elements P)).shapeNow ∧ s.size P = (s.elements P).length := by
  have hp := shapeProd_pos hpos
  have key : ∀ (l : List Int) (a : Int), l.foldl (· * ·) a = a * shapeProd l := by
    intro l
    induction l with
    | nil => intro a; simp [shapeProd]
    | cons b l ih => intro a; rw [List.foldl_cons, ih, shapeProd, Int.mul_assoc]
  have hsize : s.size P = s.dim0 * shapeProd rest := by
    unfold BasicState.size
    rw [hdyn, if_pos rfl, hsh]
    simp only [shapeToSize, if_neg (show ¬ s.dim0 < 0 by omega), List.drop_succ_cons, List.drop_zero, key, Int.one_mul]
  have hlen : ((s.elements P).length : Int) = s.size P := by
    unfold BasicState.elements
    rw [hc, if_pos rfl, List.length_map, List.length_range]
    exact Int.toNat_of_nonneg (by rw [hsize]; exact Int.mul_nonneg h0 hp.le)
  refine ⟨?_, hlen.symm⟩
  unfold BasicState.dims Arr.shapeNow Arr.dynamic
  rw [hdyn, if_pos rfl, hsh]
  simp only [dynamicShape, show (-1 : Int) < 0 by decide, decide_true, if_true, List.drop_succ_cons, List.drop_zero, rowSize]
  rw [hlen, hsize, ← shapeProd_eq, Int.mul_ediv_cancel _ (by omega)]

/-- The first dimension of a state in step with its array. -/
theorem dim0_nonneg {rest : List Int} {a b c : Option Int} {idx : List BasicIndex} {P : Parsed} (h : DynIndex rest a b c idx)
    (hP : basicParse (-1 :: rest) (.slice a b c :: idx) = .ok P) {s : BasicState α} {x : Arr α} (hF : s.Fresh P x)
    (hx : x.shape = -1 :: rest) (hw : x.WF) (hl : (x.data.length : Int) ≤ ssMax) : 0 ≤ s.dim0 := by
  obtain ⟨sl, st, start, h1, h2, h3, h4, h5, h6, h7, h8⟩ := h.parse
  obtain ⟨n, hn, hlen, hnow⟩ := rows_of h.pos hx hw hl
  obtain ⟨k, hk, _⟩ := h8 n hn
  rw [hP] at h3
  have hsl : P.slice = sl := by cases h3; rfl
  have e := hF.step.2
  rw [hF.step.1, hF.now, hnow, hsl] at e
  have := Res.ok.inj (hk.symm.trans e)
  omega

/-- Reverting keeps the remembered size. -/
theorem revert_previous {P : Parsed} {s r : BasicState α} (hr : s.revert P = .ok r) : r.previousSize = s.previousSize := by
  unfold BasicState.revert at hr
  split_ifs at hr with h1 h2
  · obtain ⟨t, ht, hr⟩ := Res.bind_eq_ok.1 hr
    obtain ⟨_, _, hr⟩ := Res.bind_eq_ok.1 hr
    unfold BasicState.updateShape at ht
    obtain ⟨_, _, ht⟩ := Res.bind_eq_ok.1 ht
    rw [← Res.ok.inj hr, ← Res.ok.inj ht]
  · obtain ⟨t, ht, hr⟩ := Res.bind_eq_ok.1 hr
    unfold BasicState.updateShape at ht
    obtain ⟨_, _, ht⟩ := Res.bind_eq_ok.1 ht
    rw [← Res.ok.inj hr, ← Res.ok.inj ht]
  · rw [← Res.ok.inj hr]

end BasicSizes

/-- C31: what `x[a:b, ...]` of a dynamic array says about its size and shape, for the indices of `C31_tracks_partial`.  After every
history, and while a further change is pending, the shape is that of the values shown, the size is their number, and the change of size
is the true one. -/
theorem C31_sizes_partial (rest : List Int) (a b c : Option Int) (idx : List BasicIndex) (P : Parsed)
    (h : DynIndex rest a b c idx) (hP : basicParse (-1 :: rest) (.slice a b c :: idx) = .ok P)
    (hc : P.contiguous = true) (hpos : ∀ d ∈ selectShape rest idx, 0 < d)
    (hrow : shapeProd rest = 1 ∨ (a.getD 0 = 0 ∧ b = none)) {xs0 xs : List (Arr α)} {rounds : List (Round (Arr α) (List (Update α)))}
    (h0 : (basicNode (α := α) (-1 :: rest) (.slice a b c :: idx) P).ok xs0)
    (hh : Legal ArrRel (basicNode (α := α) (-1 :: rest) (.slice a b c :: idx) P).ok xs0 rounds xs) :
    let N := basicNode (α := α) (-1 :: rest) (.slice a b c :: idx) P
    ∃ s0 s, N.init xs0 = .ok s0 ∧ rounds.foldlM N.round s0 = .ok s ∧
      s.dims P = (N.view s).shapeNow ∧ s.size P = (N.view s).data.length ∧ s.sizeDiff P = 0 ∧
      ∀ ins ys, Ins ArrRel xs ins ys → N.ok ys → ∃ s', N.propagate s ins = .ok s' ∧
        s'.dims P = (N.view s').shapeNow ∧ s'.size P = (N.view s').data.length ∧
        s'.sizeDiff P = (N.view s').data.length - (N.view s).data.length := by
  intro N
  obtain ⟨C, hC⟩ := dynamic_contract_fresh (α := α) rest a b c idx P h hP hc hpos hrow
  obtain ⟨hdyn, hsh⟩ : P.dynamic = true ∧ P.shape = -1 :: selectShape rest idx := by
    obtain ⟨sl, st, start, _, _, h3, _⟩ := h.parse
    rw [hP] at h3
    cases h3
    exact ⟨dynamic_parsed _ _ _ _, rfl⟩
  obtain ⟨s0, e0, c0⟩ := C.init h0
  obtain ⟨s, e, cs, ho⟩ := C.settles hh s0 h0 c0
  have fresh : ∀ (s : BasicState α) (x : Arr α), s.Fresh P x → x.shape = -1 :: rest → x.WF → (x.data.length : Int) ≤ ssMax →
      s.dims P = (Arr.mk P.shape (s.elements P)).shapeNow ∧ s.size P = (s.elements P).length :=
    fun s x hF g1 g2 g3 => BasicSizes.agrees hdyn hsh hc hpos (BasicSizes.dim0_nonneg h hP hF g1 g2 g3)
  obtain ⟨x, hx, hF, g1, g2, g3⟩ := hC s xs cs
  obtain ⟨a1, a2⟩ := fresh s x hF g1 g2 g3
  refine ⟨s0, s, e0, e, a1, a2, ?_, fun ins ys hi hy => ?_⟩
  · unfold BasicState.sizeDiff
    rw [hdyn, if_pos rfl, hF.size, Int.sub_self]
  · obtain ⟨s', e', hv, _, ⟨d, ed, hd⟩, ⟨r, er, hr⟩⟩ := C.propagate cs ho hy hi
    obtain ⟨y, hy', hG, k1, k2, k3⟩ := hC _ _ hd
    have hdc : d = s'.commit P := (Res.ok.inj ed).symm
    have hdim : 0 ≤ s'.dim0 := by
      have := BasicSizes.dim0_nonneg h hP hG k1 k2 k3
      rw [hdc] at this
      exact this
    obtain ⟨b1, b2⟩ := BasicSizes.agrees (s := s') hdyn hsh hc hpos hdim
    refine ⟨s', e', b1, b2, ?_⟩
    obtain ⟨z, hz, hR, z1, z2, z3⟩ := hC _ _ hr
    obtain ⟨r1, r2⟩ := fresh r z hR z1 z2 z3
    have hvr : r.elements P = s.elements P := by
      have v1 := congrArg Arr.data (C.view hr)
      have v2 := congrArg Arr.data (C.view cs)
      exact v1.trans v2.symm
    unfold BasicState.sizeDiff
    rw [hdyn, if_pos rfl, b2, ← BasicSizes.revert_previous er, hR.size, r2, hvr]

/-- `x[1:]` of a list that grows from two to four elements. -/
example : DynIndex [] (some 1) none none [] ∧
    (do
      let P ← basicParse [-1] [.slice (some 1) none none]
      let N := basicNode (α := Nat) [-1] [.slice (some 1) none none] P
      let s ← N.init [⟨[-1], [5, 6]⟩]
      let s ← N.propagate s [(⟨[-1], [5, 6, 7, 8]⟩, [Update.placement 2 7, Update.placement 3 8])]
      Res.ok (P.contiguous, s.dims P, s.size P, s.sizeDiff P)) = .ok (true, [3], 3, 2) := by
  exact ⟨⟨by decide, by decide, trivial, by decide⟩, by decide +kernel⟩

end Verif
