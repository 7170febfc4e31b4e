import Verif.Props.AdvancedIndexing
import Verif.Props.WhereShape
import Verif.Lemmas.ProgramRows
import Verif.Model.Nodes.AdvancedShape

/-!
# C85: what an indexed array says about its size and shape
-/

set_option linter.unusedSimpArgs false

namespace Verif

namespace AdvShapes

variable {shape : List Int} {idx : List (Option Indexer)} {f : Indexer}

/-- An array of changing size has the first dimension of the index arrays, then the slices. -/
theorem built_dynamic (h : AdvAccept shape idx f) (hd : ∀ d ∈ shape, 0 < d) (hdy : dynamicShape (advBuilt shape idx f).shape = true) :
    ∃ k, (advBuilt shape idx f).shape = k :: sliceDims (idx.map Option.isSome) shape := by
  have hr := h.rank
  have hpos := sliceDims_pos (kinds := idx.map Option.isSome) hd
  have hf : dynamicShape f.shape = true := by
    by_contra hn
    have h0 : ∀ d ∈ f.shape, 0 ≤ d := by
      match hfs : f.shape, hr with
      | [], _ => simp
      | [k], _ =>
        rw [hfs] at hn
        intro d h
        simp only [List.mem_singleton] at h
        subst h
        simpa [dynamicShape] using hn
    have : ∀ d ∈ (advBuilt shape idx f).shape, 0 ≤ d := by
      intro d hm
      rw [h.shape_eq] at hm
      unfold advShape at hm
      rcases List.mem_append.1 hm with hm | hm
      · rcases List.mem_append.1 hm with hm | hm
        · exact (hpos d (List.mem_of_mem_take hm)).le
        · exact h0 d hm
      · exact (hpos d (List.mem_of_mem_drop hm)).le
    rw [not_dynamic this] at hdy
    cases hdy
  have hfr : advFront (idx.map Option.isSome) f = true := by
    by_contra hn
    exact h.fixed (by simpa using hn) f (List.mem_of_mem_head? h.first) hf
  have : (advBuilt shape idx f).shape = f.shape ++ sliceDims (idx.map Option.isSome) shape := by
    simp only [advBuilt, if_pos hfr]
  rw [this]
  match hfs : f.shape, hr with
  | [], _ => rw [hfs] at hf; cases hf
  | [k], _ => exact ⟨k, rfl⟩

/-- The dimension the first axis of `A[...]` is divided by is the size of a row. -/
theorem stride_pos (h : AdvAccept shape idx f) (hd : ∀ d ∈ shape, 0 < d) (hdy : dynamicShape (advBuilt shape idx f).shape = true) :
    (advBuilt shape idx f).strides.headD 0 = rowSize (advBuilt shape idx f).shape ∧ 0 < rowSize (advBuilt shape idx f).shape := by
  obtain ⟨k, hk⟩ := built_dynamic h hd hdy
  unfold Adv.strides rowSize
  rw [hk, itemStrides_cons]
  have := shapeProd_pos (sliceDims_pos (kinds := idx.map Option.isSome) hd)
  refine ⟨?_, ?_⟩
  · rw [List.headD_cons, shapeProd_eq]; rfl
  · rw [shapeProd_eq] at this; exact this

/-- Asking changes the first dimension only. -/
theorem ask_ok (h : AdvAccept shape idx f) (hd : ∀ d ∈ shape, 0 < d) (mem : List Int) (s : AdvState) :
    (advBuilt shape idx f).askShape mem s = .ok (if dynamicShape (advBuilt shape idx f).shape = true then
      mem.set 0 ((s.data.length : Int) / rowSize (advBuilt shape idx f).shape) else mem) := by
  unfold Adv.askShape Adv.sizeNow
  split_ifs with hdy
  · obtain ⟨h1, h2⟩ := stride_pos h hd hdy
    obtain ⟨k, hk⟩ := built_dynamic h hd hdy
    rw [guardUB_true (by rw [hk]; simp), Res.ok_bind, guardUB_true (by rw [h1]; omega), Res.ok_bind, h1,
      Int.tdiv_eq_ediv_of_nonneg (by omega)]
  · rfl

/-- After any questions the memory has the right dimensions behind the first. -/
theorem asks_ok (h : AdvAccept shape idx f) (hd : ∀ d ∈ shape, 0 < d) : ∀ (others : List AdvState) (mem : List Int),
    mem.length = (advBuilt shape idx f).shape.length → mem.drop 1 = (advBuilt shape idx f).shape.drop 1 →
    ∃ mem', others.foldlM (advBuilt shape idx f).askShape mem = .ok mem' ∧
      mem'.length = (advBuilt shape idx f).shape.length ∧ mem'.drop 1 = (advBuilt shape idx f).shape.drop 1
  | [], mem, h1, h2 => ⟨mem, rfl, h1, h2⟩
  | s :: others, mem, h1, h2 => by
    rw [List.foldlM_cons, ask_ok h hd, Res.ok_bind]
    refine asks_ok h hd others _ ?_ ?_
    · split_ifs <;> simp [h1]
    · split_ifs
      · rw [← h2]; cases mem <;> rfl
      · exact h2

/-- A span read at once shows the shape of the data. -/
theorem read_ok (h : AdvAccept shape idx f) (hd : ∀ d ∈ shape, 0 < d) {mem : List Int} (s : AdvState)
    (h1 : mem.length = (advBuilt shape idx f).shape.length) (h2 : mem.drop 1 = (advBuilt shape idx f).shape.drop 1) :
    ∃ mem', (advBuilt shape idx f).askShape mem s = .ok mem' ∧
      (advBuilt shape idx f).readShape mem' = ((advBuilt shape idx f).view s).shapeNow := by
  refine ⟨_, ask_ok h hd mem s, ?_⟩
  unfold Adv.readShape Adv.view Arr.shapeNow Arr.dynamic
  dsimp only
  split_ifs with hdy
  · obtain ⟨k, hk⟩ := built_dynamic h hd hdy
    rw [List.length_map]
    match mem, h1, h2 with
    | [], h1, _ => rw [hk] at h1; cases h1
    | m :: mem, _, h2 => rw [← h2]; rfl
  · rfl

/-- The size is the number of values. -/
theorem size_ok (h : AdvAccept shape idx f) (hd : ∀ d ∈ shape, 0 < d) {x : Arr Rat} {ys : List (Arr Rat)} {s : AdvState}
    (hx : x.shapeNow = shape) (hin : AdvInputs idx ys) (hs : s.data.length = ((advBuilt shape idx f).select x ys).length) :
    (advBuilt shape idx f).sizeNow s = s.data.length := by
  unfold Adv.sizeNow
  split_ifs with hdy
  · rfl
  · have hdy' : dynamicShape (advBuilt shape idx f).shape = false := by simpa using hdy
    rw [WhereSizes.size_fixed hdy', hs]
    have hg : GoodShape f.shape := by
      have hr := h.rank
      have hnf : ¬ dynamicShape f.shape = true := by
        intro hf
        have hfr : advFront (idx.map Option.isSome) f = true := by
          by_contra hn
          exact h.fixed (by simpa using hn) f (List.mem_of_mem_head? h.first) hf
        apply hdy
        simp only [advBuilt, if_pos hfr]
        match hfs : f.shape, hr with
        | [], _ => rw [hfs] at hf; cases hf
        | [k], _ => rw [hfs] at hf; exact hf
      match hfs : f.shape, hr with
      | [], _ => exact ⟨by simp, by simp⟩
      | [k], _ =>
        rw [hfs] at hnf
        have : 0 ≤ k := by simpa [dynamicShape] using hnf
        exact ⟨by simp, by simp; omega⟩
    have hw := (advanced_wf h hd hg hin x.data).1
    unfold Arr.WF Arr.dynamic at hw
    rw [if_neg hdy] at hw
    show _ = ((advSelect (idx.map Option.isSome) x.shapeNow x.data (Adv.indexAt ys) _).length : Int)
    rw [hx]
    exact hw.symm

/-- The state while a change is pending. -/
theorem pending (h : AdvAccept shape idx f) (hd : ∀ d ∈ shape, 0 < d)
    (hl : ¬ (separated (idx.map Option.isSome) = true ∧ 0 < leading (idx.map Option.isSome) ∧ f.shape ≠ []))
    {s : AdvState} {x : Arr Rat} {ys xs' : List (Arr Rat)} {ins : List (Arr Rat × List (Update Rat))}
    (hc : AdvClean (advBuilt shape idx f) true s x ys) (hs : x.shape = shape) (hw : x.WF) (hy : AdvInputs idx ys)
    (hok : (advNode idx (advBuilt shape idx f)).ok xs') (hins : Ins ArrRel (x :: ys) ins xs') :
    ∃ s' x' ys', (advNode idx (advBuilt shape idx f)).propagate s ins = .ok s' ∧
      AdvPending (advBuilt shape idx f) true s' x ys x' ys' ∧ x'.shapeNow = shape ∧ AdvInputs idx ys' := by
  obtain ⟨x', ys', rfl, hs', hw', hy'⟩ := hok
  obtain ⟨d, _, ins', _, rfl, e, hrel, hins'⟩ := hins.cons_inv
  obtain ⟨rfl, rfl⟩ := List.cons.inj e
  have hx := AdvBase.of (idx := idx) (f := f) hd hs hw
  have hx' := AdvBase.of (idx := idx) (f := f) hd hs' hw'
  have hdyn : x.dynamic = false := by
    unfold Arr.dynamic
    rw [hs]
    exact not_dynamic fun d h => (hd d h).le
  have hlead : (advBuilt shape idx f).bullet1 = true →
      leading (advBuilt shape idx f).kinds = 0 ∨ (advBuilt shape idx f).indexNdim = 0 := by
    intro hb
    have hb' : advFront (idx.map Option.isSome) f = true := hb
    simp only [advFront, Bool.or_eq_true, beq_iff_eq, List.isEmpty_iff] at hb'
    show leading (idx.map Option.isSome) = 0 ∨ f.shape.length = 0
    rw [List.length_eq_zero_iff]
    by_contra hc'
    push Not at hc'
    exact hl ⟨by tauto, Nat.pos_of_ne_zero hc'.1, hc'.2⟩
  obtain ⟨s', e, hp⟩ := Adv.propagate_spec (h.good hd) hc hx hx' (h.indices hy) (h.indices hy') hrel.replays (hrel.fixed hdyn)
    (fun _ => ⟨rfl, hlead⟩) (fun hs => h.sizes hy hy' (Or.inl hs)) (fun hs => h.sizes hy hy' (Or.inr hs)) hins'
  exact ⟨s', _, _, e, hp, hx'.1, hy'⟩

end AdvShapes

/-- C85: what `A[indices]` says about its size and shape, `A` of fixed size without zero dimensions (and with the index arrays as in
`C32_indexed_partial`).  After every history, while a further change is pending, and whatever has been asked in other states
before: the shape read from the answer at once is that of the values shown, the size is their number, and the change of size is the
true one. -/
theorem C85_indexed_partial (shape : List Int) (minSize : Option Int) (idx : List (Option Indexer)) (P : Adv)
    (hd : ∀ d ∈ shape, 0 < d) (hP : advParse shape minSize idx = .ok P)
    (hl : separated (idx.map Option.isSome) = true → leading (idx.map Option.isSome) = 0 ∨ ∀ f ∈ idx.reduceOption, f.shape = [])
    {xs0 xs : List (Arr Rat)} {rounds : List (Round (Arr Rat) (List (Update Rat)))} (h0 : (advNode idx P).ok xs0)
    (hh : Legal ArrRel (advNode idx P).ok xs0 rounds xs) (others : List AdvState) :
    ∃ s0 s mem, (advNode idx P).init xs0 = .ok s0 ∧ rounds.foldlM (advNode idx P).round s0 = .ok s ∧
      others.foldlM P.askShape P.memory = .ok mem ∧
      (∃ mem', P.askShape mem s = .ok mem' ∧ P.readShape mem' = (P.view s).shapeNow) ∧
      P.sizeNow s = (P.view s).data.length ∧ P.sizeDiff s = 0 ∧
      ∀ ins ys, Ins ArrRel xs ins ys → (advNode idx P).ok ys → ∃ s', (advNode idx P).propagate s ins = .ok s' ∧
        (∃ mem', P.askShape mem s' = .ok mem' ∧ P.readShape mem' = (P.view s').shapeNow) ∧
        P.sizeNow s' = (P.view s').data.length ∧ P.sizeDiff s' = (P.view s').data.length - (P.view s).data.length := by
  obtain ⟨f, hf, rfl⟩ := advParse_ok hd hP
  have hl' : ¬ (separated (idx.map Option.isSome) = true ∧ 0 < leading (idx.map Option.isSome) ∧ f.shape ≠ []) := by
    rintro ⟨h1, h2, h3⟩
    rcases hl h1 with h | h
    · omega
    · exact h3 (h f (List.mem_of_head? hf.first))
  let C := advContract hf hd hl'
  obtain ⟨s0, e0, c0⟩ := C.init h0
  obtain ⟨s, e, c, ho⟩ := C.settles hh s0 h0 c0
  obtain ⟨mem, em, m1, m2⟩ := AdvShapes.asks_ok hf hd others (advBuilt shape idx f).memory rfl rfl
  have hc : AdvClean (advBuilt shape idx f) true s (xs.headD ⟨[], []⟩) xs.tail := c
  obtain ⟨x, zs, rfl, hs, hw, hz⟩ := ho
  simp only [List.headD_cons, List.tail_cons] at hc
  have hlen : s.data.length = ((advBuilt shape idx f).select x zs).length := by rw [hc.data, List.length_map]
  have hsize := AdvShapes.size_ok hf hd (s := s) (AdvBase.of (idx := idx) (f := f) hd hs hw).1 hz hlen
  have hview : ∀ t : AdvState, ((advBuilt shape idx f).view t).data.length = t.data.length := fun t => by
    simp [Adv.view]
  refine ⟨s0, s, mem, e0, e, em, AdvShapes.read_ok hf hd s m1 m2, by rw [hsize, hview], ?_, fun ins ys hi hy => ?_⟩
  · unfold Adv.sizeDiff
    split_ifs
    · rw [hc.oldData, hlen]; omega
    · rfl
  · obtain ⟨s', x', ys', e', hp, hx', hy'⟩ := AdvShapes.pending hf hd hl' hc hs hw hz hy hi
    have hlen' : s'.data.length = ((advBuilt shape idx f).select x' ys').length := by rw [hp.data, List.length_map]
    have hsize' := AdvShapes.size_ok hf hd hx' hy' hlen'
    refine ⟨s', e', AdvShapes.read_ok hf hd s' m1 m2, by rw [hsize', hview], ?_⟩
    rw [hview, hview]
    unfold Adv.sizeDiff
    split_ifs with hdy
    · rw [hp.oldData, hlen]
    · unfold Adv.sizeNow at hsize hsize'
      rw [if_neg hdy] at hsize hsize'
      rw [← hsize, ← hsize', Int.sub_self]

/-- `A[i, :]` with `i` of three entries, after the shape has been asked for in a state where `i` has one. -/
example : (∀ d ∈ ([4, 2] : List Int), 0 < d) ∧
    (do
      let P ← advParse [4, 2] none [ixs (-1) 3, none]
      let A : Arr Rat := ⟨[4, 2], [0, 1, 2, 3, 4, 5, 6, 7]⟩
      let s ← (advNode [ixs (-1) 3, none] P).init [A, ⟨[-1], [3]⟩]
      let t ← (advNode [ixs (-1) 3, none] P).init [A, ⟨[-1], [0, 2, 2]⟩]
      let mem ← P.askShape P.memory s
      let mem' ← P.askShape mem t
      let t' ← (advNode [ixs (-1) 3, none] P).propagate t [(A, []), (⟨[-1], [0, 2]⟩, [Update.removal 2 2])]
      Res.ok (P.readShape mem, P.readShape mem', P.sizeNow t, P.sizeNow t', P.sizeDiff t')) = .ok ([1, 2], [3, 2], 6, 4, -2) := by
  decide +kernel

/-- C85 for a constant `A` and any accepted index arrays. -/
theorem C85_constant_partial (shape : List Int) (minSize : Option Int) (idx : List (Option Indexer)) (P : Adv) (x : Arr Rat)
    (hd : ∀ d ∈ shape, 0 < d) (hP : advParse shape minSize idx = .ok P) (hs : x.shape = shape) (hw : x.WF)
    {xs0 xs : List (Arr Rat)} {rounds : List (Round (Arr Rat) (List (Update Rat)))} (h0 : AdvInputs idx xs0)
    (hh : Legal ArrRel (AdvInputs idx) xs0 rounds xs) (others : List AdvState) :
    ∃ s0 s mem, (advConstantNode idx P x).init xs0 = .ok s0 ∧ rounds.foldlM (advConstantNode idx P x).round s0 = .ok s ∧
      others.foldlM P.askShape P.memory = .ok mem ∧
      (∃ mem', P.askShape mem s = .ok mem' ∧ P.readShape mem' = (P.view s).shapeNow) ∧
      P.sizeNow s = (P.view s).data.length ∧ P.sizeDiff s = 0 ∧
      ∀ ins ys, Ins ArrRel xs ins ys → AdvInputs idx ys → ∃ s', (advConstantNode idx P x).propagate s ins = .ok s' ∧
        (∃ mem', P.askShape mem s' = .ok mem' ∧ P.readShape mem' = (P.view s').shapeNow) ∧
        P.sizeNow s' = (P.view s').data.length ∧ P.sizeDiff s' = (P.view s').data.length - (P.view s).data.length := by
  obtain ⟨f, hf, rfl⟩ := advParse_ok hd hP
  let C := advConstantContract hf hd hs hw
  obtain ⟨s0, e0, c0⟩ := C.init h0
  obtain ⟨s, e, c, hz⟩ := C.settles hh s0 h0 c0
  obtain ⟨mem, em, m1, m2⟩ := AdvShapes.asks_ok hf hd others (advBuilt shape idx f).memory rfl rfl
  have hc : AdvClean (advBuilt shape idx f) false s x xs := c
  have hx := AdvBase.of (idx := idx) (f := f) hd hs hw
  have hz' : AdvInputs idx xs := hz
  have hlen : s.data.length = ((advBuilt shape idx f).select x xs).length := by rw [hc.data, List.length_map]
  have hsize := AdvShapes.size_ok hf hd (s := s) hx.1 hz' hlen
  have hview : ∀ t : AdvState, ((advBuilt shape idx f).view t).data.length = t.data.length := fun t => by
    simp [Adv.view]
  refine ⟨s0, s, mem, e0, e, em, AdvShapes.read_ok hf hd s m1 m2, by rw [hsize, hview], ?_, fun ins ys hi hy => ?_⟩
  · unfold Adv.sizeDiff
    split_ifs
    · rw [hc.oldData, hlen]; omega
    · rfl
  · obtain ⟨s', e', hp⟩ := Adv.propagate_spec (d := []) (hf.good hd) hc hx hx (hf.indices hz') (hf.indices hy) (replays_nil.2 rfl)
      (by simp) (fun h => absurd rfl h) (fun hs => hf.sizes hz' hy (Or.inl hs)) (fun hs => hf.sizes hz' hy (Or.inr hs)) hi
    have hlen' : s'.data.length = ((advBuilt shape idx f).select x ys).length := by rw [hp.data, List.length_map]
    have hsize' := AdvShapes.size_ok hf hd hx.1 hy hlen'
    refine ⟨s', e', AdvShapes.read_ok hf hd s' m1 m2, by rw [hsize', hview], ?_⟩
    rw [hview, hview]
    unfold Adv.sizeDiff
    split_ifs with hdy
    · rw [hp.oldData, hlen]
    · unfold Adv.sizeNow at hsize hsize'
      rw [if_neg hdy] at hsize hsize'
      rw [← hsize, ← hsize', Int.sub_self]

/-- `A[i]` with a constant `A`, `i` growing from one entry to two. -/
example : (∀ d ∈ ([4] : List Int), 0 < d) ∧ Arr.WF (⟨[4], [5, 6, 7, 8]⟩ : Arr Rat) ∧
    (do
      let P ← advParse [4] none [ixs (-1) 3]
      let s ← (advConstantNode [ixs (-1) 3] P ⟨[4], [5, 6, 7, 8]⟩).init [⟨[-1], [3]⟩]
      let t ← (advConstantNode [ixs (-1) 3] P ⟨[4], [5, 6, 7, 8]⟩).propagate s [(⟨[-1], [3, 0]⟩, [Update.placement 1 0])]
      let mem ← P.askShape P.memory t
      Res.ok (P.readShape mem, P.sizeNow t, P.sizeDiff t)) = .ok ([2], 2, 1) := by
  refine ⟨by decide, by unfold Arr.WF; decide +kernel, by decide +kernel⟩

/-- C85, the limits of the answer: the span is only good until the next question.  The shape of `A[i]` asked for in a state where `i` has
one entry shows 3 after the same question in another state where `i` has three. -/
theorem C85_kept_fails :
    ∃ (P : Adv) (s t : AdvState) (mem mem' : List Int), advParse [4] none [ixs (-1) 3] = .ok P ∧
      (advNode [ixs (-1) 3] P).init [⟨[4], [0, 1, 2, 3]⟩, ⟨[-1], [3]⟩] = .ok s ∧
      (advNode [ixs (-1) 3] P).init [⟨[4], [0, 1, 2, 3]⟩, ⟨[-1], [0, 2, 2]⟩] = .ok t ∧
      P.askShape P.memory s = .ok mem ∧ P.askShape mem t = .ok mem' ∧
      P.readShape mem = (P.view s).shapeNow ∧ P.readShape mem' ≠ (P.view s).shapeNow := by
  refine ⟨_, _, _, _, _, rfl, rfl, rfl, rfl, rfl, ?_, ?_⟩ <;> decide +kernel

end Verif
