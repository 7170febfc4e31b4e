import Verif.Lemmas.AdvancedParse

set_option linter.unusedSimpArgs false
set_option linter.unusedVariables false

/-!
# C32: advanced indexing
-/

namespace Verif

variable {shape : List Int} {idx : List (Option Indexer)} {f : Indexer} {P : Adv}

/-! ## What the constructor accepts -/

theorem AdvAccept.shape_eq (h : AdvAccept shape idx f) :
    (advBuilt shape idx f).shape = advShape (idx.map Option.isSome) shape f.shape := by
  unfold advShape advLeft
  by_cases hb : advFront (idx.map Option.isSome) f = true
  · have : (advBuilt shape idx f).shape = f.shape ++ sliceDims (idx.map Option.isSome) shape := by
      simp only [advBuilt, if_pos hb]
    rw [this]
    simp only [advFront, Bool.or_eq_true, beq_iff_eq, List.isEmpty_iff] at hb
    by_cases hs : separated (idx.map Option.isSome) = true
    · simp [hs]
    · rcases hb with (h1 | h1) | h1
      · exact absurd h1 hs
      · simp [h1]
      · simp [h1]
  · have hb' : advFront (idx.map Option.isSome) f = false := by simpa using hb
    have : (advBuilt shape idx f).shape = advShape2 f.shape false shape idx := by
      simp only [advBuilt, hb', Bool.false_eq_true, if_false]
    rw [this]
    simp only [advFront, Bool.or_eq_false_iff, beq_eq_false_iff_ne, List.isEmpty_eq_false_iff] at hb'
    obtain ⟨n, hn⟩ : ∃ n, f.shape = [n] := by
      have hr := h.rank
      match hfs : f.shape, hr with
      | [], _ => exact absurd hfs hb'.2
      | [n], _ => exact ⟨n, rfl⟩
      | _ :: _ :: _, hr => simp at hr
    rw [hn, advShape2_eq h.len h.some, hb'.1.1, if_neg (by simp),
      insertIdx_append (leading_le_slices (by rw [List.length_map]; exact h.len))]
    simp

/-- **C32** (construction).  For an array of fixed size, `A[...]` is accepted exactly if there is one index per axis, at least one
of them an array, every index array declares integers within its axis, the index arrays have one common shape of at most one
dimension, and - when the result keeps the position of adjacent index arrays behind a slice - none of them may change its size.
Then the result has NumPy's shape. -/
theorem C32_accepts (shape : List Int) (minSize : Option Int) (idx : List (Option Indexer)) (hd : ∀ d ∈ shape, 0 ≤ d) (hne : shape ≠ []) :
    (∀ f, AdvAccept shape idx f → ∃ P, advParse shape minSize idx = .ok P ∧ P.kinds = idx.map Option.isSome ∧ P.operand = shape ∧
      P.shape = advShape (idx.map Option.isSome) shape f.shape) ∧
    ((¬ ∃ f, AdvAccept shape idx f) → advParse shape minSize idx = .throw) := by
  obtain ⟨h1, h2⟩ := advParse_fixed (minSize := minSize) (idx := idx) hd hne
  exact ⟨fun f h => ⟨_, h1 f h, rfl, rfl, h.shape_eq⟩, h2⟩

theorem advParse_ok {minSize : Option Int} (hd : ∀ d ∈ shape, 0 < d) (h : advParse shape minSize idx = .ok P) :
    ∃ f, AdvAccept shape idx f ∧ P = advBuilt shape idx f := by
  have hne : shape ≠ [] := by
    rintro rfl
    unfold advParse at h
    obtain ⟨_, _, h⟩ := Res.bind_eq_ok.1 h
    obtain ⟨_, h1, _⟩ := Res.bind_eq_ok.1 h
    simp [guardUB] at h1
  obtain ⟨h1, h2⟩ := advParse_fixed (minSize := minSize) (idx := idx) (fun d hd' => le_of_lt (hd d hd')) hne
  by_cases he : ∃ f, AdvAccept shape idx f
  · obtain ⟨f, hf⟩ := he
    refine ⟨f, hf, ?_⟩
    rw [h1 f hf] at h
    exact (Res.ok.inj h).symm
  · rw [h2 he] at h; cases h

/-! ## Contracts -/

theorem AdvBase.of {x : Arr Rat} (hd : ∀ d ∈ shape, 0 < d) (hs : x.shape = shape) (hw : x.WF) : AdvBase (advBuilt shape idx f) x := by
  have hdyn : x.dynamic = false := by
    unfold Arr.dynamic
    rw [hs]
    cases shape with
    | nil => rfl
    | cons d shape => have := hd d (by simp); simp [dynamicShape]; omega
  have h1 : x.shapeNow = shape := by unfold Arr.shapeNow; rw [hdyn, hs]; rfl
  refine ⟨h1, ?_⟩
  unfold Arr.WF at hw
  rw [hdyn] at hw
  simp only [Bool.false_eq_true, if_false] at hw
  rw [hw, hs]
  rw [shapeProd_eq]
  rfl

/-- The symbol of an indexed array that is not a constant. -/
def advContract (h : AdvAccept shape idx f) (hd : ∀ d ∈ shape, 0 < d)
    (hl : ¬ (separated (idx.map Option.isSome) = true ∧ 0 < leading (idx.map Option.isSome) ∧ f.shape ≠ [])) :
    Contract ArrRel [] (advNode idx (advBuilt shape idx f)) where
  Clean := fun s xs => AdvClean (advBuilt shape idx f) true s (xs.headD ⟨[], []⟩) xs.tail
  init := by
    rintro _ ⟨x, ys, rfl, hs, hw, hy⟩
    exact Adv.init_spec (h.good hd) true (AdvBase.of hd hs hw) (h.indices hy)
  view := by
    intro s xs hc
    simp only [Adv.view, hc.data, List.map_map]
    congr 1
    exact List.map_id _
  diff := fun hc => hc.diff
  propagate := by
    rintro s _ ins _ hc ⟨x, ys, rfl, hs, hw, hy⟩ ⟨x', ys', rfl, hs', hw', hy'⟩ hins
    obtain ⟨d, _, ins', _, rfl, e, hrel, hins'⟩ := hins.cons_inv
    obtain ⟨rfl, rfl⟩ := List.cons.inj e
    have hx := AdvBase.of (idx := idx) (f := f) hd hs hw
    have hx' := AdvBase.of (idx := idx) (f := f) hd hs' hw'
    have hdyn : x.dynamic = false := by
      unfold Arr.dynamic
      rw [hs]
      show dynamicShape shape = false
      cases hsh : shape with
      | nil => rfl
      | cons d shape => have := hd d (by simp [hsh]); simp [dynamicShape]; omega
    have hlead : (advBuilt shape idx f).bullet1 = true →
        leading (advBuilt shape idx f).kinds = 0 ∨ (advBuilt shape idx f).indexNdim = 0 := by
      intro hb
      have hb' : advFront (idx.map Option.isSome) f = true := hb
      simp only [advFront, Bool.or_eq_true, beq_iff_eq, List.isEmpty_iff] at hb'
      show leading (idx.map Option.isSome) = 0 ∨ f.shape.length = 0
      rw [List.length_eq_zero_iff]
      by_contra hc'
      push Not at hc'
      exact hl ⟨by tauto, Nat.pos_of_ne_zero hc'.1, hc'.2⟩
    obtain ⟨s', e, hp⟩ := Adv.propagate_spec (h.good hd) hc hx hx' (h.indices hy) (h.indices hy') hrel.replays (hrel.fixed hdyn)
      (fun _ => ⟨rfl, hlead⟩) (fun hs => h.sizes hy hy' (Or.inl hs)) (fun hs => h.sizes hy hy' (Or.inr hs)) hins'
    refine ⟨s', e, ?_, ⟨rfl, hp.replays, fun hs => hp.changes hs⟩, ⟨_, rfl, hp.commit⟩, hp.revert⟩
    simp only [Adv.view, hp.data, List.map_map]
    congr 1
    exact List.map_id _

/-- The symbol of an indexed constant. -/
def advConstantContract (h : AdvAccept shape idx f) (hd : ∀ d ∈ shape, 0 < d) {x : Arr Rat} (hs : x.shape = shape) (hw : x.WF) :
    Contract ArrRel [] (advConstantNode idx (advBuilt shape idx f) x) where
  Clean := fun s ys => AdvClean (advBuilt shape idx f) false s x ys
  init := fun hy => Adv.init_spec (h.good hd) false (AdvBase.of hd hs hw) (h.indices hy)
  view := by
    intro s xs hc
    simp only [Adv.view, hc.data, List.map_map]
    congr 1
    exact List.map_id _
  diff := fun hc => hc.diff
  propagate := by
    intro s ys ins ys' hc hy hy' hins
    have hx := AdvBase.of (idx := idx) (f := f) hd hs hw
    obtain ⟨s', e, hp⟩ := Adv.propagate_spec (d := []) (h.good hd) hc hx hx (h.indices hy) (h.indices hy') (replays_nil.2 rfl) (by simp)
      (fun h => absurd rfl h) (fun hs => h.sizes hy hy' (Or.inl hs)) (fun hs => h.sizes hy hy' (Or.inr hs)) hins
    refine ⟨s', e, ?_, ⟨rfl, hp.replays, fun hs => hp.changes hs⟩, ⟨_, rfl, hp.commit⟩, hp.revert⟩
    simp only [Adv.view, hp.data, List.map_map]
    congr 1
    exact List.map_id _

/-- The state after a history is in step with the operands. -/
theorem Contract.settles {V D : Type} {rel : V → D → V → Prop} {quiet : D} {N : NodeSem V D}
    (C : Contract rel quiet N) {xs zs : List V} {rounds : List (Round V D)} (hl : Legal rel N.ok xs rounds zs) :
    ∀ s, N.ok xs → C.Clean s xs → ∃ s', rounds.foldlM N.round s = .ok s' ∧ C.Clean s' zs ∧ N.ok zs := by
  induction hl with
  | nil => intro s ho hc; exact ⟨s, rfl, hc, ho⟩
  | cons hi hy _ ih =>
    rename_i xs ys zs r rs _
    intro s ho hc
    obtain ⟨s1, e1, _, _, ⟨c, ec, hcc⟩, ⟨b, eb, hcb⟩⟩ := C.propagate hc ho hy hi
    cases hr : r.accept with
    | true =>
      rw [hr] at ih
      obtain ⟨s', e', h'⟩ := ih c hy hcc
      refine ⟨s', ?_, h'⟩
      simp only [List.foldlM_cons, NodeSem.round, e1, Res.ok_bind, hr, if_true, ec]
      exact e'
    | false =>
      rw [hr] at ih
      obtain ⟨s', e', h'⟩ := ih b ho hcb
      refine ⟨s', ?_, h'⟩
      simp only [List.foldlM_cons, NodeSem.round, e1, Res.ok_bind, hr, eb]
      exact e'

/-! ## The theorems -/

/-- What `A[indices]` is: NumPy's shape and elements. -/
def advValue (shape : List Int) (idx : List (Option Indexer)) (arrays : List Int) (x : Arr Rat) (ys : List (Arr Rat)) : Arr Rat :=
  ⟨advShape (idx.map Option.isSome) shape arrays,
    advSelect (idx.map Option.isSome) x.shapeNow x.data (fun t => ys.map fun y => toSS (y.data.getD t 0)) (ys.headD ⟨[], []⟩).data.length⟩

/-- **C32** for a constant `A` without zero dimensions and any accepted index arrays, which may grow and shrink where the constructor
allows it: through every history of changes of the index arrays, committed or reverted, the value is NumPy's, and every
change is reported correctly. -/
theorem C32_constant_partial (shape : List Int) (minSize : Option Int) (idx : List (Option Indexer)) (P : Adv) (x : Arr Rat)
    (hd : ∀ d ∈ shape, 0 < d) (hP : advParse shape minSize idx = .ok P) (hs : x.shape = shape) (hw : x.WF) :
    ∃ f, idx.reduceOption.head? = some f ∧
      Incremental ArrRel [] (advConstantNode idx P x) (fun ys => advValue shape idx f.shape x ys) (fun ys => AdvInputs idx ys) := by
  obtain ⟨f, hf, rfl⟩ := advParse_ok hd hP
  refine ⟨f, hf.first, ?_⟩
  have h := (advConstantContract hf hd hs hw).incremental
  simp only [Adv.select, hf.shape_eq] at h
  exact h

/-- **C32** for `A` of fixed size without zero dimensions, changing together with the index arrays - except when the index arrays are
separated by a slice, follow a slice and have a dimension (see `C32_separated_fails`). -/
theorem C32_indexed_partial (shape : List Int) (minSize : Option Int) (idx : List (Option Indexer)) (P : Adv)
    (hd : ∀ d ∈ shape, 0 < d) (hP : advParse shape minSize idx = .ok P)
    (hl : separated (idx.map Option.isSome) = true → leading (idx.map Option.isSome) = 0 ∨ ∀ f ∈ idx.reduceOption, f.shape = []) :
    ∃ f, idx.reduceOption.head? = some f ∧
      Incremental ArrRel [] (advNode idx P)
        (fun xs => advValue shape idx f.shape (xs.headD ⟨[], []⟩) xs.tail)
        (fun xs => ∃ x ys, xs = x :: ys ∧ x.shape = shape ∧ x.WF ∧ AdvInputs idx ys) := by
  obtain ⟨f, hf, rfl⟩ := advParse_ok hd hP
  refine ⟨f, hf.first, ?_⟩
  have h := (advContract hf hd (by
    rintro ⟨h1, h2, h3⟩
    rcases hl h1 with h | h
    · omega
    · exact h3 (h f (List.mem_of_head? hf.first)))).incremental
  simp only [Adv.select, hf.shape_eq] at h
  exact h

/-- **C32** (reverse lookup), for `A` as in `C32_indexed_partial`: after every history the lookup from a position of `A` to the
entries of the index arrays addressing it lists exactly these, each once. -/
theorem C32_reverse_partial (shape : List Int) (minSize : Option Int) (idx : List (Option Indexer)) (P : Adv)
    (hd : ∀ d ∈ shape, 0 < d) (hP : advParse shape minSize idx = .ok P)
    (hl : separated (idx.map Option.isSome) = true → leading (idx.map Option.isSome) = 0 ∨ ∀ f ∈ idx.reduceOption, f.shape = [])
    {xs : List (Arr Rat)} {rounds : List (Round (Arr Rat) (List (Update Rat)))} {x : Arr Rat} {ys : List (Arr Rat)}
    (h0 : (advNode idx P).ok xs) (hh : Legal ArrRel (advNode idx P).ok xs rounds (x :: ys)) :
    ∃ s0 s, (advNode idx P).init xs = .ok s0 ∧ rounds.foldlM (advNode idx P).round s0 = .ok s ∧
      ∀ o : Int, (s.reverse o).Nodup ∧ ∀ t : Nat, t ∈ s.reverse o ↔ t < (ys.headD ⟨[], []⟩).data.length ∧
        o = rowMajor shape (mergeCoords (idx.map Option.isSome) (ys.map fun y => toSS (y.data.getD t 0))
          ((sliceDims (idx.map Option.isSome) shape).map fun _ => 0)) := by
  obtain ⟨f, hf, rfl⟩ := advParse_ok hd hP
  have hl' : ¬ (separated (idx.map Option.isSome) = true ∧ 0 < leading (idx.map Option.isSome) ∧ f.shape ≠ []) := by
    rintro ⟨h1, h2, h3⟩
    rcases hl h1 with h | h
    · omega
    · exact h3 (h f (List.mem_of_head? hf.first))
  obtain ⟨s0, e0, c0⟩ := (advContract hf hd hl').init h0
  obtain ⟨s, e, hc, ho⟩ := (advContract hf hd hl').settles hh s0 h0 c0
  refine ⟨s0, s, e0, e, ?_⟩
  obtain ⟨x', ys', hxy, hs, hw, hy⟩ := ho
  obtain ⟨rfl, rfl⟩ := List.cons.inj hxy
  have hc' : AdvClean (advBuilt shape idx f) true s x ys := hc
  have hr := hc'.reverse hc'.track
  have hi := hf.indices hy
  intro o
  refine ⟨(hr o).1, fun t => ?_⟩
  rw [(hr o).2 t, hc'.offsets]
  have key : ∀ t, t < advSize ys → offsetAt (idx.map Option.isSome) (itemStrides shape) ys t =
      rowMajor shape (mergeCoords (idx.map Option.isSome) (ys.map fun y => toSS (y.data.getD t 0))
          ((sliceDims (idx.map Option.isSome) shape).map fun _ => 0)) := by
    intro t ht
    have hin : InShape (arrayDims (idx.map Option.isSome) shape) (Adv.indexAt ys t) := hi.inside t ht
    have hkl : (idx.map Option.isSome).length = shape.length := by rw [List.length_map]; exact hf.len
    have hsl : (itemStrides shape).length = shape.length := itemStrides_length _
    have h0s : InShape (sliceDims (idx.map Option.isSome) shape) ((sliceDims (idx.map Option.isSome) shape).map fun _ => 0) := by
      have hp := sliceDims_pos (kinds := idx.map Option.isSome) hd
      generalize sliceDims (idx.map Option.isSome) shape = l at hp
      induction l with
      | nil => trivial
      | cons a l ih => exact ⟨le_refl _, hp a (by simp), ih (fun d hd => hp d (by simp [hd]))⟩
    have hm := InShape.merge hkl hin h0s
    change _ = rowMajor shape (mergeCoords _ (Adv.indexAt ys t) _)
    rw [← byteOffset_items hm.length, byteOffset_merge (by rw [hkl, hsl]) (by
      have := hin.length
      rw [arrayDims_length (l' := shape) hsl]
      simpa [Adv.indexAt] using this) (by
      rw [sliceDims_length (l' := shape) hsl]; simp)]
    have hz : ∀ (l st : List Int), byteOffset st (l.map fun _ => 0) = 0 := by
      intro l
      induction l with
      | nil => intro st; cases st <;> simp [byteOffset]
      | cons a l ih =>
        intro st
        cases st with
        | nil => simp [byteOffset]
        | cons b st => rw [List.map_cons, byteOffset, ih]; simp
    rw [hz, add_zero]
    rfl
  constructor
  · intro h
    obtain ⟨h1, h2⟩ := offsetsOf_get h
    exact ⟨h1, by rw [h2]; exact key t h1⟩
  · rintro ⟨h1, h2⟩
    rw [h2, ← key t h1]
    show (offsetsOf (idx.map Option.isSome) (itemStrides shape) ys (advSize ys))[t]? = _
    have h1' : t < advSize ys := h1
    simp only [offsetsOf, List.getElem?_map, List.getElem?_range h1', Option.map_some]

/-! ## Concrete cases -/

/-- An index array of `n` integers from 0 to `m` (`n = -1`: of any number). -/
def ixs (n : Int) (m : Rat) : Option Indexer := some ⟨[n], true, 0, m, true⟩

/-- An index array without dimensions. -/
def ix0 (m : Rat) : Option Indexer := some ⟨[], true, 0, m, true⟩

/-- Build `x[...]`, initialise it, and let it propagate a change: value and reported change. -/
def advRun (minSize : Option Int) (idx : List (Option Indexer)) (x : Arr Rat) (ys : List (Arr Rat)) (x' : Arr Rat)
    (d : List (Update Rat)) (ins : List (Arr Rat × List (Update Rat))) : Res (Arr Rat × List (Update Rat)) := do
  let P ← advParse x.shape minSize idx
  let s ← (advNode idx P).init (x :: ys)
  let s ← (advNode idx P).propagate s ((x', d) :: ins)
  .ok ((advNode idx P).view s, (advNode idx P).diff s)

/-- `A[:, i, j]` with `A` of shape (2, 2, 2) is accepted ... -/
example : (∀ d ∈ ([2, 2, 2] : List Int), 0 < d) ∧ (∃ P, advParse [2, 2, 2] none [none, ixs 2 1, ixs 2 1] = .ok P ∧ P.shape = [2, 2]) ∧
    AdvInputs [none, ixs 2 1, ixs 2 1] [⟨[2], [0, 1]⟩, ⟨[2], [1, 1]⟩] := by
  refine ⟨by decide, ⟨_, rfl, by decide⟩, ?_, by decide⟩
  refine .cons ⟨rfl, by decide, ?_⟩ (.cons ⟨rfl, by decide, ?_⟩ .nil) <;> decide +kernel

/-- ... and when `A` and the index arrays change at once, each entry of the result is reported with its old and new value. -/
example : advRun none [none, ixs 2 1, ixs 2 1] ⟨[2, 2, 2], [0, 1, 2, 3, 4, 5, 6, 7]⟩ [⟨[2], [0, 1]⟩, ⟨[2], [1, 1]⟩]
    ⟨[2, 2, 2], [0, 1, 20, 3, 4, 50, 6, 7]⟩ [Update.change 2 2 20, Update.change 5 5 50]
    [(⟨[2], [0, 1]⟩, []), (⟨[2], [1, 0]⟩, [Update.change 1 1 0])] =
    .ok (⟨[2, 2], [1, 20, 50, 6]⟩, [Update.change 1 3 20, Update.change 3 7 6, Update.change 2 5 50]) := by decide +kernel

/-- Index arrays that grow: `A[i]` with `i` of any length. -/
example : advRun none [ixs (-1) 3] ⟨[4], [10, 11, 12, 13]⟩ [⟨[-1], [3, 1]⟩] ⟨[4], [10, 11, 12, 130]⟩ [Update.change 3 13 130]
    [(⟨[-1], [3, 1, 2, 3]⟩, [Update.placement 2 2, Update.placement 3 3])] =
    .ok (⟨[-1], [130, 11, 12, 130]⟩, [Update.placement 2 12, Update.placement 3 130, Update.change 0 13 130]) := by decide +kernel

/-! ## Where C32 is false -/

/-- **C32 fails** for `A[:, i, :, j]`: a change of `A` is looked up under a wrong position (`get_mapped_index` multiplies the position on
the leading slice with the stride of the index axis), here beyond the data. -/
theorem C32_separated_fails :
    ArrRel (⟨[2, 2, 2, 2], (List.range 16).map fun (n : Nat) => (n : Rat)⟩ : Arr Rat) [Update.change 8 8 100]
      ⟨[2, 2, 2, 2], ((List.range 16).map fun (n : Nat) => (n : Rat)).set 8 100⟩ ∧
    (∃ P, advParse [2, 2, 2, 2] none [none, ixs 2 1, none, ixs 2 1] = .ok P) ∧
    advRun none [none, ixs 2 1, none, ixs 2 1] ⟨[2, 2, 2, 2], (List.range 16).map fun (n : Nat) => (n : Rat)⟩
      [⟨[2], [0, 1]⟩, ⟨[2], [0, 1]⟩] ⟨[2, 2, 2, 2], ((List.range 16).map fun (n : Nat) => (n : Rat)).set 8 100⟩ [Update.change 8 8 100]
      [(⟨[2], [0, 1]⟩, []), (⟨[2], [0, 1]⟩, [])] = .ub := by
  refine ⟨by decide +kernel, ⟨_, rfl⟩, by decide +kernel⟩

/-- **C32 fails** for `A[:, i]` with `A` of a varying number of rows and `i` without dimensions: accepted, but it cannot be initialised. -/
theorem C32_column_fails :
    ∃ P, advParse [-1, 2] (some 0) [none, ix0 1] = .ok P ∧
      (advNode [none, ix0 1] P).init [⟨[-1, 2], [0, 1, 2, 3]⟩, ⟨[], [1]⟩] = .throw := by
  refine ⟨_, rfl, ?_⟩
  rfl

/-- **C32 fails** for `A[:, :, i]` with `A` of a varying number of rows of shape (2, 2): a new row violates an assertion. -/
theorem C32_rows_fails :
    ArrRel (⟨[-1, 2, 2], []⟩ : Arr Rat) [Update.placement 0 0, Update.placement 1 1, Update.placement 2 2, Update.placement 3 3]
      ⟨[-1, 2, 2], [0, 1, 2, 3]⟩ ∧
    (∃ P, advParse [-1, 2, 2] (some 0) [none, none, ixs 2 1] = .ok P) ∧
    advRun (some 0) [none, none, ixs 2 1] ⟨[-1, 2, 2], []⟩ [⟨[2], [0, 1]⟩] ⟨[-1, 2, 2], [0, 1, 2, 3]⟩
      [Update.placement 0 0, Update.placement 1 1, Update.placement 2 2, Update.placement 3 3] [(⟨[2], [0, 1]⟩, [])] = .ub := by
  refine ⟨by decide +kernel, ⟨_, rfl⟩, by decide +kernel⟩

/-- **C32 fails** for `A[i]` with `A` of varying size, when an addressed element is removed and put back in one propagation: the
assertion compares NaN with NaN. -/
theorem C32_replaced_fails :
    ArrRel (⟨[-1], [5]⟩ : Arr Rat) [Update.removal 0 5, Update.placement 0 6] ⟨[-1], [6]⟩ ∧
    (∃ P, advParse [-1] (some 1) [ixs 1 0] = .ok P) ∧
    advRun (some 1) [ixs 1 0] ⟨[-1], [5]⟩ [⟨[1], [0]⟩] ⟨[-1], [6]⟩ [Update.removal 0 5, Update.placement 0 6] [(⟨[1], [0]⟩, [])] = .ub := by
  refine ⟨by decide +kernel, ⟨_, rfl⟩, by decide +kernel⟩

/-- **C32 fails** for `A[i]` with `A` of shape (1, 0): initialisation divides by zero. -/
theorem C32_empty_fails :
    ∃ P, advParse [1, 0] none [ixs 1 0, none] = .ok P ∧
      (advNode [ixs 1 0, none] P).init [⟨[1, 0], []⟩, ⟨[1], [0]⟩] = .ub := by
  refine ⟨_, rfl, ?_⟩
  rfl

end Verif
