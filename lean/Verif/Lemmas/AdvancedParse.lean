import Verif.Lemmas.AdvancedCore
import Mathlib.Data.List.ReduceOption

/-!
# Advanced indexing: what the constructor accepts (lemmas)
-/

set_option linter.unusedSimpArgs false
set_option linter.unusedVariables false

namespace Verif

/-- An index of an axis of size `d` is a full slice, or an array declaring integers from 0 to `d - 1`. -/
def IdxFits (d : Int) (i : Option Indexer) : Prop := ∀ j ∈ i, j.integral = true ∧ 0 ≤ j.min ∧ j.max < d

theorem advBound_eq {stride0 : Int} {minSize : Option Int} {axis : Nat} {d : Int} {m : Rat} (h : 0 ≤ d) :
    advBound stride0 minSize axis d m = guardThrow (m < d) := by
  unfold advBound
  rw [if_neg (by omega)]
  congr 1
  simp

/-- The first index array and the others of one shape. -/
def AgreeWith (f : Indexer) (l : List Indexer) : Prop := ∀ i ∈ l, i.agrees = true ∧ i.shape.length = f.shape.length

theorem guardThrow_cases (p : Prop) [Decidable p] : (p ∧ guardThrow p = .ok ()) ∨ (¬ p ∧ guardThrow p = .throw) := by
  by_cases h : p
  · exact Or.inl ⟨h, guardThrow_true h⟩
  · right; refine ⟨h, ?_⟩; simp [guardThrow, h]

theorem advScan_after {stride0 : Int} {minSize : Option Int} {k : Nat} {f : Indexer} :
    ∀ {idx : List (Option Indexer)} {shape : List Int} {axis : Nat} {s : AdvScan}, s.first = some (k, f) →
      idx.length = shape.length → (∀ d ∈ shape, 0 ≤ d) →
      ((List.Forall₂ IdxFits shape idx ∧ AgreeWith f idx.reduceOption) ∧
        ∃ s', advScan stride0 minSize axis shape idx s = .ok s' ∧ s'.first = some (k, f) ∧
          s'.separated = (s.separated || if s.sliceAfter then (idx.map Option.isSome).any id
            else ((idx.map Option.isSome).dropWhile id).any id)) ∨
      (¬ (List.Forall₂ IdxFits shape idx ∧ AgreeWith f idx.reduceOption) ∧
        advScan stride0 minSize axis shape idx s = .throw)
  | [], [], axis, s, hf, _, _ => by
    left
    refine ⟨⟨.nil, by simp [AgreeWith]⟩, s, rfl, hf, ?_⟩
    cases s.sliceAfter <;> simp
  | none :: idx, d :: shape, axis, s, hf, hl, hd => by
    have ih := advScan_after (stride0 := stride0) (minSize := minSize) (k := k) (f := f) (idx := idx) (shape := shape) (axis := axis + 1)
      (s := { s with sliceAfter := s.sliceAfter || s.first.isSome }) hf (by simpa using hl) (fun e he => hd e (by simp [he]))
    have hnone : IdxFits d none := by simp [IdxFits]
    rcases ih with ⟨⟨h1, h2⟩, s', h3, h4, h5⟩ | ⟨h1, h2⟩
    · left
      refine ⟨⟨.cons hnone h1, by simpa using h2⟩, s', h3, h4, ?_⟩
      rw [h5, hf]
      cases s.sliceAfter <;> simp
    · right
      refine ⟨?_, h2⟩
      rintro ⟨h3, h4⟩
      exact h1 ⟨(List.forall₂_cons.1 h3).2, by simpa using h4⟩
  | some i :: idx, d :: shape, axis, s, hf, hl, hd => by
    simp only [advScan]
    rw [advBound_eq (hd d (by simp))]
    rcases guardThrow_cases (i.integral = true) with ⟨g1, e1⟩ | ⟨g1, e1⟩
    swap
    · right
      rw [e1]
      refine ⟨?_, rfl⟩
      rintro ⟨h3, h4⟩
      exact g1 ((List.forall₂_cons.1 h3).1 i rfl).1
    rcases guardThrow_cases (¬ i.min < 0) with ⟨g2, e2⟩ | ⟨g2, e2⟩
    swap
    · right
      rw [e1, e2]
      refine ⟨?_, rfl⟩
      rintro ⟨h3, h4⟩
      exact g2 (not_lt.2 ((List.forall₂_cons.1 h3).1 i rfl).2.1)
    rcases guardThrow_cases (i.max < (d : Rat)) with ⟨g3, e3⟩ | ⟨g3, e3⟩
    swap
    · right
      rw [e1, e2, e3]
      refine ⟨?_, rfl⟩
      rintro ⟨h3, h4⟩
      exact g3 ((List.forall₂_cons.1 h3).1 i rfl).2.2
    have hag : (i.agrees = true ∧ i.shape.length = f.shape.length ∧ advAgrees s.first i = .ok ()) ∨
        (¬ (i.agrees = true ∧ i.shape.length = f.shape.length) ∧ advAgrees s.first i = .throw) := by
      unfold advAgrees
      rw [hf]
      simp only
      rcases guardThrow_cases (i.agrees = true) with ⟨g4, e4⟩ | ⟨g4, e4⟩
      · rcases guardThrow_cases (i.shape.length = f.shape.length) with ⟨g5, e5⟩ | ⟨g5, e5⟩
        · left; rw [e4, e5]; exact ⟨g4, g5, rfl⟩
        · right; rw [e4, e5]; exact ⟨fun h => g5 h.2, rfl⟩
      · right; rw [e4]; exact ⟨fun h => g4 h.1, rfl⟩
    rcases hag with ⟨g4, g5, e4⟩ | ⟨g4, e4⟩
    swap
    · right
      rw [e1, e2, e3, e4]
      refine ⟨?_, rfl⟩
      rintro ⟨h3, h4⟩
      exact g4 (h4 i (by simp))
    rw [e1, e2, e3, e4]
    simp only [Res.ok_bind]
    have ih := advScan_after (stride0 := stride0) (minSize := minSize) (k := k) (f := f) (idx := idx) (shape := shape) (axis := axis + 1)
      (s := { s with first := s.first.or (some (axis, i)), separated := s.separated || s.sliceAfter }) (by simp [hf])
      (by simpa using hl) (fun e he => hd e (by simp [he]))
    rcases ih with ⟨⟨h1, h2⟩, s', h3, h4, h5⟩ | ⟨h1, h2⟩
    · left
      refine ⟨⟨.cons ?_ h1, ?_⟩, s', h3, h4, ?_⟩
      · intro j hj
        cases hj
        exact ⟨g1, not_lt.1 g2, g3⟩
      · intro j hj
        rw [List.reduceOption_cons_of_some, List.mem_cons] at hj
        rcases hj with rfl | hj
        · exact ⟨g4, g5⟩
        · exact h2 j hj
      · rw [h5]
        cases s.sliceAfter <;> simp
    · right
      refine ⟨?_, h2⟩
      rintro ⟨h3, h4⟩
      exact h1 ⟨(List.forall₂_cons.1 h3).2, fun j hj => h4 j (by simp [hj])⟩
  | [], _ :: _, _, _, _, hl, _ => by simp at hl
  | _ :: _, [], _, _, _, hl, _ => by simp at hl

theorem advScan_before {stride0 : Int} {minSize : Option Int} :
    ∀ {idx : List (Option Indexer)} {shape : List Int} {axis : Nat},
      idx.length = shape.length → (∀ d ∈ shape, 0 ≤ d) →
      ((List.Forall₂ IdxFits shape idx ∧ ∀ f ∈ idx.reduceOption.head?, AgreeWith f idx.reduceOption.tail) ∧
        ∃ s', advScan stride0 minSize axis shape idx ⟨none, false, false⟩ = .ok s' ∧
          s'.first = idx.reduceOption.head?.map (fun f => (axis + leading (idx.map Option.isSome), f)) ∧
          s'.separated = separated (idx.map Option.isSome)) ∨
      (¬ (List.Forall₂ IdxFits shape idx ∧ ∀ f ∈ idx.reduceOption.head?, AgreeWith f idx.reduceOption.tail) ∧
        advScan stride0 minSize axis shape idx ⟨none, false, false⟩ = .throw)
  | [], [], axis, _, _ => by
    left
    exact ⟨⟨.nil, by simp⟩, _, rfl, rfl, rfl⟩
  | none :: idx, d :: shape, axis, hl, hd => by
    have ih := advScan_before (stride0 := stride0) (minSize := minSize) (idx := idx) (shape := shape) (axis := axis + 1)
      (by simpa using hl) (fun e he => hd e (by simp [he]))
    have hnone : IdxFits d none := by simp [IdxFits]
    simp only [advScan, Option.isSome_none, Bool.or_false]
    rcases ih with ⟨⟨h1, h2⟩, s', h3, h4, h5⟩ | ⟨h1, h2⟩
    · left
      refine ⟨⟨.cons hnone h1, by simpa using h2⟩, s', h3, ?_, ?_⟩
      · rw [h4]
        simp [leading, List.findIdx_cons]
        congr 1
        funext f
        congr 1
        omega
      · rw [h5]; simp [separated]
    · right
      refine ⟨?_, h2⟩
      rintro ⟨h3, h4⟩
      exact h1 ⟨(List.forall₂_cons.1 h3).2, by simpa using h4⟩
  | some i :: idx, d :: shape, axis, hl, hd => by
    simp only [advScan]
    rw [advBound_eq (hd d (by simp))]
    rcases guardThrow_cases (i.integral = true) with ⟨g1, e1⟩ | ⟨g1, e1⟩
    swap
    · right
      rw [e1]
      refine ⟨?_, rfl⟩
      rintro ⟨h3, h4⟩
      exact g1 ((List.forall₂_cons.1 h3).1 i rfl).1
    rcases guardThrow_cases (¬ i.min < 0) with ⟨g2, e2⟩ | ⟨g2, e2⟩
    swap
    · right
      rw [e1, e2]
      refine ⟨?_, rfl⟩
      rintro ⟨h3, h4⟩
      exact g2 (not_lt.2 ((List.forall₂_cons.1 h3).1 i rfl).2.1)
    rcases guardThrow_cases (i.max < (d : Rat)) with ⟨g3, e3⟩ | ⟨g3, e3⟩
    swap
    · right
      rw [e1, e2, e3]
      refine ⟨?_, rfl⟩
      rintro ⟨h3, h4⟩
      exact g3 ((List.forall₂_cons.1 h3).1 i rfl).2.2
    rw [e1, e2, e3]
    simp only [advAgrees, Res.ok_bind, Option.none_or, Bool.or_false]
    have ih := advScan_after (stride0 := stride0) (minSize := minSize) (k := axis) (f := i) (idx := idx) (shape := shape) (axis := axis + 1)
      (s := ⟨some (axis, i), false, false⟩) rfl (by simpa using hl) (fun e he => hd e (by simp [he]))
    rcases ih with ⟨⟨h1, h2⟩, s', h3, h4, h5⟩ | ⟨h1, h2⟩
    · left
      refine ⟨⟨.cons ?_ h1, ?_⟩, s', h3, ?_, ?_⟩
      · intro j hj
        cases hj
        exact ⟨g1, not_lt.1 g2, g3⟩
      · intro f hf
        simp at hf
        subst hf
        simpa using h2
      · rw [h4]
        simp [leading, List.findIdx_cons]
      · rw [h5]
        simp [separated]
    · right
      refine ⟨?_, h2⟩
      rintro ⟨h3, h4⟩
      refine h1 ⟨(List.forall₂_cons.1 h3).2, ?_⟩
      have := h4 i (by simp)
      simpa using this
  | [], _ :: _, _, hl, _ => by simp at hl
  | _ :: _, [], _, hl, _ => by simp at hl

theorem advSlices_eq : ∀ {idx : List (Option Indexer)} {shape : List Int}, advSlices shape idx = sliceDims (idx.map Option.isSome) shape
  | [], shape => by cases shape <;> rfl
  | some i :: idx, d :: shape => by simp only [advSlices, List.map_cons, Option.isSome_some, sliceDims]; exact advSlices_eq
  | none :: idx, d :: shape => by
    simp only [advSlices, List.map_cons, Option.isSome_none, sliceDims]; rw [advSlices_eq]
  | some i :: idx, [] => rfl
  | none :: idx, [] => rfl

theorem advShape2_hit {a : List Int} : ∀ {idx : List (Option Indexer)} {shape : List Int},
    advShape2 a true shape idx = sliceDims (idx.map Option.isSome) shape
  | [], shape => by cases shape <;> rfl
  | some i :: idx, d :: shape => by simp only [advShape2, List.map_cons, Option.isSome_some, sliceDims]; exact advShape2_hit
  | none :: idx, d :: shape => by
    simp only [advShape2, List.map_cons, Option.isSome_none, sliceDims]; rw [advShape2_hit]
  | some i :: idx, [] => rfl
  | none :: idx, [] => rfl

theorem advShape2_eq {n : Int} : ∀ {idx : List (Option Indexer)} {shape : List Int}, idx.length = shape.length →
    idx.reduceOption ≠ [] →
    advShape2 [n] false shape idx = (sliceDims (idx.map Option.isSome) shape).insertIdx (leading (idx.map Option.isSome)) n
  | [], shape, _, h => absurd rfl h
  | some i :: idx, d :: shape, hl, _ => by
    simp only [advShape2, List.map_cons, Option.isSome_some, sliceDims, advShape2_hit, leading, List.findIdx_cons, id, cond_true,
      List.insertIdx_zero, List.singleton_append]
  | none :: idx, d :: shape, hl, h => by
    have := advShape2_eq (n := n) (idx := idx) (shape := shape) (by simpa using hl) (by simpa using h)
    simp only [advShape2, List.map_cons, Option.isSome_none, sliceDims, leading, List.findIdx_cons, id, cond_false,
      List.insertIdx_succ_cons] at this ⊢
    rw [this]
  | some i :: idx, [], hl, _ => by simp at hl
  | none :: idx, [], hl, _ => by simp at hl

/-- The dimension of the index arrays comes first in the node's data. -/
def advFront (kinds : List Bool) (f : Indexer) : Bool := separated kinds || leading kinds == 0 || f.shape.isEmpty

/-- What the constructor accepts when the indexed array has fixed size. -/
structure AdvAccept (shape : List Int) (idx : List (Option Indexer)) (f : Indexer) : Prop where
  len : idx.length = shape.length
  fits : List.Forall₂ IdxFits shape idx
  first : idx.reduceOption.head? = some f
  agree : AgreeWith f idx.reduceOption.tail
  rank : f.shape.length ≤ 1
  fixed : advFront (idx.map Option.isSome) f = false → ∀ i ∈ idx.reduceOption, ¬ dynamicShape i.shape = true

/-- What the constructor builds. -/
def advBuilt (shape : List Int) (idx : List (Option Indexer)) (f : Indexer) : Adv :=
  let kinds := idx.map Option.isSome
  let out := if advFront kinds f then f.shape ++ sliceDims kinds shape else advShape2 f.shape false shape idx
  ⟨kinds, advFront kinds f, f.shape.length, leading kinds, shape, out, advSubspace out f.shape.length (advFront kinds f) (leading kinds)⟩

theorem advParse_fixed {shape : List Int} {minSize : Option Int} {idx : List (Option Indexer)} (hd : ∀ d ∈ shape, 0 ≤ d) (hne : shape ≠ []) :
    (∀ f, AdvAccept shape idx f → advParse shape minSize idx = .ok (advBuilt shape idx f)) ∧
    ((¬ ∃ f, AdvAccept shape idx f) → advParse shape minSize idx = .throw) := by
  unfold advParse
  rcases guardThrow_cases (idx.length = shape.length) with ⟨g1, e1⟩ | ⟨g1, e1⟩
  swap
  · rw [e1]
    exact ⟨fun f h => absurd h.len g1, fun _ => rfl⟩
  rw [e1, guardUB_true hne]
  simp only [Res.ok_bind]
  have hdyn : ¬ dynamicShape shape = true := by
    cases shape with
    | nil => simp [dynamicShape]
    | cons d shape => have := hd d (by simp); simp [dynamicShape]; omega
  rcases advScan_before (stride0 := (shapeToStrides shape).headD 0) (minSize := minSize) (axis := 0) g1 hd with
    ⟨⟨h1, h2⟩, s', h3, h4, h5⟩ | ⟨h1, h2⟩
  swap
  · rw [h2]
    refine ⟨fun f h => absurd ⟨h.fits, fun g hg => ?_⟩ h1, fun _ => rfl⟩
    rw [h.first] at hg
    cases hg
    exact h.agree
  rw [h3]
  simp only [Res.ok_bind]
  rw [h4]
  cases hf : idx.reduceOption.head? with
  | none =>
    simp only [Option.map_none]
    refine ⟨fun f h => ?_, fun _ => trivial⟩
    have := h.first
    rw [hf] at this
    cases this
  | some f =>
    simp only [Option.map_some, Nat.zero_add, h5]
    rw [guardThrow_true (by rintro ⟨_, h, _⟩; exact hdyn h)]
    simp only [Res.ok_bind]
    rcases guardThrow_cases (f.shape.length ≤ 1) with ⟨g2, e2⟩ | ⟨g2, e2⟩
    swap
    · rw [e2]
      refine ⟨fun f' h => ?_, fun _ => rfl⟩
      have := h.first
      rw [hf] at this
      cases this
      exact absurd h.rank g2
    rw [e2]
    simp only [Res.ok_bind]
    have hfr : (separated (idx.map Option.isSome) || leading (idx.map Option.isSome) == 0 || f.shape.isEmpty) =
        advFront (idx.map Option.isSome) f := rfl
    rw [hfr]
    rcases guardThrow_cases (advFront (idx.map Option.isSome) f = false → ∀ i ∈ idx.reduceOption, ¬ dynamicShape i.shape = true) with
      ⟨g3, e3⟩ | ⟨g3, e3⟩
    · rw [e3]
      simp only [Res.ok_bind]
      refine ⟨fun f' h => ?_, fun hno => absurd ⟨f, g1, h1, hf, h2 f (by rw [hf]; rfl), g2, g3⟩ hno⟩
      have := h.first
      rw [hf] at this
      cases this
      unfold advBuilt
      rw [advSlices_eq]
    · rw [e3]
      refine ⟨fun f' h => ?_, fun _ => rfl⟩
      have := h.first
      rw [hf] at this
      cases this
      exact absurd h.fixed g3

variable {shape : List Int} {idx : List (Option Indexer)} {f : Indexer}

theorem AdvAccept.some (h : AdvAccept shape idx f) : idx.reduceOption ≠ [] := by
  intro e; have := h.first; rw [e] at this; cases this

theorem any_isSome : ∀ {idx : List (Option Indexer)}, idx.reduceOption ≠ [] → (idx.map Option.isSome).any id = true
  | [], h => absurd rfl h
  | some i :: idx, _ => by simp
  | none :: idx, h => by
    have := any_isSome (idx := idx) (by simpa using h)
    simpa using this

theorem AdvAccept.good (h : AdvAccept shape idx f) (hpos : ∀ d ∈ shape, 0 < d) : AdvGood (advBuilt shape idx f) where
  any := any_isSome h.some
  len := by simp only [advBuilt, List.length_map]; exact h.len
  pos := hpos
  first := rfl
  one := by
    intro hb
    have hb' : advFront (idx.map Option.isSome) f = true := hb
    have hshape : (advBuilt shape idx f).shape = f.shape ++ sliceDims (idx.map Option.isSome) shape := by
      simp only [advBuilt, if_pos hb']
    refine ⟨h.rank, ?_, ?_, ?_, ?_⟩
    · rw [hshape]; simp [advBuilt]
    · rw [hshape]; simp [advBuilt]
    · have hsub : (advBuilt shape idx f).subspace =
          advSubspace (f.shape ++ sliceDims (idx.map Option.isSome) shape) f.shape.length true (leading (idx.map Option.isSome)) := by
        simp only [advBuilt, hb', if_true]
      rw [hsub]
      change _ = shapeProd (sliceDims (idx.map Option.isSome) shape)
      have hr := h.rank
      match hfs : f.shape, hr with
      | [], _ =>
        simp only [List.nil_append, List.length_nil]
        cases hs : sliceDims (idx.map Option.isSome) shape with
        | nil => rfl
        | cons d rest =>
          simp only [advSubspace, if_true, itemStrides_cons, List.headD_cons, shapeProd]
          ring
      | [n], _ =>
        simp only [List.singleton_append, List.length_singleton, advSubspace, one_ne_zero, if_false, if_true, Nat.sub_self,
          itemStrides_cons, List.getD_cons_zero]
      | _ :: _ :: _, hr => simp at hr
    · simp only [advFront, Bool.or_eq_true, beq_iff_eq, List.isEmpty_iff] at hb'
      rcases hb' with (h1 | h1) | h1
      · exact Or.inl h1
      · exact Or.inr (Or.inl h1)
      · right; right; simp [advBuilt, h1]
  two := by
    intro hb
    have hb' : advFront (idx.map Option.isSome) f = false := hb
    have hfix := h.fixed hb'
    have hb2 := hb'
    simp only [advFront, Bool.or_eq_false_iff, beq_eq_false_iff_ne, List.isEmpty_eq_false_iff] at hb2
    obtain ⟨⟨h1, h2⟩, h3⟩ := hb2
    obtain ⟨n, hn⟩ : ∃ n, f.shape = [n] := by
      have hr := h.rank
      match hfs : f.shape, hr with
      | [], _ => exact absurd hfs h3
      | [n], _ => exact ⟨n, rfl⟩
      | _ :: _ :: _, hr => simp at hr
    have hn0 : 0 ≤ n := by
      have hm : f ∈ idx.reduceOption := List.mem_of_head? h.first
      have := hfix f hm
      rw [hn] at this
      simpa [dynamicShape] using this
    have hshape : (advBuilt shape idx f).shape =
        (sliceDims (idx.map Option.isSome) shape).insertIdx (leading (idx.map Option.isSome)) n := by
      have : (advBuilt shape idx f).shape = advShape2 f.shape false shape idx := by
        simp only [advBuilt, hb', Bool.false_eq_true, if_false]
      rw [this, hn, advShape2_eq h.len h.some]
    have hle : leading (idx.map Option.isSome) ≤ (sliceDims (idx.map Option.isSome) shape).length :=
      leading_le_slices (by rw [List.length_map]; exact h.len)
    refine ⟨h1, by simp [advBuilt, hn], Nat.pos_of_ne_zero h2, ?_, n.toNat, ?_⟩
    · have hsub : (advBuilt shape idx f).subspace = advSubspace (advBuilt shape idx f).shape f.shape.length false (leading (idx.map Option.isSome)) := by
        simp only [advBuilt, hb']
      rw [hsub, hshape]
      change _ = shapeProd ((sliceDims (idx.map Option.isSome) shape).drop (leading (idx.map Option.isSome)))
      rw [← itemStrides_insert (n := n) hle]
      unfold advSubspace
      have hne : (sliceDims (idx.map Option.isSome) shape).insertIdx (leading (idx.map Option.isSome)) n ≠ [] := by
        intro e
        have := congrArg List.length e
        rw [List.length_insertIdx_of_le_length hle] at this
        simp at this
      cases hc : (sliceDims (idx.map Option.isSome) shape).insertIdx (leading (idx.map Option.isSome)) n with
      | nil => exact absurd hc hne
      | cons d rest => simp [hn]
    · rw [hshape, Int.toNat_of_nonneg hn0]
      rfl

/-! ## Index arrays -/

theorem toSS_den {v : Rat} (h : v.den = 1) : toSS v = v.num ∧ (v.num : Rat) = v := by
  constructor
  · unfold toSS; rw [h]; simp
  · exact Rat.coe_int_num_of_den_eq_one h

theorem indices_inside : ∀ {idx : List (Option Indexer)} {shape : List Int} {ys : List (Arr Rat)} {t L : Nat},
    List.Forall₂ IdxFits shape idx → List.Forall₂ Indexer.Fits idx.reduceOption ys → (∀ y ∈ ys, y.data.length = L) → t < L →
    InShape (arrayDims (idx.map Option.isSome) shape) (Adv.indexAt ys t)
  | [], _, ys, t, L, h1, h2, _, _ => by
    cases h1
    simp at h2
    subst h2
    simp [arrayDims, Adv.indexAt, InShape]
  | none :: idx, _, ys, t, L, h1, h2, h3, h4 => by
    cases h1 with
    | cons ha hb => simpa [arrayDims] using indices_inside hb (by simpa using h2) h3 h4
  | some i :: idx, _, ys, t, L, h1, h2, h3, h4 => by
    cases h1 with
    | cons ha hb =>
      rename_i d shape
      rw [List.reduceOption_cons_of_some] at h2
      cases h2 with
      | cons hf hr =>
        rename_i y ys
        obtain ⟨hi, hmin, hmax⟩ := ha i rfl
        have hyl := h3 y (by simp)
        have hlt : t < y.data.length := by omega
        have hv : y.data.getD t 0 = y.data[t] := by
          rw [List.getD_eq_getElem?_getD, List.getElem?_eq_getElem hlt]; rfl
        obtain ⟨hden, hlo, hhi⟩ := hf.values y.data[t] (List.getElem_mem _)
        obtain ⟨e1, e2⟩ := toSS_den hden
        simp only [List.map_cons, Option.isSome_some, arrayDims, Adv.indexAt]
        refine ⟨?_, ?_, indices_inside hb hr (fun z hz => h3 z (by simp [hz])) h4⟩
        · rw [hv, e1]
          have : (0 : Rat) ≤ y.data[t] := le_trans hmin hlo
          rw [← e2] at this
          exact_mod_cast this
        · rw [hv, e1]
          have : y.data[t] < (d : Rat) := lt_of_le_of_lt hhi hmax
          rw [← e2] at this
          exact_mod_cast this

theorem AdvAccept.firstArray (h : AdvAccept shape idx f) {ys : List (Arr Rat)} (hy : AdvInputs idx ys) :
    ∃ y ys', ys = y :: ys' ∧ f.Fits y ∧ advSize ys = y.data.length := by
  have hf := hy.fits
  have h1 := h.first
  cases hr : idx.reduceOption with
  | nil => rw [hr] at h1; cases h1
  | cons g rest =>
    rw [hr] at hf h1
    simp at h1
    subst h1
    cases hf with
    | cons ha hb => exact ⟨_, _, rfl, ha, rfl⟩

theorem fixed_length {y : Arr Rat} {n : Int} (hw : y.WF) (hs : y.shape = [n]) (hn : 0 ≤ n) : (y.data.length : Int) = n := by
  unfold Arr.WF at hw
  have hd : y.dynamic = false := by simp [Arr.dynamic, hs, dynamicShape]; omega
  rw [hd, hs] at hw
  simpa using hw

theorem AdvAccept.indices (h : AdvAccept shape idx f) {ys : List (Arr Rat)} (hy : AdvInputs idx ys) :
    AdvIndices (advBuilt shape idx f) ys := by
  obtain ⟨y, ys', rfl, hf, hsz⟩ := h.firstArray hy
  refine ⟨by simp, hy.sizes, ⟨?_, ?_⟩, ?_⟩
  · intro _ h0
    have hfs : f.shape = [] := List.length_eq_zero_iff.1 h0
    have hw := hf.wf
    unfold Arr.WF at hw
    have hs := hf.shape
    rw [hfs] at hs
    have hd : y.dynamic = false := by simp [Arr.dynamic, hs, dynamicShape]
    rw [hd, hs] at hw
    simp at hw
    rw [hsz, hw]
  · intro hb
    have hb' : advFront (idx.map Option.isSome) f = false := hb
    have hfix := h.fixed hb'
    have hb2 := hb'
    simp only [advFront, Bool.or_eq_false_iff, beq_eq_false_iff_ne, List.isEmpty_eq_false_iff] at hb2
    obtain ⟨n, hn⟩ : ∃ n, f.shape = [n] := by
      have hr := h.rank
      match hfs : f.shape, hr with
      | [], _ => exact absurd hfs hb2.2
      | [n], _ => exact ⟨n, rfl⟩
      | _ :: _ :: _, hr => simp at hr
    have hn0 : 0 ≤ n := by
      have hm : f ∈ idx.reduceOption := List.mem_of_head? h.first
      have := hfix f hm
      rw [hn] at this
      simpa [dynamicShape] using this
    have hl := fixed_length hf.wf (by rw [hf.shape, hn]) hn0
    have : (advBuilt shape idx f).shape = advShape2 f.shape false shape idx := by
      simp only [advBuilt, hb', Bool.false_eq_true, if_false]
    rw [this, hn, advShape2_eq h.len h.some, hsz, hl]
    rfl
  · intro t ht
    exact indices_inside h.fits hy.fits (fun z hz => hy.sizes z hz) ht

/-- Unless the result may change its size, the index arrays do not. -/
theorem AdvAccept.sizes (h : AdvAccept shape idx f) {ys zs : List (Arr Rat)} (hy : AdvInputs idx ys) (hz : AdvInputs idx zs)
    (hs : dynamicShape (advBuilt shape idx f).shape = false ∨ (advBuilt shape idx f).bullet1 = false) : advSize ys = advSize zs := by
  obtain ⟨y, ys', rfl, hf, hsz⟩ := h.firstArray hy
  obtain ⟨z, zs', rfl, hg, hsz'⟩ := h.firstArray hz
  have hr := h.rank
  match hfs : f.shape, hr with
  | [], _ =>
    have hi1 := h.indices hy
    have hi2 := h.indices hz
    have hb : (advBuilt shape idx f).bullet1 = true := by simp [advBuilt, advFront, hfs]
    have h0 : (advBuilt shape idx f).indexNdim = 0 := by simp [advBuilt, hfs]
    rw [hi1.count.one hb h0, hi2.count.one hb h0]
  | [n], _ =>
    have hn0 : 0 ≤ n := by
      have hstat : advFront (idx.map Option.isSome) f = false → 0 ≤ n := by
        intro hb
        have hm : f ∈ idx.reduceOption := List.mem_of_head? h.first
        have := h.fixed hb f hm
        rw [hfs] at this
        simpa [dynamicShape] using this
      by_cases hb : advFront (idx.map Option.isSome) f = true
      · rcases hs with hs | hs
        · have : (advBuilt shape idx f).shape = f.shape ++ sliceDims (idx.map Option.isSome) shape := by
            simp only [advBuilt, if_pos hb]
          rw [this, hfs] at hs
          simpa [dynamicShape] using hs
        · have : (advBuilt shape idx f).bullet1 = true := hb
          rw [this] at hs; cases hs
      · exact hstat (by simpa using hb)
    have h1 := fixed_length hf.wf (by rw [hf.shape, hfs]) hn0
    have h2 := fixed_length hg.wf (by rw [hg.shape, hfs]) hn0
    omega
  | _ :: _ :: _, hr => simp at hr

end Verif
