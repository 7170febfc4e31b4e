import Verif.Spec.Combined
import Verif.Lemmas.ProgramRows

set_option linter.unusedSectionVars false
set_option linter.unusedSimpArgs false
set_option linter.unusedVariables false

/-! Helper lemmas: indexing with integers and slices first and with index arrays afterwards. -/

namespace Verif

open MixedIndex

/-! ## Integers and slices -/

/-- The coordinates in the indexed array of the element with given coordinates in the selection. -/
def liftCoords : List Int → List BasicIndex → List Int → List Int
  | n :: shape, .at i :: idx, cs => (if i < 0 then i + n else i) :: liftCoords shape idx cs
  | n :: shape, .slice a b c :: idx, k :: cs =>
    (((slicePositions a b c n.toNat).getD k.toNat 0 : Nat) : Int) :: liftCoords shape idx cs
  | _, _, _ => []

theorem flatMap_getD {β : Type} (l : List Nat) (f : Nat → List β) :
    l.flatMap f = (List.range l.length).flatMap fun i => f (l.getD i 0) := by
  have : l = (List.range l.length).map fun i => l.getD i 0 := by
    apply List.ext_getElem
    · simp
    · intro i h1 h2
      simp [List.getD_eq_getElem?_getD, List.getElem?_eq_getElem h1]
  conv_lhs => rw [this]
  rw [List.flatMap_map]

theorem selectCoords_lift : ∀ {shape : List Int} {idx : List BasicIndex}, SelectOk shape idx →
    selectCoords shape idx = (allCoords (selectShape shape idx)).map (liftCoords shape idx)
  | [], [], _ => rfl
  | n :: shape, .at i :: idx, h => by
    rw [selectCoords, selectCoords_lift h.2, selectShape, List.map_map]
    rfl
  | n :: shape, .slice a b c :: idx, h => by
    rw [selectCoords, selectCoords_lift h.2, selectShape, allCoords, flatMap_getD, List.map_flatMap]
    simp only [Int.toNat_natCast, List.map_map]
    rfl
  | [], _ :: _, h => h.elim
  | _ :: _, [], h => h.elim

/-- An element of a selection. -/
theorem basicSelect_getD {shape : List Int} {idx : List BasicIndex} (h : SelectOk shape idx) {data : List Rat} {c : List Int}
    (hc : InShape (selectShape shape idx) c) :
    (basicSelect shape data idx).getD (rowMajor (selectShape shape idx) c).toNat default =
      data.getD (rowMajor shape (liftCoords shape idx c)).toNat default := by
  unfold basicSelect
  rw [selectCoords_lift h, List.map_map, List.getD_eq_getElem?_getD, List.getElem?_map, allCoords_get hc]
  rfl

theorem slicePositions_all (n : Nat) : slicePositions none none none n = List.range n := by
  unfold slicePositions
  rw [List.filter_eq_self]
  intro i hi
  have := List.mem_range.1 hi
  simp [pyIndices]
  omega

/-! ## Choices -/

/-- The positions with the given numbers. -/
def pickPositions (ls : List (List Nat)) (ss : List Int) : List Int := ls.zipWith (fun l k => ((l.getD k.toNat 0 : Nat) : Int)) ss

theorem choices_eq : ∀ ls : List (List Nat), choices ls = (allCoords (ls.map fun l => (l.length : Int))).map (pickPositions ls)
  | [] => rfl
  | l :: ls => by
    rw [choices, choices_eq ls, List.map_cons, allCoords, flatMap_getD, List.map_flatMap]
    simp only [Int.toNat_natCast, List.map_map]
    rfl

theorem choices_append : ∀ a b : List (List Nat), choices (a ++ b) = (choices a).flatMap fun p => (choices b).map (p ++ ·)
  | [], b => by simp [choices]
  | l :: a, b => by
    simp only [choices, List.cons_append, choices_append a b, List.map_flatMap, List.flatMap_assoc, List.map_map, List.flatMap_map]
    rfl

/-! ## Mixed indices -/

/-- The indices of the first step: `:` in place of arrays. -/
def basics (idx : List MixedIndex) : List BasicIndex :=
  idx.map fun i => match i with
    | .at i => .at i
    | .slice a b c => .slice a b c
    | .array => .slice none none none

theorem axisKinds_at (i : Int) (idx : List MixedIndex) : axisKinds (.at i :: idx) = axisKinds idx := rfl
theorem axisKinds_slice (a b c : Option Int) (idx : List MixedIndex) : axisKinds (.slice a b c :: idx) = false :: axisKinds idx := rfl
theorem axisKinds_array (idx : List MixedIndex) : axisKinds (.array :: idx) = true :: axisKinds idx := rfl

theorem selectOk_basics : ∀ {shape : List Int} {idx : List MixedIndex}, Ok shape idx ↔ SelectOk shape (basics idx)
  | [], [] => Iff.rfl
  | n :: shape, .at i :: idx => by
    show _ ∧ _ ↔ _ ∧ _
    rw [selectOk_basics]
    rfl
  | n :: shape, .slice a b c :: idx => by
    show _ ∧ _ ↔ _ ∧ _
    rw [selectOk_basics]
    rfl
  | n :: shape, .array :: idx => by
    show _ ↔ _ ∧ _
    rw [show Ok (n :: shape) (.array :: idx) = Ok shape idx from rfl, selectOk_basics]
    simp
    rfl
  | [], _ :: _ => by simp [Ok, SelectOk, basics]
  | _ :: _, [] => by simp [Ok, SelectOk, basics]

theorem sliceDims_select : ∀ {shape : List Int} {idx : List MixedIndex}, Ok shape idx →
    sliceDims (axisKinds idx) (selectShape shape (basics idx)) = (positions shape idx).map fun l => (l.length : Int)
  | [], [], _ => rfl
  | n :: shape, .at i :: idx, h => sliceDims_select (shape := shape) (idx := idx) h.2
  | n :: shape, .slice a b c :: idx, h => congrArg (_ :: ·) (sliceDims_select (shape := shape) (idx := idx) h.2)
  | n :: shape, .array :: idx, h => sliceDims_select (shape := shape) (idx := idx) h
  | [], _ :: _, h => by simp [Ok] at h
  | _ :: _, [], h => by simp [Ok] at h

theorem selectShape_length : ∀ {shape : List Int} {idx : List MixedIndex}, Ok shape idx →
    (axisKinds idx).length = (selectShape shape (basics idx)).length
  | [], [], _ => rfl
  | n :: shape, .at i :: idx, h => selectShape_length (shape := shape) (idx := idx) h.2
  | n :: shape, .slice a b c :: idx, h => congrArg (· + 1) (selectShape_length (shape := shape) (idx := idx) h.2)
  | n :: shape, .array :: idx, h => congrArg (· + 1) (selectShape_length (shape := shape) (idx := idx) h)
  | [], _ :: _, h => by simp [Ok] at h
  | _ :: _, [], h => by simp [Ok] at h

theorem lift_merge : ∀ {shape : List Int} {idx : List MixedIndex} {is ss : List Int}, Ok shape idx →
    InShape (arrayDims (axisKinds idx) (selectShape shape (basics idx))) is → ss.length = (positions shape idx).length →
    liftCoords shape (basics idx) (mergeCoords (axisKinds idx) is ss) =
      mergeCoords (idx.map advanced) (fixed shape idx is) (pickPositions (positions shape idx) ss)
  | [], [], is, ss, _, _, _ => rfl
  | n :: shape, .at i :: idx, is, ss, h, h1, h2 => by
    have ih := lift_merge (shape := shape) (idx := idx) (is := is) (ss := ss) h.2 h1 h2
    show _ :: _ = _ :: _
    exact congrArg _ ih
  | n :: shape, .slice a b c :: idx, is, s :: ss, h, h1, h2 => by
    have ih := lift_merge (shape := shape) (idx := idx) (is := is) (ss := ss) h.2 h1 (by simpa [positions] using h2)
    show _ :: _ = _ :: _
    exact congrArg _ ih
  | n :: shape, .slice a b c :: idx, is, [], h, h1, h2 => by simp [positions] at h2
  | n :: shape, .array :: idx, i :: is, ss, h, h1, h2 => by
    have hi : 0 ≤ i ∧ i < ((slicePositions none none none n.toNat).length : Int) := ⟨h1.1, h1.2.1⟩
    have ih := lift_merge (shape := shape) (idx := idx) (is := is) (ss := ss) h h1.2.2 h2
    show (((slicePositions none none none n.toNat).getD i.toNat 0 : Nat) : Int) :: _ = i :: _
    rw [slicePositions_all] at hi ⊢
    rw [List.length_range] at hi
    have : (List.range n.toNat).getD i.toNat 0 = i.toNat := by
      rw [List.getD_eq_getElem?_getD, List.getElem?_range (by omega)]
      rfl
    rw [this, Int.toNat_of_nonneg hi.1]
    exact congrArg _ ih
  | n :: shape, .array :: idx, [], ss, h, h1, h2 => h1.elim
  | [], _ :: _, _, _, h, _, _ => by simp [Ok] at h
  | _ :: _, [], _, _, h, _, _ => by simp [Ok] at h

/-- The selected coordinates when the dimension of the index arrays comes after `L` of the others. -/
def mixedAt (L : Nat) (shape : List Int) (idx : List MixedIndex) (index : Nat → List Int) (count : Nat) : List (List Int) :=
  (choices ((positions shape idx).take L)).flatMap fun p =>
    (List.range count).flatMap fun (t : Nat) =>
      (choices ((positions shape idx).drop L)).map fun q =>
        mergeCoords (idx.map advanced) (fixed shape idx (index t)) (p ++ q)

theorem mixedAt_one {L : Nat} {shape : List Int} {idx : List MixedIndex} {index : Nat → List Int} :
    mixedAt L shape idx index 1 = (choices (positions shape idx)).map (mergeCoords (idx.map advanced) (fixed shape idx (index 0))) := by
  conv_rhs => rw [← List.take_append_drop L (positions shape idx), choices_append, List.map_flatMap]
  simp only [mixedAt, List.range_one, List.flatMap_singleton, List.map_map]
  rfl

/-- Both steps together. -/
theorem advSelect_basicSelect {shape : List Int} {idx : List MixedIndex} {data : List Rat} {index : Nat → List Int} {count : Nat}
    (h : Ok shape idx)
    (hi : ∀ t < count, InShape (arrayDims (axisKinds idx) (selectShape shape (basics idx))) (index t)) :
    advSelect (axisKinds idx) (selectShape shape (basics idx)) (basicSelect shape data (basics idx)) index count =
      (mixedAt (advLeft (axisKinds idx)) shape idx index count).map fun c => data.getD (rowMajor shape c).toNat default := by
  unfold advSelect advCoords mixedAt
  rw [sliceDims_select h, choices_eq, choices_eq, ← List.map_take, ← List.map_drop]
  simp only [List.map_flatMap, List.flatMap_map, List.map_map]
  refine List.flatMap_congr fun p hp => List.flatMap_congr fun t ht => List.map_congr_left fun q hq => ?_
  have hp' := mem_allCoords.1 hp
  have hq' := mem_allCoords.1 hq
  have hs : InShape (sliceDims (axisKinds idx) (selectShape shape (basics idx))) (p ++ q) := by
    rw [sliceDims_select h, ← List.take_append_drop (advLeft (axisKinds idx)) (positions shape idx), List.map_append]
    exact hp'.append hq'
  have hin := hi t (List.mem_range.1 ht)
  have hc := InShape.merge (selectShape_length h) hin hs
  simp only [Function.comp_apply]
  rw [basicSelect_getD (selectOk_basics.1 h) hc, lift_merge h hin (by
    rw [hs.length, sliceDims_select h, List.length_map])]
  congr 4
  unfold pickPositions
  conv_lhs => rw [← List.take_append_drop (advLeft (axisKinds idx)) (positions shape idx)]
  rw [List.zipWith_append]
  rw [hp'.length, List.length_map]

/-- Without index arrays. -/
theorem selectCoords_eq : ∀ {shape : List Int} {idx : List MixedIndex}, Ok shape idx → .array ∉ idx →
    selectCoords shape (basics idx) = (choices (positions shape idx)).map (mergeCoords (idx.map advanced) (fixed shape idx []))
  | [], [], _, _ => rfl
  | n :: shape, .at i :: idx, h, hn => by
    have ih := selectCoords_eq h.2 (fun hm => hn (List.mem_cons_of_mem _ hm))
    show (selectCoords shape (basics idx)).map _ = _
    rw [ih, List.map_map]
    rfl
  | n :: shape, .slice a b c :: idx, h, hn => by
    have ih := selectCoords_eq h.2 (fun hm => hn (List.mem_cons_of_mem _ hm))
    show ((slicePositions a b c n.toNat).flatMap fun (p : Nat) => (selectCoords shape (basics idx)).map ((p : Int) :: ·)) =
      ((slicePositions a b c n.toNat).flatMap _).map _
    rw [ih, List.map_flatMap]
    simp only [List.map_map]
    rfl
  | n :: shape, .array :: idx, h, hn => by simp at hn
  | [], _ :: _, h, _ => by simp [Ok] at h
  | _ :: _, [], h, _ => by simp [Ok] at h

theorem selectShape_eq : ∀ {shape : List Int} {idx : List MixedIndex}, Ok shape idx → .array ∉ idx →
    selectShape shape (basics idx) = (positions shape idx).map fun l => (l.length : Int)
  | [], [], _, _ => rfl
  | n :: shape, .at i :: idx, h, hn => selectShape_eq (shape := shape) (idx := idx) h.2 (fun hm => hn (List.mem_cons_of_mem _ hm))
  | n :: shape, .slice a b c :: idx, h, hn => congrArg (_ :: ·) (selectShape_eq (shape := shape) (idx := idx) h.2 (fun hm => hn (List.mem_cons_of_mem _ hm)))
  | n :: shape, .array :: idx, h, hn => by simp at hn
  | [], _ :: _, h, _ => by simp [Ok] at h
  | _ :: _, [], h, _ => by simp [Ok] at h

/-! ## Where the dimension of the index arrays goes -/

theorem axisKinds_any {idx : List MixedIndex} : (axisKinds idx).any id = true ↔ .array ∈ idx := by
  induction idx with
  | nil => simp [axisKinds]
  | cons i idx ih =>
    cases i with
    | «at» i => rw [axisKinds_at, ih]; simp
    | slice a b c => rw [axisKinds_slice]; simpa using ih
    | array => rw [axisKinds_array]; simp

theorem axisKinds_none {idx : List MixedIndex} (h : (idx.map advanced).any id = false) : (axisKinds idx).any id = false := by
  by_contra hc
  have := axisKinds_any.1 (by simpa using hc)
  have h2 : (idx.map advanced).any id = true := by
    rw [List.any_eq_true]
    exact ⟨true, List.mem_map.2 ⟨_, this, rfl⟩, rfl⟩
  rw [h] at h2
  cases h2

theorem block_kinds : ∀ {idx : List MixedIndex}, ((idx.map advanced).dropWhile id).any id = false →
    ((axisKinds idx).dropWhile id).any id = false
  | [], _ => rfl
  | .at i :: idx, h => block_kinds (idx := idx) (by simpa [advanced] using h)
  | .array :: idx, h => by
    have := block_kinds (idx := idx) (by simpa [advanced] using h)
    rw [axisKinds_array]
    simpa using this
  | .slice a b c :: idx, h => by
    have h' : (idx.map advanced).any id = false := by simpa [advanced] using h
    have := axisKinds_none h'
    rw [axisKinds_slice]
    simpa using this

theorem leading_true (k : List Bool) : leading (true :: k) = 0 := by simp [leading, List.findIdx_cons]

theorem block_leading : ∀ {idx : List MixedIndex}, ((idx.map advanced).dropWhile id).any id = false → .array ∈ idx →
    leading (axisKinds idx) = 0 ∧ separated (axisKinds idx) = false
  | [], _, hm => by cases hm
  | .at i :: idx, h, hm => block_leading (idx := idx) (by simpa [advanced] using h) (by simpa using hm)
  | .array :: idx, h, hm => by
    have := block_kinds (idx := idx) (by simpa [advanced] using h)
    rw [axisKinds_array]
    refine ⟨leading_true _, ?_⟩
    simpa [separated] using this
  | .slice a b c :: idx, h, hm => by
    have h' : (idx.map advanced).any id = false := by simpa [advanced] using h
    have h2 : (axisKinds idx).any id = false := axisKinds_none h'
    rw [axisKinds_any.2 (by simpa using hm)] at h2
    cases h2

theorem leading_false (k : List Bool) : leading (false :: k) = leading k + 1 := by simp [leading, List.findIdx_cons]

theorem separated_false (k : List Bool) : separated (false :: k) = separated k := by simp [separated]

theorem adjacent_left : ∀ {idx : List MixedIndex}, separated (idx.map advanced) = false → .array ∈ idx →
    separated (axisKinds idx) = false ∧ leading (axisKinds idx) = leading (idx.map advanced)
  | [], _, hm => by cases hm
  | .at i :: idx, h, hm => by
    have := block_leading (idx := idx) (by simpa [separated, advanced] using h) (by simpa using hm)
    rw [axisKinds_at]
    exact ⟨this.2, by rw [this.1]; exact (leading_true _).symm⟩
  | .array :: idx, h, hm => by
    have := block_kinds (idx := idx) (by simpa [separated, advanced] using h)
    rw [axisKinds_array]
    exact ⟨by simpa [separated] using this, (leading_true _).trans (leading_true _).symm⟩
  | .slice a b c :: idx, h, hm => by
    have e : (MixedIndex.slice a b c :: idx).map advanced = false :: idx.map advanced := rfl
    rw [e, separated_false] at h
    have := adjacent_left (idx := idx) h (by simpa using hm)
    rw [axisKinds_slice, e, leading_false, leading_false, separated_false, this.1, this.2]
    exact ⟨rfl, rfl⟩

theorem SameLayout.left {idx : List MixedIndex} (h : SameLayout idx) (hm : .array ∈ idx) :
    advLeft (axisKinds idx) = advLeft (idx.map advanced) := by
  unfold advLeft
  cases hs : separated (idx.map advanced) with
  | false =>
    obtain ⟨h1, h2⟩ := adjacent_left hs hm
    rw [h1, h2]
  | true =>
    rcases h hs with h | h
    · rw [h]; simp
    · rw [h]; simp

end Verif
