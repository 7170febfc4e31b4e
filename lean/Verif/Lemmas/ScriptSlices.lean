import Verif.Lemmas.ScriptRules

set_option linter.unusedSectionVars false
set_option linter.unusedSimpArgs false
set_option linter.unusedVariables false

/-! Helper lemmas: slices in programs that build models. -/

namespace Verif

/-- The first position and the end of `range(n)[a:b]`. -/
def sliceLo (a b : Option Int) (n : Nat) : Nat := (pyIndices a b 1 n).1.toNat

def sliceHi (a b : Option Int) (n : Nat) : Nat := (pyIndices a b 1 n).2.1.toNat

theorem pyIndices_one (a b : Option Int) (n : Nat) :
    (pyIndices a b 1 n).1 = sliceLo a b n ∧ (pyIndices a b 1 n).2.1 = sliceHi a b n ∧ sliceLo a b n ≤ n ∧ sliceHi a b n ≤ n := by
  have h : 0 ≤ (pyIndices a b 1 n).1 ∧ (pyIndices a b 1 n).1 ≤ n ∧ 0 ≤ (pyIndices a b 1 n).2.1 ∧ (pyIndices a b 1 n).2.1 ≤ n := by
    unfold pyIndices
    refine ⟨?_, ?_, ?_, ?_⟩
    · cases a with
      | none => simp
      | some a => simp only [Int.reduceLT, if_false]; split_ifs <;> omega
    · cases a with
      | none => simp
      | some a => simp only [Int.reduceLT, if_false]; split_ifs <;> omega
    · cases b with
      | none => simp
      | some a => simp only [Int.reduceLT, if_false]; split_ifs <;> omega
    · cases b with
      | none => simp
      | some a => simp only [Int.reduceLT, if_false]; split_ifs <;> omega
  unfold sliceLo sliceHi
  omega

theorem filter_range_between (n lo hi : Nat) (hn : hi ≤ n) :
    ((List.range n).filter fun i => decide (lo ≤ i ∧ i < hi)) = List.range' lo (hi - lo) := by
  induction n with
  | zero =>
    obtain rfl : hi = 0 := by omega
    simp
  | succ n ih =>
    rw [List.range_succ, List.filter_append]
    by_cases h : hi ≤ n
    · rw [ih h]
      simp
      omega
    · obtain rfl : hi = n + 1 := by omega
      have e : ((List.range n).filter fun i => decide (lo ≤ i ∧ i < n + 1)) = (List.range n).filter fun i => decide (lo ≤ i ∧ i < n) := by
        apply List.filter_congr
        intro i hi
        have := List.mem_range.1 hi
        have h' : (lo ≤ i ∧ i < n + 1) ↔ (lo ≤ i ∧ i < n) := by omega
        simp only [h']
      have e2 : ∀ m, m ≤ n → ((List.range m).filter fun i => decide (lo ≤ i ∧ i < m)) = List.range' lo (m - lo) := by
        intro m
        induction m with
        | zero => simp
        | succ m ihm =>
          intro hm
          rw [List.range_succ, List.filter_append]
          have e' : ((List.range m).filter fun i => decide (lo ≤ i ∧ i < m + 1)) = (List.range m).filter fun i => decide (lo ≤ i ∧ i < m) := by
            apply List.filter_congr
            intro i hi
            have := List.mem_range.1 hi
            have h' : (lo ≤ i ∧ i < m + 1) ↔ (lo ≤ i ∧ i < m) := by omega
            simp only [h']
          rw [e', ihm (by omega)]
          by_cases hl : lo ≤ m
          · rw [show m + 1 - lo = (m - lo) + 1 by omega, List.range'_1_concat]
            simp [hl, show lo + (m - lo) = m by omega]
          · rw [show m + 1 - lo = 0 by omega, show m - lo = 0 by omega]
            simp
            omega
      rw [e, e2 n le_rfl]
      by_cases hl : lo ≤ n
      · rw [show n + 1 - lo = (n - lo) + 1 by omega, List.range'_1_concat]
        simp [hl, show lo + (n - lo) = n by omega]
      · rw [show n + 1 - lo = 0 by omega, show n - lo = 0 by omega]
        simp
        omega

theorem slicePositions_one (a b : Option Int) (n : Nat) :
    slicePositions a b none n = List.range' (sliceLo a b n) (sliceHi a b n - sliceLo a b n) := by
  obtain ⟨h1, h2, h3, h4⟩ := pyIndices_one a b n
  rw [← filter_range_between n _ _ h4]
  unfold slicePositions
  apply List.filter_congr
  intro i _
  simp only [Option.getD_none, h1, h2, Int.emod_one, and_true]
  simp

/-- The elements of `x[a:b]`. -/
def sliceOf (a b : Option Int) (l : List Rat) : List Rat := (l.take (sliceHi a b l.length)).drop (sliceLo a b l.length)

theorem map_getD_range' (l : List Rat) (lo k : Nat) (h : lo + k ≤ l.length) :
    (List.range' lo k).map (fun i => l.getD i 0) = (l.drop lo).take k := by
  apply List.ext_getElem?
  intro i
  rw [List.getElem?_map, List.getElem?_take, List.getElem?_drop]
  by_cases hi : i < k
  · rw [if_pos hi, List.getElem?_range' hi]
    simp only [Option.map_some, Nat.one_mul]
    rw [List.getD_eq_getElem?_getD, List.getElem?_eq_getElem (by omega)]
    rfl
  · rw [if_neg hi, List.getElem?_eq_none (by simp; omega)]
    rfl

theorem take_drop_comm' (l : List Rat) (lo hi : Nat) : (l.drop lo).take (hi - lo) = (l.take hi).drop lo := by
  rw [List.drop_take]

theorem map_slicePositions (a b : Option Int) (l : List Rat) :
    (slicePositions a b none l.length).map (fun i => l.getD i 0) = sliceOf a b l := by
  obtain ⟨h1, h2, h3, h4⟩ := pyIndices_one a b l.length
  rw [slicePositions_one, map_getD_range' _ _ _ (by omega), take_drop_comm']
  rfl

theorem length_sliceOf (a b : Option Int) (l : List Rat) : (sliceOf a b l).length = sliceHi a b l.length - sliceLo a b l.length := by
  obtain ⟨h1, h2, h3, h4⟩ := pyIndices_one a b l.length
  unfold sliceOf
  rw [List.length_drop, List.length_take]
  omega

theorem mem_sliceOf {a b : Option Int} {l : List Rat} {x : Rat} (h : x ∈ sliceOf a b l) : x ∈ l :=
  List.mem_of_mem_take (List.mem_of_mem_drop h)

theorem select_one (a b : Option Int) (l : List Rat) :
    basicSelect [(l.length : Int)] l [.slice a b none] = sliceOf a b l := by
  rw [← map_slicePositions]
  unfold basicSelect
  simp only [selectCoords, Int.toNat_natCast, List.map_flatMap, List.map_cons, List.map_nil, rowMajor, shapeProd]
  rw [← List.flatMap_singleton' ((slicePositions a b none l.length).map fun i => l.getD i 0), List.flatMap_map]
  simp
  rfl

theorem sliceOf_all (l : List Rat) : sliceOf none none l = l := by
  simp [sliceOf, sliceLo, sliceHi, pyIndices]

theorem sliceOf_init (l : List Rat) : sliceOf none (some (-1)) l = l.dropLast := by
  simp only [sliceOf, sliceLo, sliceHi, pyIndices]
  rw [List.dropLast_eq_take]
  simp
  omega

theorem sliceOf_tail (l : List Rat) : sliceOf (some 1) none l = l.tail := by
  simp only [sliceOf, sliceLo, sliceHi, pyIndices]
  cases l with
  | nil => rfl
  | cons x l => simp

theorem sliceOf_first (l : List Rat) : sliceOf none (some 1) l = l.take 1 := by
  simp only [sliceOf, sliceLo, sliceHi, pyIndices]
  cases l with
  | nil => rfl
  | cons x l => simp

theorem sliceOf_last (l : List Rat) : sliceOf (some (-1)) none l = l.drop (l.length - 1) := by
  simp only [sliceOf, sliceLo, sliceHi, pyIndices]
  cases l with
  | nil => rfl
  | cons x l => simp

end Verif
