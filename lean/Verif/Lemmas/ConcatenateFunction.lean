import Verif.Model.ConcatenateFunction
import Verif.Spec.NumpyConcatenate
import Verif.Props.Concatenate
import Verif.Lemmas.Declared
import Verif.Lemmas.Indexing

/-!
# Concatenations with empty operands
-/

namespace Verif

theorem concat_prod_zero {l : List Int} (h : 0 ∈ l) : l.prod = 0 := List.prod_eq_zero h

theorem concatCopy_empty {out : List Int} {values : List Rat} {x : Arr Rat × Int} (h : x.1.data = []) :
    concatCopy out values x = .ok values := by
  simp [concatCopy, h]

theorem concatFold_empty {out : List Int} {values : List Rat} : ∀ (l : List (Arr Rat × Int)), (∀ x ∈ l, x.1.data = []) →
    l.foldlM (concatCopy out) values = .ok values
  | [], _ => rfl
  | x :: l, h => by
    rw [List.foldlM_cons, concatCopy_empty (h x List.mem_cons_self), Res.ok_bind]
    exact concatFold_empty l fun y hy => h y (List.mem_cons_of_mem _ hy)

theorem concatFold_filter {a : Nat} {out : List Int} : ∀ (xs : List (Arr Rat)) (start : Int) (values : List Rat),
    (∀ x ∈ xs, dimOf a x = 0 → x.data = [] ∧ (x.shape.drop a).prod = 0) →
    (xs.zip (concatStarts a start (xs.map Arr.shape))).foldlM (concatCopy out) values =
      ((xs.filter fun x => dimOf a x ≠ 0).zip (concatStarts a start ((xs.filter fun x => dimOf a x ≠ 0).map Arr.shape))).foldlM
        (concatCopy out) values
  | [], _, _, _ => rfl
  | x :: xs, start, values, h => by
    have ht : ∀ y ∈ xs, dimOf a y = 0 → y.data = [] ∧ (y.shape.drop a).prod = 0 := fun y hy => h y (List.mem_cons_of_mem _ hy)
    by_cases hx : dimOf a x = 0
    · obtain ⟨h1, h2⟩ := h x List.mem_cons_self hx
      rw [List.filter_cons_of_neg (by simp [hx])]
      simp only [List.map_cons, concatStarts, List.zip_cons_cons, List.foldlM_cons]
      rw [concatCopy_empty (by exact h1), Res.ok_bind, h2, Int.add_zero]
      exact concatFold_filter xs start values ht
    · rw [List.filter_cons_of_pos (by simp [hx])]
      simp only [List.map_cons, concatStarts, List.zip_cons_cons, List.foldlM_cons]
      congr 1
      funext v
      exact concatFold_filter xs _ v ht

theorem concatPick_filter {a : Nat} {rest : List Int} : ∀ (xs : List (Arr Rat)) {c : Int}, 0 ≤ c → (∀ x ∈ xs, 0 ≤ dimOf a x) →
    concatPick a xs rest c = concatPick a (xs.filter fun x => dimOf a x ≠ 0) rest c
  | [], _, _, _ => rfl
  | x :: xs, c, hc, h => by
    have hx := h x List.mem_cons_self
    have ht : ∀ y ∈ xs, 0 ≤ dimOf a y := fun y hy => h y (List.mem_cons_of_mem _ hy)
    by_cases h0 : dimOf a x = 0
    · rw [List.filter_cons_of_neg (by simp [h0])]
      have h0' : x.shape.getD a 0 = 0 := h0
      rw [concatPick, h0', if_neg (by omega), Int.sub_zero]
      exact concatPick_filter xs hc ht
    · rw [List.filter_cons_of_pos (by simp [h0])]
      simp only [concatPick]
      split_ifs with hlt
      · rfl
      · exact concatPick_filter xs (by omega) ht

theorem InShape.getD_nonneg : ∀ {s idx : List Int}, InShape s idx → ∀ a, 0 ≤ idx.getD a 0
  | [], [], _, a => by simp
  | [], _ :: _, h, _ => by cases h
  | _ :: _, [], h, _ => by cases h
  | d :: s, i :: idx, h, a => by
    cases a with
    | zero => exact h.1
    | succ a => simpa using InShape.getD_nonneg h.2.2 a

theorem offs_filter (a : Nat) : ∀ (xs : List (Arr Rat)), offs a (xs.filter fun x => dimOf a x ≠ 0) = offs a xs
  | [] => rfl
  | x :: xs => by
    by_cases h0 : dimOf a x = 0
    · rw [List.filter_cons_of_neg (by simp [h0]), offs_filter a xs, offs_cons, h0, Int.zero_add]
    · rw [List.filter_cons_of_pos (by simp [h0]), offs_cons, offs_cons, offs_filter a xs]

theorem offs_least {a : Nat} : ∀ (xs : List (Arr Rat)), (∀ x ∈ xs, 0 ≤ dimOf a x) → 0 ≤ offs a xs
  | [], _ => by simp [offs]
  | x :: xs, h => by
    rw [offs_cons]
    have h1 := h x List.mem_cons_self
    have h2 := offs_least xs fun y hy => h y (List.mem_cons_of_mem _ hy)
    omega

/-- Operands with any extents. -/
theorem concatInit_nonneg {R : List Int} {a : Nat} {xs : List (Arr Rat)} (ha : a ≤ R.length) (hR : ∀ d ∈ R, 0 ≤ d)
    (hs : ∀ x ∈ xs, x.shape = R.insertIdx a (dimOf a x)) (hn : ∀ x ∈ xs, 0 ≤ dimOf a x)
    (hw : ∀ x ∈ xs, (x.data.length : Int) = shapeProd x.shape) :
    concatInit a (R.insertIdx a (offs a xs)) xs = .ok (concatValue a (R.insertIdx a (offs a xs)) xs) := by
  have hempty : ∀ x ∈ xs, 0 ∈ x.shape → x.data = [] := by
    intro x hx h0
    have := hw x hx
    rw [shapeProd_eq, concat_prod_zero h0] at this
    exact List.length_eq_zero_iff.1 (by omega)
  have hall : (0 ∈ R.insertIdx a (offs a xs)) → (∀ x ∈ xs, x.data = []) →
      concatInit a (R.insertIdx a (offs a xs)) xs = .ok (concatValue a (R.insertIdx a (offs a xs)) xs) := by
    intro h0 hd
    rw [concatInit, concatFold_empty _ (fun x hx => hd x.1 (List.of_mem_zip hx).1), concat_prod_zero h0, concatValue, allCoords_empty h0]
    rfl
  by_cases h0 : 0 ∈ R
  · refine hall ((List.mem_insertIdx ha).2 (.inr h0)) fun x hx => hempty x hx ?_
    rw [hs x hx]
    exact (List.mem_insertIdx ha).2 (.inr h0)
  have hdim : ∀ x ∈ xs, dimOf a x = 0 → 0 ∈ x.shape ∧ 0 ∈ x.shape.drop a := by
    intro x hx h
    have hlt : a < x.shape.length := by
      rw [hs x hx, List.length_insertIdx]
      simp [ha]
      omega
    have hg : x.shape[a] = 0 := by
      have : x.shape.getD a 0 = 0 := h
      rwa [List.getD_eq_getElem?_getD, List.getElem?_eq_getElem hlt] at this
    have h1 : 0 ∈ x.shape.drop a := by
      rw [List.drop_eq_getElem_cons hlt, hg]
      exact List.mem_cons_self
    exact ⟨List.mem_of_mem_drop h1, h1⟩
  by_cases hz : offs a xs = 0
  · refine hall ((List.mem_insertIdx ha).2 (.inl hz.symm)) fun x hx => hempty x hx (hdim x hx ?_).1
    have : ∀ (l : List (Arr Rat)), (∀ x ∈ l, 0 ≤ dimOf a x) → offs a l = 0 → ∀ x ∈ l, dimOf a x = 0 := by
      intro l
      induction l with
      | nil => simp
      | cons y l ih =>
        intro h1 h2 x hx
        rw [offs_cons] at h2
        have e1 := h1 y List.mem_cons_self
        have e2 : 0 ≤ offs a l := offs_least l fun z hz => h1 z (List.mem_cons_of_mem _ hz)
        rcases List.mem_cons.1 hx with rfl | hx
        · omega
        · exact ih (fun z hz => h1 z (List.mem_cons_of_mem _ hz)) (by omega) x hx
    exact this xs hn hz x hx
  · have hf : Fits R a (xs.filter fun x => dimOf a x ≠ 0) :=
      { axis := ha
        dims := fun d hd => by
          rcases Int.lt_or_eq_of_le (hR d hd) with h | h
          · exact h
          · exact absurd (h ▸ hd) h0
        shape := fun x hx => hs x (List.mem_filter.1 hx).1
        pos := fun x hx => by
          have h1 := hn x (List.mem_filter.1 hx).1
          have h2 : dimOf a x ≠ 0 := by simpa using (List.mem_filter.1 hx).2
          omega
        wf := fun x hx => hw x (List.mem_filter.1 hx).1 }
    have hnn : 0 ≤ offs a xs := offs_least xs hn
    have := concatInit_spec hf (by rw [offs_filter]; omega)
    rw [offs_filter] at this
    rw [concatInit, concatFold_filter xs 0 _ (fun x hx h => ⟨hempty x hx (hdim x hx h).1, concat_prod_zero (hdim x hx h).2⟩)]
    rw [concatInit] at this
    rw [this]
    congr 1
    rw [concatValue, concatValue]
    refine List.map_congr_left fun idx hidx => ?_
    exact (concatPick_filter xs ((inShape_of_mem hidx).getD_nonneg a) hn).symm

/-- A single operand is its own concatenation. -/
theorem concatValue_single {x : Arr Rat} {a : Nat} (ha : a < x.shape.length) (hd : ∀ d ∈ x.shape, 0 ≤ d)
    (hw : (x.data.length : Int) = shapeProd x.shape) : concatValue a x.shape [x] = x.data := by
  have hpick : ∀ idx ∈ allCoords x.shape, concatPick a [x] (idx.eraseIdx a) (idx.getD a 0) =
      x.data.getD (rowMajor x.shape idx).toNat 0 := by
    intro idx hi
    have hin := inShape_of_mem hi
    have hlen := hin.length_eq
    have hlt : idx.getD a 0 < x.shape.getD a 0 := by
      have : ∀ {s idx : List Int}, InShape s idx → ∀ {a}, a < s.length → idx.getD a 0 < s.getD a 0 := by
        intro s
        induction s with
        | nil => intro idx _ a h; simp at h
        | cons d s ih =>
          intro idx h a hlt
          cases idx with
          | nil => cases h
          | cons i idx =>
            cases a with
            | zero => exact h.2.1
            | succ a => simpa using ih h.2.2 (by simpa using hlt)
      exact this hin ha
    rw [concatPick, if_pos hlt, insert_erase a (by omega)]
  rw [concatValue, List.map_congr_left hpick]
  by_cases h0 : 0 ∈ x.shape
  · rw [allCoords_empty h0]
    rw [shapeProd_eq, concat_prod_zero h0] at hw
    exact (List.length_eq_zero_iff.1 (by omega)).symm
  · have hp : ∀ d ∈ x.shape, 0 < d := fun d h => by
      rcases Int.lt_or_eq_of_le (hd d h) with h' | h'
      · exact h'
      · exact absurd (h' ▸ h) h0
    have e : (allCoords x.shape).map (fun idx => x.data.getD (rowMajor x.shape idx).toNat 0) =
        ((allCoords x.shape).map (rowMajor x.shape)).map fun p => x.data.getD p.toNat 0 := by
      rw [List.map_map]
      rfl
    rw [e, allCoords_rowMajor hp, ← hw, List.map_map]
    apply List.ext_getElem
    · simp
    · intro i h1 h2
      simp [h2]

end Verif
