import Verif.Model.Nodes.Concatenate
import Verif.Lemmas.NodeBase
import Verif.Props.Iterator
import Verif.Props.PartialReduce
import Mathlib.Tactic.Ring
import Mathlib.Tactic.Linarith

set_option linter.unusedSectionVars false
set_option linter.unusedSimpArgs false
set_option linter.unusedVariables false

/-!
# C28: concatenation
-/

namespace Verif

open ArrayState

/-! ## Coordinates -/

theorem rowMajor_insert : ∀ {R rest : List Int} (a : Nat) (D c off : Int), a ≤ R.length →
    rest.length = R.length →
    rowMajor (R.insertIdx a D) (rest.insertIdx a (c + off)) =
      rowMajor (R.insertIdx a D) (rest.insertIdx a c) + off * shapeProd (R.drop a)
  | R, rest, 0, D, c, off, _, _ => by
    simp only [List.insertIdx_zero, rowMajor, List.drop_zero]; ring
  | r :: R, i :: rest, a + 1, D, c, off, h, hl => by
    simp only [List.insertIdx_succ_cons, rowMajor, List.drop_succ_cons]
    rw [rowMajor_insert a D c off (by simpa using h) (by simpa using hl)]
    ring

theorem byteOffset_strides : ∀ {out idx : List Int}, idx.length = out.length →
    byteOffset (shapeToStrides out) idx = 8 * rowMajor out idx
  | [], [], _ => by simp [shapeToStrides, byteOffset, rowMajor]
  | d :: out, i :: idx, h => by
    rw [shapeToStrides_cons, byteOffset, rowMajor, byteOffset_strides (by simpa using h)]
    ring

theorem strides_length : ∀ (out : List Int), (shapeToStrides out).length = out.length
  | [] => rfl
  | d :: out => by rw [shapeToStrides_cons]; simp [strides_length out]

theorem strides_dvd : ∀ (out : List Int), ∀ s ∈ shapeToStrides out, (8 : Int) ∣ s
  | [], s, h => by simp [shapeToStrides] at h
  | d :: out, s, h => by
    rw [shapeToStrides_cons] at h
    rcases List.mem_cons.1 h with rfl | h
    · exact ⟨_, rfl⟩
    · exact strides_dvd out s h

theorem prod_drop_insert : ∀ {R : List Int} (a : Nat) (d : Int), a ≤ R.length →
    ((R.insertIdx a d).drop a).prod = d * shapeProd (R.drop a)
  | R, 0, d, _ => by simp [shapeProd_eq]
  | r :: R, a + 1, d, h => by
    simp only [List.insertIdx_succ_cons, List.drop_succ_cons]
    exact prod_drop_insert a d (by simpa using h)

theorem insert_getD : ∀ {R : List Int} (a : Nat) (d : Int), a ≤ R.length →
    (R.insertIdx a d).getD a 0 = d
  | R, 0, d, _ => by simp
  | r :: R, a + 1, d, h => by
    simp only [List.insertIdx_succ_cons, List.getD_cons_succ]
    exact insert_getD a d (by simpa using h)

theorem insert_erase : ∀ {s : List Int} (a : Nat), a < s.length →
    (s.eraseIdx a).insertIdx a (s.getD a 0) = s
  | d :: s, 0, _ => by simp
  | d :: s, a + 1, h => by
    simp only [List.eraseIdx_cons_succ, List.insertIdx_succ_cons, List.getD_cons_succ]
    rw [insert_erase a (by simpa using h)]

theorem inShape_insert : ∀ {R rest : List Int} (a : Nat) (d c : Int), a ≤ R.length →
    rest.length = R.length →
    (InShape (R.insertIdx a d) (rest.insertIdx a c) ↔ InShape R rest ∧ 0 ≤ c ∧ c < d)
  | R, rest, 0, d, c, _, _ => by
    simp only [List.insertIdx_zero, InShape]; tauto
  | r :: R, i :: rest, a + 1, d, c, h, hl => by
    simp only [List.insertIdx_succ_cons, InShape]
    rw [inShape_insert a d c (by simpa using h) (by simpa using hl)]
    tauto

theorem coords_at {s : List Int} (hs : ∀ d ∈ s, 0 < d) {i : Nat} (h : (i : Int) < shapeProd s) :
    ∃ idx, InShape s idx ∧ (rowMajor s idx).toNat = i ∧ rowMajor s idx = i := by
  obtain ⟨idx, h1, h2, h3⟩ := unravel_spec s hs i (by omega) h
  exact ⟨idx, h2, by omega, h3⟩

/-! ## Blocks -/

/-- Extent along the axis. -/
def dimOf (a : Nat) (x : Arr Rat) : Int := x.shape.getD a 0

/-- The operands fit: apart from the axis they have shape `R`. -/
structure Fits (R : List Int) (a : Nat) (xs : List (Arr Rat)) : Prop where
  axis : a ≤ R.length
  dims : ∀ d ∈ R, 0 < d
  shape : ∀ x ∈ xs, x.shape = R.insertIdx a (dimOf a x)
  pos : ∀ x ∈ xs, 0 < dimOf a x
  wf : ∀ x ∈ xs, (x.data.length : Int) = shapeProd x.shape

def offs (a : Nat) (xs : List (Arr Rat)) : Int := (xs.map (dimOf a)).sum

theorem offs_append (a : Nat) (xs ys : List (Arr Rat)) : offs a (xs ++ ys) = offs a xs + offs a ys := by
  simp [offs]

theorem offs_cons (a : Nat) (x : Arr Rat) (ys : List (Arr Rat)) :
    offs a (x :: ys) = dimOf a x + offs a ys := by simp [offs]

theorem offs_nonneg {a : Nat} : ∀ {xs : List (Arr Rat)}, (∀ x ∈ xs, 0 < dimOf a x) →
    0 ≤ offs a xs
  | [], _ => by simp [offs]
  | x :: xs, h => by
    rw [offs_cons]
    have h1 := h x List.mem_cons_self
    have h2 := offs_nonneg (fun y hy => h y (List.mem_cons_of_mem _ hy))
    omega

section
variable {R : List Int} {a : Nat}

theorem concatPos_spec (ha : a ≤ R.length) {D d off c : Int} {rest : List Int} {moves : List IterMove}
    (hoff : 0 ≤ off) (hD : off + d ≤ D) (hr : InShape R rest) (h0 : 0 ≤ c) (h1 : c < d)
    (hm : totalDelta moves = rowMajor (R.insertIdx a d) (rest.insertIdx a c)) :
    InShape (R.insertIdx a D) (rest.insertIdx a (c + off)) ∧
    concatPos (R.insertIdx a D) (off * shapeProd (R.drop a)) (R.insertIdx a d) moves =
      .ok (rowMajor (R.insertIdx a D) (rest.insertIdx a (c + off))).toNat := by
  have hl := hr.length_eq
  have hin : InShape (R.insertIdx a D) (rest.insertIdx a (c + off)) :=
    (inShape_insert a D _ ha hl).2 ⟨hr, by omega, by omega⟩
  have hin' : InShape (R.insertIdx a d) (rest.insertIdx a c) :=
    (inShape_insert a d _ ha hl).2 ⟨hr, h0, h1⟩
  have hlen : ∀ e, (R.insertIdx a e).length = R.length + 1 := by
    intro e; rw [List.length_insertIdx]; simp [ha]
  refine ⟨hin, ?_⟩
  have hmk : ∃ it0, Iter.make (off * shapeProd (R.drop a)) (R.insertIdx a d)
      (shapeToStrides (R.insertIdx a D)) = some it0 := by
    have e1 := hlen d
    have e2 := strides_length (R.insertIdx a D)
    rw [hlen D] at e2
    match R.insertIdx a d, shapeToStrides (R.insertIdx a D), e1, e2 with
    | _ :: _, _ :: _, _, _ => exact ⟨_, rfl⟩
  obtain ⟨it0, hit⟩ := hmk
  obtain ⟨it, e, hp⟩ := C14_iterator_reaches _ _ _ _ (by rw [strides_length, hlen, hlen]) hin'
    (strides_dvd _) it0 hit moves hm
  have hb : byteOffset (shapeToStrides (R.insertIdx a D)) (rest.insertIdx a c) =
      8 * rowMajor (R.insertIdx a D) (rest.insertIdx a c) := by
    apply byteOffset_strides
    rw [List.length_insertIdx, List.length_insertIdx]; simp [hl]
  have hpp : it.ptr = rowMajor (R.insertIdx a D) (rest.insertIdx a (c + off)) := by
    rw [hp, hb, rowMajor_insert a D c off ha hl]
    have : (8 * rowMajor (R.insertIdx a D) (rest.insertIdx a c)) / 8 =
      rowMajor (R.insertIdx a D) (rest.insertIdx a c) := by omega
    rw [this]; ring
  have hnn := hin.rowMajor_range.1
  unfold concatPos
  rw [hit]
  simp only [e, Res.ok_bind, hpp]
  rw [guardUB_true hnn, Res.ok_bind]

theorem concatPick_block {x : Arr Rat} {post : List (Arr Rat)} {rest : List Int} {c : Int}
    (h0 : 0 ≤ c) (h1 : c < dimOf a x) : ∀ {pre : List (Arr Rat)}, (∀ y ∈ pre, 0 < dimOf a y) →
    concatPick a (pre ++ x :: post) rest (c + offs a pre) =
      x.data.getD (rowMajor x.shape (rest.insertIdx a c)).toNat 0
  | [], _ => by
    simp only [List.nil_append, concatPick, offs, List.map_nil, List.sum_nil, Int.add_zero]
    rw [if_pos (show c < x.shape.getD a 0 from h1)]
  | y :: pre, h => by
    have hy := h y List.mem_cons_self
    have hp := offs_nonneg (a := a) (fun z hz => h z (List.mem_cons_of_mem y hz))
    have ih := concatPick_block (post := post) (rest := rest) h0 h1
      (fun z hz => h z (List.mem_cons_of_mem y hz))
    rw [List.cons_append, concatPick, offs_cons, if_neg (by
      change ¬ (c + (dimOf a y + offs a pre) < dimOf a y); omega)]
    rw [← ih]
    congr 1
    change c + (dimOf a y + offs a pre) - dimOf a y = _
    omega

theorem concat_cover : ∀ {xs : List (Arr Rat)} {c : Int}, 0 ≤ c → c < offs a xs →
    ∃ pre x post c', xs = pre ++ x :: post ∧ 0 ≤ c' ∧ c' < dimOf a x ∧ c = c' + offs a pre
  | [], c, h0, h1 => by simp [offs] at h1; omega
  | x :: xs, c, h0, h1 => by
    rw [offs_cons] at h1
    by_cases h : c < dimOf a x
    · exact ⟨[], x, xs, c, rfl, h0, h, by simp [offs]⟩
    · obtain ⟨pre, y, post, c', rfl, h2, h3, h4⟩ := concat_cover (xs := xs) (c := c - dimOf a x)
        (by omega) (by omega)
      exact ⟨x :: pre, y, post, c', rfl, h2, h3, by rw [offs_cons]; omega⟩

/-- Changing one element of one operand changes exactly one element of the result. -/
theorem concatPick_set (ha : a ≤ R.length) {x : Arr Rat} {post : List (Arr Rat)} {rest0 rest : List Int}
    {c0 : Int} {v : Rat} (hx : x.shape = R.insertIdx a (dimOf a x))
    (hl : (x.data.length : Int) = shapeProd x.shape)
    (hr0 : InShape R rest0) (hr : InShape R rest) (h0 : 0 ≤ c0) (h1 : c0 < dimOf a x) :
    ∀ {pre : List (Arr Rat)} {c : Int}, (∀ y ∈ pre, 0 < dimOf a y) → 0 ≤ c →
    concatPick a (pre ++ ⟨x.shape, x.data.set (rowMajor x.shape (rest0.insertIdx a c0)).toNat v⟩ :: post)
        rest c =
      if rest = rest0 ∧ c = c0 + offs a pre then v else concatPick a (pre ++ x :: post) rest c
  | [], c, _, hc => by
    simp only [List.nil_append, concatPick, offs, List.map_nil, List.sum_nil, Int.add_zero]
    by_cases hd : c < x.shape.getD a 0
    · rw [if_pos hd, if_pos hd]
      have i0 : InShape x.shape (rest0.insertIdx a c0) := by
        rw [hx]; exact (inShape_insert a _ _ ha hr0.length_eq).2 ⟨hr0, h0, h1⟩
      have i1 : InShape x.shape (rest.insertIdx a c) := by
        rw [hx]; exact (inShape_insert a _ _ ha hr.length_eq).2 ⟨hr, hc, hd⟩
      have r0 := i0.rowMajor_range
      have r1 := i1.rowMajor_range
      by_cases he : rest = rest0 ∧ c = c0
      · obtain ⟨rfl, rfl⟩ := he
        rw [if_pos ⟨rfl, rfl⟩]
        rw [List.getD_eq_getElem?_getD, List.getElem?_set_self (by omega)]
        rfl
      · rw [if_neg he, List.getD_eq_getElem?_getD, List.getElem?_set_ne, List.getD_eq_getElem?_getD]
        intro e
        have := rowMajor_inj i0 i1 (by omega)
        apply he
        constructor
        · have := congrArg (fun l => l.eraseIdx a) this
          simpa [List.eraseIdx_insertIdx_self] using this.symm
        · have := congrArg (fun l => l.getD a 0) this
          simp only [insert_getD a _ (show a ≤ rest0.length by rw [hr0.length_eq]; exact ha),
            insert_getD a _ (show a ≤ rest.length by rw [hr.length_eq]; exact ha)] at this
          exact this.symm
    · rw [if_neg hd, if_neg hd, if_neg]
      rintro ⟨_, rfl⟩
      exact hd h1
  | y :: pre, c, h, hc => by
    have hy := h y List.mem_cons_self
    have hp := offs_nonneg (a := a) (fun z hz => h z (List.mem_cons_of_mem y hz))
    simp only [List.cons_append, concatPick, offs_cons]
    by_cases hd : c < y.shape.getD a 0
    · rw [if_pos hd, if_pos hd, if_neg]
      rintro ⟨_, rfl⟩
      change c0 + (dimOf a y + offs a pre) < dimOf a y at hd
      omega
    · rw [if_neg hd, if_neg hd]
      have ih := concatPick_set ha (post := post) (v := v) hx hl hr0 hr h0 h1
        (fun z hz => h z (List.mem_cons_of_mem y hz)) (c := c - y.shape.getD a 0) (by omega)
      rw [ih]
      have : (c - y.shape.getD a 0 = c0 + offs a pre) ↔ (c = c0 + (dimOf a y + offs a pre)) := by
        change (c - dimOf a y = c0 + offs a pre) ↔ _; omega
      simp only [this]

theorem concatValue_get {xs : List (Arr Rat)} {D : Int} (ha : a ≤ R.length) {rest : List Int} {c : Int}
    (hr : InShape R rest) (h0 : 0 ≤ c) (h1 : c < D) :
    (concatValue a (R.insertIdx a D) xs)[(rowMajor (R.insertIdx a D) (rest.insertIdx a c)).toNat]? =
      some (concatPick a xs rest c) := by
  have hin := (inShape_insert a D c ha hr.length_eq).2 ⟨hr, h0, h1⟩
  have hal : a ≤ rest.length := by rw [hr.length_eq]; exact ha
  rw [concatValue, List.getElem?_map, allCoords_get hin]
  simp only [Option.map_some, List.eraseIdx_insertIdx_self, insert_getD a _ hal]

theorem insert_pos {D : Int} (hd : ∀ d ∈ R, 0 < d) (hD : 0 < D) (ha : a ≤ R.length) :
    ∀ d ∈ R.insertIdx a D, 0 < d := by
  intro d h
  rcases List.eq_or_mem_of_mem_insertIdx h with rfl | h
  · exact hD
  · exact hd d h

theorem concatValue_length {xs : List (Arr Rat)} {D : Int} (hd : ∀ d ∈ R, 0 < d) (hD : 0 < D)
    (ha : a ≤ R.length) :
    ((concatValue a (R.insertIdx a D) xs).length : Int) = shapeProd (R.insertIdx a D) := by
  rw [concatValue, List.length_map, length_allCoords (insert_pos hd hD ha)]

/-- Coordinates of a position of the result. -/
theorem concat_coords {D : Int} (hd : ∀ d ∈ R, 0 < d) (hD : 0 < D) (ha : a ≤ R.length) {p : Nat}
    (hp : (p : Int) < shapeProd (R.insertIdx a D)) :
    ∃ rest c, InShape R rest ∧ 0 ≤ c ∧ c < D ∧
      (rowMajor (R.insertIdx a D) (rest.insertIdx a c)).toNat = p := by
  obtain ⟨idx, h1, h2, _⟩ := coords_at (insert_pos hd hD ha) hp
  have hlen : idx.length = R.length + 1 := by
    rw [h1.length_eq, List.length_insertIdx]; simp [ha]
  have e : (idx.eraseIdx a).insertIdx a (idx.getD a 0) = idx := insert_erase a (by omega)
  rw [← e] at h1 h2
  obtain ⟨h3, h4, h5⟩ := (inShape_insert a D _ ha (by
    rw [List.length_eraseIdx]; split_ifs <;> omega)).1 h1
  exact ⟨_, _, h3, h4, h5, h2⟩

theorem concatValue_set {xs pre post : List (Arr Rat)} {x : Arr Rat} (hf : Fits R a (pre ++ x :: post))
    {D : Int} (hD : D = offs a (pre ++ x :: post)) {rest0 : List Int} {c0 : Int} {v : Rat}
    (hr0 : InShape R rest0) (h0 : 0 ≤ c0) (h1 : c0 < dimOf a x) :
    concatValue a (R.insertIdx a D)
        (pre ++ ⟨x.shape, x.data.set (rowMajor x.shape (rest0.insertIdx a c0)).toNat v⟩ :: post) =
      (concatValue a (R.insertIdx a D) (pre ++ x :: post)).set
        (rowMajor (R.insertIdx a D) (rest0.insertIdx a (c0 + offs a pre))).toNat v := by
  have ha := hf.axis
  have hpre : ∀ y ∈ pre, 0 < dimOf a y := fun y hy => hf.pos y (by simp [hy])
  have hpost : ∀ y ∈ post, 0 < dimOf a y := fun y hy => hf.pos y (by simp [hy])
  have n1 := offs_nonneg hpre
  have n2 := offs_nonneg hpost
  have hDp : c0 + offs a pre < D := by rw [hD, offs_append, offs_cons]; omega
  have hD0 : 0 < D := by omega
  have l1 := concatValue_length (xs := pre ++ x :: post) hf.dims hD0 ha
  have l2 := concatValue_length (xs := pre ++ ⟨x.shape, x.data.set
    (rowMajor x.shape (rest0.insertIdx a c0)).toNat v⟩ :: post) hf.dims hD0 ha
  apply List.ext_getElem?
  intro p
  by_cases hp : (p : Int) < shapeProd (R.insertIdx a D)
  · obtain ⟨rest, c, hr, hc, hcD, rfl⟩ := concat_coords hf.dims hD0 ha hp
    rw [concatValue_get ha hr hc hcD, concatPick_set ha (hf.shape x (by simp)) (hf.wf x (by simp)) hr0 hr
      h0 h1 hpre hc]
    by_cases he : rest = rest0 ∧ c = c0 + offs a pre
    · obtain ⟨rfl, rfl⟩ := he
      rw [if_pos ⟨rfl, rfl⟩, List.getElem?_set_self (by omega)]
    · rw [if_neg he, List.getElem?_set_ne, concatValue_get ha hr hc hcD]
      intro e
      have i0 := (inShape_insert a D (c0 + offs a pre) ha hr0.length_eq).2 ⟨hr0, by omega, hDp⟩
      have i1 := (inShape_insert a D c ha hr.length_eq).2 ⟨hr, hc, hcD⟩
      have r0 := i0.rowMajor_range
      have r1 := i1.rowMajor_range
      have := rowMajor_inj i0 i1 (by omega)
      apply he
      constructor
      · have := congrArg (fun l => l.eraseIdx a) this
        simpa [List.eraseIdx_insertIdx_self] using this.symm
      · have := congrArg (fun l => l.getD a 0) this
        simp only [insert_getD a _ (show a ≤ rest0.length by rw [hr0.length_eq]; exact ha),
          insert_getD a _ (show a ≤ rest.length by rw [hr.length_eq]; exact ha)] at this
        exact this.symm
  · rw [List.getElem?_eq_none (by omega), List.getElem?_eq_none (by rw [List.length_set]; omega)]

theorem Fits.coords {xs : List (Arr Rat)} (hf : Fits R a xs) {x : Arr Rat} (hx : x ∈ xs) {k : Nat}
    (hk : k < x.data.length) : ∃ rest c, InShape R rest ∧ 0 ≤ c ∧ c < dimOf a x ∧
      (rowMajor x.shape (rest.insertIdx a c)).toNat = k ∧ rowMajor x.shape (rest.insertIdx a c) = k := by
  have hw := hf.wf x hx
  have hs := hf.shape x hx
  have hD := hf.pos x hx
  obtain ⟨rest, c, h1, h2, h3, h4⟩ := concat_coords hf.dims hD hf.axis (p := k) (by rw [← hs]; omega)
  rw [← hs] at h4
  have hin : InShape x.shape (rest.insertIdx a c) := by
    rw [hs]; exact (inShape_insert a _ _ hf.axis h1.length_eq).2 ⟨h1, h2, h3⟩
  have := hin.rowMajor_range
  exact ⟨rest, c, h1, h2, h3, h4, by omega⟩

/-! ## Initialisation -/

theorem totalDelta_replicate (k : Nat) : totalDelta (List.replicate k .incr) = k := by
  induction k with
  | zero => rfl
  | succ k ih =>
    rw [List.replicate_succ, totalDelta, ih]
    simp only [IterMove.delta]
    omega

/-- A loop whose writes agree with a target, and which covers some positions. -/
theorem fold_writes {β : Type} (target : List Rat) (step : List Rat → β → Res (List Rat))
    (pos : β → Nat → Prop) : ∀ (l : List β),
    (∀ b ∈ l, ∀ w : List Rat, w.length = target.length → ∃ w', step w b = .ok w' ∧
      w'.length = target.length ∧ ∀ p, (pos b p ∨ w[p]? = target[p]?) → w'[p]? = target[p]?) →
    ∀ w : List Rat, w.length = target.length → ∃ w', l.foldlM step w = .ok w' ∧
      w'.length = target.length ∧
      ∀ p, ((∃ b ∈ l, pos b p) ∨ w[p]? = target[p]?) → w'[p]? = target[p]?
  | [], _, w, hw => ⟨w, rfl, hw, by rintro p (⟨b, hb, _⟩ | h); · simp at hb
                                    · exact h⟩
  | b :: l, h, w, hw => by
    obtain ⟨w1, e1, l1, h1⟩ := h b List.mem_cons_self w hw
    obtain ⟨w2, e2, l2, h2⟩ := fold_writes target step pos l
      (fun b' hb => h b' (List.mem_cons_of_mem _ hb)) w1 l1
    refine ⟨w2, by rw [List.foldlM_cons, e1]; exact e2, l2, fun p hp => h2 p ?_⟩
    rcases hp with ⟨b', hb, hp⟩ | hp
    · rcases List.mem_cons.1 hb with rfl | hb
      · exact .inr (h1 p (.inl hp))
      · exact .inl ⟨b', hb, hp⟩
    · exact .inr (h1 p (.inr hp))

theorem starts_mem (ha : a ≤ R.length) : ∀ {xs : List (Arr Rat)} {off : Int} {x : Arr Rat} {st : Int},
    (∀ x ∈ xs, x.shape = R.insertIdx a (dimOf a x)) →
    ((x, st) ∈ xs.zip (concatStarts a (off * shapeProd (R.drop a)) (xs.map Arr.shape)) ↔
      ∃ pre post, xs = pre ++ x :: post ∧ st = (off + offs a pre) * shapeProd (R.drop a))
  | [], off, x, st, _ => by simp [concatStarts]
  | y :: xs, off, x, st, h => by
    have hy := h y List.mem_cons_self
    have ih := starts_mem ha (xs := xs) (off := off + dimOf a y) (x := x) (st := st)
      (fun z hz => h z (List.mem_cons_of_mem _ hz))
    have e : off * shapeProd (R.drop a) + (y.shape.drop a).prod =
        (off + dimOf a y) * shapeProd (R.drop a) := by
      conv_lhs => rw [hy]
      rw [prod_drop_insert a _ ha]; ring
    simp only [List.map_cons, concatStarts, List.zip_cons_cons, List.mem_cons, Prod.mk.injEq, e, ih]
    constructor
    · rintro (⟨rfl, rfl⟩ | ⟨pre, post, rfl, rfl⟩)
      · exact ⟨[], xs, rfl, by simp [offs]⟩
      · exact ⟨y :: pre, post, rfl, by rw [offs_cons]; ring⟩
    · rintro ⟨pre, post, he, rfl⟩
      cases pre with
      | nil =>
        simp only [List.nil_append, List.cons.injEq] at he
        exact .inl ⟨he.1.symm, by simp [offs]⟩
      | cons z pre =>
        simp only [List.cons_append, List.cons.injEq] at he
        obtain ⟨rfl, rfl⟩ := he
        exact .inr ⟨pre, post, rfl, by rw [offs_cons]; ring⟩

theorem concatCopy_spec {pre post : List (Arr Rat)} {x : Arr Rat} (hf : Fits R a (pre ++ x :: post))
    {D : Int} (hD : D = offs a (pre ++ x :: post)) {w : List Rat}
    (hw : w.length = (concatValue a (R.insertIdx a D) (pre ++ x :: post)).length) :
    ∃ w', concatCopy (R.insertIdx a D) w (x, offs a pre * shapeProd (R.drop a)) = .ok w' ∧
      w'.length = (concatValue a (R.insertIdx a D) (pre ++ x :: post)).length ∧
      ∀ p, ((∃ rest c, InShape R rest ∧ 0 ≤ c ∧ c < dimOf a x ∧
          p = (rowMajor (R.insertIdx a D) (rest.insertIdx a (c + offs a pre))).toNat) ∨
        w[p]? = (concatValue a (R.insertIdx a D) (pre ++ x :: post))[p]?) →
        w'[p]? = (concatValue a (R.insertIdx a D) (pre ++ x :: post))[p]? := by
  have ha := hf.axis
  have hpre : ∀ y ∈ pre, 0 < dimOf a y := fun y hy => hf.pos y (by simp [hy])
  have hpost : ∀ y ∈ post, 0 < dimOf a y := fun y hy => hf.pos y (by simp [hy])
  have hxm : x ∈ pre ++ x :: post := by simp
  have n1 := offs_nonneg hpre
  have n2 := offs_nonneg hpost
  have hDD : offs a pre + dimOf a x ≤ D := by rw [hD, offs_append, offs_cons]; omega
  have hD0 : 0 < D := by have := hf.pos x hxm; omega
  have hxs := hf.shape x hxm
  have ll := concatValue_length (xs := pre ++ x :: post) hf.dims hD0 ha
  obtain ⟨w', e, l, h⟩ := fold_writes (concatValue a (R.insertIdx a D) (pre ++ x :: post))
    (fun values (v : Rat × Nat) => do
      let p ← concatPos (R.insertIdx a D) (offs a pre * shapeProd (R.drop a)) x.shape
        (List.replicate v.2 .incr)
      vecSet values p v.1)
    (fun v p => ∃ rest c, InShape R rest ∧ 0 ≤ c ∧ c < dimOf a x ∧
      (rowMajor x.shape (rest.insertIdx a c)).toNat = v.2 ∧
      p = (rowMajor (R.insertIdx a D) (rest.insertIdx a (c + offs a pre))).toNat)
    x.data.zipIdx (by
      rintro ⟨v, k⟩ hv w hw
      rw [List.mk_mem_zipIdx_iff_getElem?] at hv
      have hk : k < x.data.length := by
        by_contra hn
        rw [List.getElem?_eq_none (by omega)] at hv; cases hv
      obtain ⟨rest, c, h1, h2, h3, h4, h5⟩ := hf.coords hxm hk
      have hp := concatPos_spec ha n1 hDD h1 h2 h3 (moves := List.replicate k .incr) (by
        rw [totalDelta_replicate, ← hxs, h5])
      rw [← hxs] at hp
      obtain ⟨hin, hp⟩ := hp
      have hr := hin.rowMajor_range
      have hb := concatPick_block (post := post) (rest := rest) h2 h3 hpre
      have hv' : x.data.getD (rowMajor x.shape (rest.insertIdx a c)).toNat 0 = v := by
        rw [h4, List.getD_eq_getElem?_getD, hv]; rfl
      refine ⟨w.set (rowMajor (R.insertIdx a D) (rest.insertIdx a (c + offs a pre))).toNat v, ?_,
        by simpa using hw, ?_⟩
      · simp only [hp, Res.ok_bind, vecSet]
        rw [if_pos (by omega)]
      · intro p hpp
        by_cases he : p = (rowMajor (R.insertIdx a D) (rest.insertIdx a (c + offs a pre))).toNat
        · subst he
          rw [List.getElem?_set_self (by omega), concatValue_get ha h1 (by omega) (by omega), hb, hv']
        · rw [List.getElem?_set_ne (fun h => he h.symm)]
          rcases hpp with ⟨rest', c', g1, g2, g3, g4, g5⟩ | hpp
          · exfalso
            apply he
            have i0 : InShape x.shape (rest.insertIdx a c) := by
              rw [hxs]; exact (inShape_insert a _ _ ha h1.length_eq).2 ⟨h1, h2, h3⟩
            have i1 : InShape x.shape (rest'.insertIdx a c') := by
              rw [hxs]; exact (inShape_insert a _ _ ha g1.length_eq).2 ⟨g1, g2, g3⟩
            have r0 := i0.rowMajor_range
            have r1 := i1.rowMajor_range
            have g4 : (rowMajor x.shape (rest'.insertIdx a c')).toNat = k := g4
            have := rowMajor_inj i0 i1 (by omega)
            have e1 : rest = rest' := by
              have := congrArg (fun l => l.eraseIdx a) this
              simpa [List.eraseIdx_insertIdx_self] using this
            have e2 : c = c' := by
              have := congrArg (fun l => l.getD a 0) this
              simpa only [insert_getD a _ (show a ≤ rest.length by rw [h1.length_eq]; exact ha),
                insert_getD a _ (show a ≤ rest'.length by rw [g1.length_eq]; exact ha)] using this
            rw [g5, e1, e2]
          · exact hpp) w hw
  refine ⟨w', e, l, fun p hp => h p ?_⟩
  rcases hp with ⟨rest, c, h1, h2, h3, h4⟩ | hp
  · left
    have hin : InShape x.shape (rest.insertIdx a c) := by
      rw [hxs]; exact (inShape_insert a _ _ ha h1.length_eq).2 ⟨h1, h2, h3⟩
    have r0 := hin.rowMajor_range
    have hw := hf.wf x hxm
    have hk : (rowMajor x.shape (rest.insertIdx a c)).toNat < x.data.length := by omega
    refine ⟨(x.data[(rowMajor x.shape (rest.insertIdx a c)).toNat],
      (rowMajor x.shape (rest.insertIdx a c)).toNat), ?_, rest, c, h1, h2, h3, rfl, h4⟩
    rw [List.mk_mem_zipIdx_iff_getElem?]
    simp [hk]
  · exact .inr hp

theorem concatInit_spec {xs : List (Arr Rat)} (hf : Fits R a xs) (hne : 0 < offs a xs) :
    concatInit a (R.insertIdx a (offs a xs)) xs =
      .ok (concatValue a (R.insertIdx a (offs a xs)) xs) := by
  have ha := hf.axis
  have ll := concatValue_length (xs := xs) hf.dims hne ha
  have hz := @starts_mem R a ha xs 0
  simp only [Int.zero_mul, Int.zero_add] at hz
  obtain ⟨w, e, l, h⟩ := fold_writes (concatValue a (R.insertIdx a (offs a xs)) xs)
    (concatCopy (R.insertIdx a (offs a xs)))
    (fun b p => ∃ pre post, xs = pre ++ b.1 :: post ∧ ∃ rest c, InShape R rest ∧ 0 ≤ c ∧
      c < dimOf a b.1 ∧ p = (rowMajor (R.insertIdx a (offs a xs))
        (rest.insertIdx a (c + offs a pre))).toNat ∧ b.2 = offs a pre * shapeProd (R.drop a))
    (xs.zip (concatStarts a 0 (xs.map Arr.shape))) (by
      rintro ⟨x, st⟩ hb w hw
      obtain ⟨pre, post, he, rfl⟩ := (hz hf.shape).1 hb
      subst he
      obtain ⟨w', e, l, h⟩ := concatCopy_spec hf rfl hw
      refine ⟨w', e, l, fun p hp => h p ?_⟩
      rcases hp with ⟨pre', post', he, rest, c, h1, h2, h3, h4, h5⟩ | hp
      · left
        refine ⟨rest, c, h1, h2, h3, ?_⟩
        have hQ : 0 < shapeProd (R.drop a) :=
          shapeProd_pos fun d hd => hf.dims d (List.mem_of_mem_drop hd)
        have : offs a pre = offs a pre' := Int.eq_of_mul_eq_mul_right hQ.ne' h5
        rw [this]; exact h4
      · exact .inr hp)
    (List.replicate (R.insertIdx a (offs a xs)).prod.toNat 0) (by
      rw [List.length_replicate, ← shapeProd_eq]; omega)
  unfold concatInit
  rw [e]
  congr 1
  apply List.ext_getElem?
  intro p
  by_cases hp : (p : Int) < shapeProd (R.insertIdx a (offs a xs))
  · apply h
    left
    obtain ⟨rest, c, hr, hc, hcD, rfl⟩ := concat_coords hf.dims hne ha hp
    obtain ⟨pre, x, post, c', he, h0, h1, rfl⟩ := concat_cover hc hcD
    exact ⟨(x, offs a pre * shapeProd (R.drop a)), (hz hf.shape).2 ⟨pre, post, he, rfl⟩, pre, post, he,
      rest, c', hr, h0, h1, rfl, rfl⟩
  · rw [List.getElem?_eq_none (by omega), List.getElem?_eq_none (by omega)]

/-! ## Propagation -/

theorem Fits.set_data {pre post : List (Arr Rat)} {x : Arr Rat} (hf : Fits R a (pre ++ x :: post))
    {data : List Rat} (hl : data.length = x.data.length) : Fits R a (pre ++ ⟨x.shape, data⟩ :: post) where
  axis := hf.axis
  dims := hf.dims
  shape := by
    intro y hy
    simp only [List.mem_append, List.mem_cons] at hy
    rcases hy with hy | rfl | hy
    · exact hf.shape y (by simp [hy])
    · exact hf.shape x (by simp)
    · exact hf.shape y (by simp [hy])
  pos := by
    intro y hy
    simp only [List.mem_append, List.mem_cons] at hy
    rcases hy with hy | rfl | hy
    · exact hf.pos y (by simp [hy])
    · exact hf.pos x (by simp)
    · exact hf.pos y (by simp [hy])
  wf := by
    intro y hy
    simp only [List.mem_append, List.mem_cons] at hy
    rcases hy with hy | rfl | hy
    · exact hf.wf y (by simp [hy])
    · have := hf.wf x (by simp); simp only [hl]; exact this
    · exact hf.wf y (by simp [hy])

theorem concatDiff_spec {pre post : List (Arr Rat)} {D : Int} {sh : List Int} : ∀ (d : List (Update Rat))
    {data y : List Rat} {s : ArrayState Rat},
    Fits R a (pre ++ ⟨sh, data⟩ :: post) → D = offs a (pre ++ ⟨sh, data⟩ :: post) →
    Replays data d y → (∀ u ∈ d, u.isChange = true) →
    s.buffer = concatValue a (R.insertIdx a D) (pre ++ ⟨sh, data⟩ :: post) →
    ∃ s', d.foldlM (concatStep (R.insertIdx a D) (offs a pre * shapeProd (R.drop a)) sh) s = .ok s' ∧
      s'.buffer = concatValue a (R.insertIdx a D) (pre ++ ⟨sh, y⟩ :: post) ∧
      y.length = data.length ∧
      ((∀ u ∈ d, u.index = 0) → ∀ com, RepA true s com s.buffer → RepA true s' com s'.buffer)
  | [], data, y, s, hf, hD, hr, hc, hb => by
    simp at hr; subst hr
    exact ⟨s, rfl, hb, rfl, fun _ _ h => h⟩
  | u :: d, data, y, s, hf, hD, hr, hc, hb => by
    obtain ⟨m, hm, hr'⟩ := replays_cons.1 hr
    obtain ⟨o, v, ho, hu, rfl, hi⟩ := change_eq hm (hc u List.mem_cons_self)
    have ha := hf.axis
    have hpre : ∀ y ∈ pre, 0 < dimOf a y := fun y hy => hf.pos y (by simp [hy])
    have hpost : ∀ y ∈ post, 0 < dimOf a y := fun y hy => hf.pos y (by simp [hy])
    have hxm : (⟨sh, data⟩ : Arr Rat) ∈ pre ++ ⟨sh, data⟩ :: post := by simp
    have n1 := offs_nonneg hpre
    have n2 := offs_nonneg hpost
    have hDD : offs a pre + dimOf a ⟨sh, data⟩ ≤ D := by rw [hD, offs_append, offs_cons]; omega
    have hxs := hf.shape _ hxm
    have hxp := hf.pos _ hxm
    obtain ⟨rest, c, h1, h2, h3, h4, h5⟩ := hf.coords hxm (k := u.index) hi
    have hp := concatPos_spec ha n1 hDD h1 h2 h3 (moves := [.advance u.index]) (by
      rw [← hxs, h5]; simp [totalDelta, IterMove.delta])
    rw [← hxs] at hp
    obtain ⟨hin, hp⟩ := hp
    have hv := concatPick_block (post := post) (rest := rest) h2 h3 hpre
    have hcur : s.buffer[(rowMajor (R.insertIdx a D) (rest.insertIdx a (c + offs a pre))).toNat]? =
        some o := by
      rw [hb, concatValue_get ha h1 (by omega) (by omega), hv, h4, List.getD_eq_getElem?_getD, ho]
      rfl
    -- the first element of the block
    have hz0 : ∃ z, InShape R z := by
      obtain ⟨idx, hidx, _⟩ := coords_at hf.dims (i := 0) (by have := shapeProd_pos hf.dims; omega)
      exact ⟨idx, hidx⟩
    have hst : rowMajor (R.insertIdx a D) (rest.insertIdx a (c + offs a pre)) =
        rowMajor (R.insertIdx a D) (rest.insertIdx a c) + offs a pre * shapeProd (R.drop a) :=
      rowMajor_insert a D c _ ha h1.length_eq
    have hQ : 0 < shapeProd (R.drop a) :=
      shapeProd_pos fun d hd => hf.dims d (List.mem_of_mem_drop hd)
    have hcin : InShape (R.insertIdx a D) (rest.insertIdx a c) :=
      (inShape_insert a _ _ ha h1.length_eq).2 ⟨h1, h2, by omega⟩
    have hrr := hin.rowMajor_range
    have hcr := hcin.rowMajor_range
    have hsn : 0 ≤ offs a pre * shapeProd (R.drop a) := Int.mul_nonneg n1 hQ.le
    have hbl : (s.buffer.length : Int) = shapeProd (R.insertIdx a D) := by
      rw [hb]; exact concatValue_length hf.dims (by omega) ha
    have hfirst : ∃ f, s.buffer[(offs a pre * shapeProd (R.drop a)).toNat]? = some f := by
      refine ⟨_, List.getElem?_eq_getElem ?_⟩
      omega
    obtain ⟨f, hf0⟩ := hfirst
    have hstep : concatStep (R.insertIdx a D) (offs a pre * shapeProd (R.drop a)) sh s u =
        .ok { s with
          updates := s.updates ++ [Update.change
            (rowMajor (R.insertIdx a D) (rest.insertIdx a (c + offs a pre))).toNat f v]
          buffer := s.buffer.set
            (rowMajor (R.insertIdx a D) (rest.insertIdx a (c + offs a pre))).toNat v } := by
      rw [hu]
      simp only [concatStep, Update.change, hp, Res.ok_bind, hcur, hf0, guardUB_true]
    have hbset := concatValue_set (xs := []) hf hD h1 h2 h3 (v := v)
    rw [h4] at hbset
    obtain ⟨s', e, hb', hl', hx⟩ := concatDiff_spec (D := D) (s := { s with
          updates := s.updates ++ [Update.change
            (rowMajor (R.insertIdx a D) (rest.insertIdx a (c + offs a pre))).toNat f v]
          buffer := s.buffer.set
            (rowMajor (R.insertIdx a D) (rest.insertIdx a (c + offs a pre))).toNat v }) d
      (hf.set_data (data := data.set u.index v) (by simp)) (by
        rw [hD]; simp only [offs_append, offs_cons]; rfl) hr'
      (fun u hu => hc u (List.mem_cons_of_mem _ hu)) (by
        simp only [hb]; exact hbset.symm)
    refine ⟨s', by rw [List.foldlM_cons, hstep]; exact e, hb', by simpa using hl', ?_⟩
    intro h0 com hrep
    apply hx (fun u hu => h0 u (List.mem_cons_of_mem _ hu)) com
    have hu0 := h0 u List.mem_cons_self
    have hsame : rowMajor (R.insertIdx a D) (rest.insertIdx a c) = 0 := by
      -- position 0 of the operand is coordinate zero everywhere
      have hz : ∀ {S idx : List Int}, InShape S idx → rowMajor S idx = 0 →
          idx = List.replicate S.length 0 := by
        intro S
        induction S with
        | nil => intro idx hi _; cases idx with
          | nil => rfl
          | cons => exact absurd hi (by simp [InShape])
        | cons q S ih =>
          intro idx hi he
          cases idx with
          | nil => exact absurd hi (by simp [InShape])
          | cons i idx =>
            obtain ⟨g0, g1, g2⟩ := hi
            simp only [rowMajor] at he
            have g3 := g2.rowMajor_range
            have g4 : 0 < shapeProd S := by omega
            have g5 : 0 ≤ i * shapeProd S := Int.mul_nonneg g0 g4.le
            have g6 : i * shapeProd S = 0 := by omega
            have g7 : i = 0 := by
              rcases Int.mul_eq_zero.1 g6 with h | h
              · exact h
              · omega
            subst g7
            rw [ih g2 (by omega), List.length_cons, List.replicate_succ]
      have hin2 : InShape sh (rest.insertIdx a c) := by
        have : sh = R.insertIdx a (dimOf a ⟨sh, data⟩) := hxs
        rw [this]; exact (inShape_insert a _ _ ha h1.length_eq).2 ⟨h1, h2, h3⟩
      have e0 := hz hin2 (by rw [h5, hu0]; rfl)
      rw [e0]
      have : ∀ (S : List Int) n, rowMajor S (List.replicate n 0) = 0 := by
        intro S
        induction S with
        | nil => intro n; cases n <;> rfl
        | cons q S ih =>
          intro n
          cases n with
          | zero => rfl
          | succ n => simp [List.replicate_succ, rowMajor, ih]
      exact this _ _
    have hpe : (rowMajor (R.insertIdx a D) (rest.insertIdx a (c + offs a pre))).toNat =
        (offs a pre * shapeProd (R.drop a)).toNat := by rw [hst, hsame]; simp
    rw [hpe] at hcur ⊢
    rw [hcur] at hf0
    cases hf0
    exact hrep.write hcur v

theorem concatProp_spec {D : Int} : ∀ {xs : List (Arr Rat)} {ins} {ys : List (Arr Rat)}
    {pre : List (Arr Rat)} {s : ArrayState Rat}, Ins ArrRel xs ins ys → Fits R a (pre ++ xs) →
    D = offs a (pre ++ xs) → (∀ x ∈ xs, x.dynamic = false) →
    s.buffer = concatValue a (R.insertIdx a D) (pre ++ xs) →
    ∃ s', (ins.zip (concatStarts a (offs a pre * shapeProd (R.drop a)) (ins.map fun i => i.1.shape))).foldlM
        (fun s i => i.1.2.foldlM (concatStep (R.insertIdx a D) i.2 i.1.1.shape) s) s = .ok s' ∧
      s'.buffer = concatValue a (R.insertIdx a D) (pre ++ ys) ∧
      ((∀ i ∈ ins, ∀ u ∈ i.2, u.index = 0) → ∀ com, RepA true s com s.buffer →
        RepA true s' com s'.buffer)
  | _, _, _, pre, s, .nil, hf, hD, hdyn, hb => ⟨s, rfl, hb, fun _ _ h => h⟩
  | _, _, _, pre, s, .cons (x := x) (d := d) (y := y) (xs := xs) (ins := ins) (ys := ys) hrel hi,
      hf, hD, hdyn, hb => by
    have hc := hrel.fixed (hdyn x List.mem_cons_self)
    have hs : x.shape = y.shape := hrel.shape
    obtain ⟨s1, e1, hb1, hl1, hx1⟩ := concatDiff_spec (D := D) (sh := x.shape) (pre := pre) (post := xs) d
      (data := x.data) (y := y.data) (s := s) hf hD hrel.replays hc hb
    have hye : (⟨x.shape, y.data⟩ : Arr Rat) = y := by rw [hs]
    rw [hye] at hb1
    have hf1 : Fits R a (pre ++ y :: xs) := by
      have := hf.set_data (data := y.data) hl1
      rwa [hye] at this
    have hdim : dimOf a y = dimOf a x := by simp [dimOf, hs]
    have e0 : offs a pre * shapeProd (R.drop a) + (y.shape.drop a).prod =
        offs a (pre ++ [y]) * shapeProd (R.drop a) := by
      conv_lhs => rw [hf1.shape y (by simp)]
      rw [prod_drop_insert a _ hf.axis, offs_append, offs_cons]
      simp only [offs, List.map_nil, List.sum_nil]
      ring
    obtain ⟨s2, e2, hb2, hx2⟩ := concatProp_spec (D := D) (pre := pre ++ [y]) (s := s1) hi
      (by simpa using hf1) (by
        rw [hD]; simp only [offs_append, offs_cons, hdim]
        simp [offs]; omega)
      (fun z hz => hdyn z (List.mem_cons_of_mem _ hz)) (by simpa using hb1)
    refine ⟨s2, ?_, by simpa using hb2, ?_⟩
    · simp only [List.map_cons, concatStarts, List.zip_cons_cons, List.foldlM_cons, ← hs, e1, Res.ok_bind]
      rw [← hs] at e0
      rw [e0]
      exact e2
    · intro h0 com hrep
      exact hx2 (fun i hi => h0 i (List.mem_cons_of_mem _ hi)) com
        (hx1 (h0 (y, d) List.mem_cons_self) com hrep)

end

/-! ## The shape -/

/-- The operands' shapes can be joined along axis `a` to `out`: they agree off the axis, and on the axis
the extents add up. -/
def Joins (shapes : List (List Int)) (a : Nat) (out : List Int) : Prop :=
  shapes ≠ [] ∧ (∀ s ∈ shapes, a < s.length ∧ s.eraseIdx a = out.eraseIdx a) ∧ a < out.length ∧
  out.getD a 0 = (shapes.map fun s => s.getD a 0).sum

theorem concatChain_spec {a : Nat} : ∀ {s : List Int} {rest : List (List Int)},
    concatChain a (s :: rest) = true ↔ ∀ t ∈ rest, t.length = s.length ∧ t.eraseIdx a = s.eraseIdx a
  | s, [] => by simp [concatChain]
  | s, t :: rest => by
    rw [concatChain, Bool.and_eq_true, concatChain_spec, concatMatch]
    simp only [Bool.and_eq_true, decide_eq_true_eq, List.mem_cons, forall_eq_or_imp]
    constructor
    · rintro ⟨⟨h1, h2⟩, h3⟩
      exact ⟨⟨h1.symm, h2.symm⟩, fun u hu => ⟨(h3 u hu).1.trans h1.symm, (h3 u hu).2.trans h2.symm⟩⟩
    · rintro ⟨⟨h1, h2⟩, h3⟩
      exact ⟨⟨h1.symm, h2.symm⟩, fun u hu => ⟨(h3 u hu).1.trans h1.symm, (h3 u hu).2.trans h2.symm⟩⟩

theorem erase_length_eq {a : Nat} {s t : List Int} (ha : a < s.length) (hb : a < t.length)
    (h : s.eraseIdx a = t.eraseIdx a) : s.length = t.length := by
  have := congrArg List.length h
  rw [List.length_eraseIdx, List.length_eraseIdx] at this
  simp only [ha, hb, if_true] at this
  omega

/-- **C28.** Concatenation is accepted exactly when the operands agree off the axis, and then has
the shape NumPy gives. -/
theorem C28_shape (shapes : List (List Int)) (a : Nat) (out : List Int) :
    concatShape shapes a = .ok out ↔ Joins shapes a out := by
  match shapes with
  | [] => simp [concatShape, Joins]
  | s :: rest =>
    simp only [concatShape, Res.bind_eq_ok, guardThrow_eq_ok, concatChain_spec, exists_const, Joins,
      Res.ok.injEq]
    constructor
    · rintro ⟨h1, h2, rfl⟩
      refine ⟨by simp, ?_, by simpa using h2, by simp [h2]⟩
      intro t ht
      rcases List.mem_cons.1 ht with rfl | ht
      · exact ⟨h2, by simp [List.eraseIdx_set_eq]⟩
      · exact ⟨by rw [(h1 t ht).1]; exact h2, by rw [(h1 t ht).2]; simp [List.eraseIdx_set_eq]⟩
    · rintro ⟨_, h1, h2, h3⟩
      have hs := h1 s List.mem_cons_self
      refine ⟨?_, hs.1, ?_⟩
      · intro t ht
        have := h1 t (List.mem_cons_of_mem _ ht)
        exact ⟨erase_length_eq this.1 hs.1 (this.2.trans hs.2.symm), this.2.trans hs.2.symm⟩
      · rw [← h3, ← insert_erase (s := out) a h2, ← hs.2]
        conv_lhs => rw [← insert_erase (s := s) a hs.1]
        have : ∀ (R : List Int) (a : Nat) (d e : Int), a ≤ R.length →
            (R.insertIdx a d).set a e = R.insertIdx a e := by
          intro R a
          induction a generalizing R with
          | zero => intros; simp
          | succ a ih =>
            intro d e h
            cases R with
            | nil => simp at h
            | cons r R => simp [ih R d e (by simpa using h)]
        have hal : a ≤ (s.eraseIdx a).length := by
          rw [List.length_eraseIdx]; split_ifs <;> omega
        rw [this _ _ _ _ hal, List.eraseIdx_insertIdx_self, insert_getD a _ hal]

example : concatShape [[2, 2], [2, 1]] 1 = .ok [2, 3] := by decide
example : concatShape [[2, 2], [3, 1]] 1 = .throw := by decide

/-! ## The theorems -/

/-- Operands of the given shapes with positive extents, joined to `out`. -/
structure Joined (shapes : List (List Int)) (a : Nat) (out : List Int) : Prop where
  shape : concatShape shapes a = .ok out
  pos : ∀ s ∈ shapes, ∀ d ∈ s, 0 < d

theorem Joined.fits {shapes : List (List Int)} {a : Nat} {out : List Int} (h : Joined shapes a out)
    {xs : List (Arr Rat)} (hs : xs.map Arr.shape = shapes) (hw : ∀ x ∈ xs, x.WF) :
    Fits (out.eraseIdx a) a xs ∧ out = (out.eraseIdx a).insertIdx a (offs a xs) ∧ 0 < offs a xs ∧
      ∀ x ∈ xs, x.dynamic = false := by
  obtain ⟨h1, h2, h3, h4⟩ := (C28_shape _ _ _).1 h.shape
  have hmem : ∀ x ∈ xs, x.shape ∈ shapes := fun x hx => by
    rw [← hs]; exact List.mem_map.2 ⟨x, hx, rfl⟩
  have hdyn : ∀ x ∈ xs, x.dynamic = false := by
    intro x hx
    have hp := h.pos _ (hmem x hx)
    unfold Arr.dynamic dynamicShape
    split
    · rename_i d _ he
      have := hp d (by rw [he]; simp)
      simp; omega
    · rfl
  have hposd : ∀ x ∈ xs, 0 < dimOf a x := by
    intro x hx
    have ha := (h2 _ (hmem x hx)).1
    apply h.pos _ (hmem x hx)
    unfold dimOf
    rw [List.getD_eq_getElem?_getD, List.getElem?_eq_getElem ha]
    exact List.getElem_mem ha
  have hoff : offs a xs = out.getD a 0 := by
    rw [h4, ← hs, List.map_map]; rfl
  have hf : Fits (out.eraseIdx a) a xs :=
    { axis := by rw [List.length_eraseIdx]; split_ifs <;> omega
      dims := by
        obtain ⟨s, hsm⟩ := List.exists_mem_of_ne_nil _ h1
        rw [← (h2 s hsm).2]
        intro d hd
        exact h.pos s hsm d (List.mem_of_mem_eraseIdx hd)
      shape := by
        intro x hx
        obtain ⟨e1, e2⟩ := h2 _ (hmem x hx)
        rw [← e2]
        exact (insert_erase a e1).symm
      pos := hposd
      wf := by
        intro x hx
        have := hw x hx
        unfold Arr.WF at this
        rw [hdyn x hx] at this
        rw [shapeProd_eq]
        simpa using this }
  refine ⟨hf, ?_, ?_, hdyn⟩
  · rw [hoff]; exact (insert_erase a h3).symm
  · match xs, hs with
    | [], hs => simp at hs; exact absurd hs h1
    | x :: xs, _ =>
      rw [offs_cons]
      have e1 := hposd x List.mem_cons_self
      have e2 := offs_nonneg (fun y hy => hposd y (List.mem_cons_of_mem x hy))
      omega

theorem concat_init {shapes : List (List Int)} {a : Nat} {out : List Int} (h : Joined shapes a out)
    {xs : List (Arr Rat)} (hx : (concatNode shapes a out).ok xs) :
    (concatNode shapes a out).init xs = .ok (ArrayState.mk' (concatValue a out xs)) := by
  obtain ⟨hf, ho, hn, _⟩ := h.fits hx.1 hx.2
  have := concatInit_spec hf hn
  rw [← ho] at this
  simp [arrayNode, this]

theorem concat_propagate {shapes : List (List Int)} {a : Nat} {out : List Int} (h : Joined shapes a out)
    {xs ys : List (Arr Rat)} {ins} (hx : (concatNode shapes a out).ok xs)
    (hi : Ins ArrRel xs ins ys) :
    ∃ s', (concatNode shapes a out).propagate (ArrayState.mk' (concatValue a out xs)) ins = .ok s' ∧
      s'.buffer = concatValue a out ys ∧
      ((∀ i ∈ ins, ∀ u ∈ i.2, u.index = 0) →
        RepA true s' (concatValue a out xs) (concatValue a out ys)) := by
  obtain ⟨hf, ho, hn, hd⟩ := h.fits hx.1 hx.2
  obtain ⟨s', e, hb, hr⟩ := concatProp_spec (R := out.eraseIdx a) (D := offs a xs) (pre := [])
    (s := ArrayState.mk' (concatValue a out xs)) hi (by simpa using hf) (by simp) hd (by
      rw [← ho]; rfl)
  rw [← ho] at e hb
  refine ⟨s', ?_, by simpa using hb, fun h0 => ?_⟩
  · simpa [concatPropagate, offs] using e
  · have hb' : s'.buffer = concatValue a out ys := by simpa using hb
    rw [← hb']
    exact hr h0 _ (RepA.mk'_ _)

/-- **C28** (partial: the value, along histories in which every change is committed).  Initialised, and
after every change, the value is the operands joined along the axis; no step throws or is undefined.
Missing: the reported change is wrong and reverting is wrong, see `C28_diff_fails` and
`C28_revert_fails`; zero extents. -/
theorem C28_value_partial {shapes : List (List Int)} {a : Nat} {out : List Int}
    (h : Joined shapes a out) {xs0 xs : List (Arr Rat)} {rounds : List (Round (Arr Rat) (List (Update Rat)))}
    (h0 : (concatNode shapes a out).ok xs0) (hacc : ∀ r ∈ rounds, r.accept = true)
    (hl : Legal ArrRel (concatNode shapes a out).ok xs0 rounds xs) :
    ∃ s0 s, (concatNode shapes a out).init xs0 = .ok s0 ∧
      rounds.foldlM (concatNode shapes a out).round s0 = .ok s ∧
      (concatNode shapes a out).view s = ⟨out, concatValue a out xs⟩ ∧
      (concatNode shapes a out).diff s = [] ∧
      ∀ ins ys, Ins ArrRel xs ins ys → (concatNode shapes a out).ok ys →
        ∃ s', (concatNode shapes a out).propagate s ins = .ok s' ∧
          (concatNode shapes a out).view s' = ⟨out, concatValue a out ys⟩ := by
  have key : ∀ {xs rounds zs}, Legal ArrRel (concatNode shapes a out).ok xs rounds zs →
      (∀ r ∈ rounds, r.accept = true) → (concatNode shapes a out).ok xs →
      rounds.foldlM (concatNode shapes a out).round (ArrayState.mk' (concatValue a out xs)) =
        .ok (ArrayState.mk' (concatValue a out zs)) ∧ (concatNode shapes a out).ok zs := by
    intro xs rounds zs hl
    induction hl with
    | nil => intro _ ho; exact ⟨rfl, ho⟩
    | cons hi hy _ ih =>
      rename_i xs ys zs r rs _
      intro hacc ho
      have hr := hacc r List.mem_cons_self
      obtain ⟨s', e, hb, _⟩ := concat_propagate h ho hi
      rw [hr] at ih
      have ih := ih (fun r hr => hacc r (List.mem_cons_of_mem _ hr)) hy
      refine ⟨?_, ih.2⟩
      have hc : s'.commit = ArrayState.mk' (concatValue a out ys) := by
        simp [ArrayState.commit, ArrayState.mk', hb]
      rw [List.foldlM_cons]
      have e' : concatPropagate a out (ArrayState.mk' (concatValue a out xs)) r.ins = .ok s' := e
      simp only [NodeSem.round, e', Res.ok_bind, hr, if_true, hc]
      exact ih.1
  obtain ⟨e, ho⟩ := key hl hacc h0
  refine ⟨_, _, concat_init h h0, e, rfl, rfl, fun ins ys hi hy => ?_⟩
  obtain ⟨s', e', hb, _⟩ := concat_propagate h ho hi
  exact ⟨s', e', by simp only [hb]⟩

/-- **C28** (partial: when only the first elements of operands change, as with single-element operands).
From a freshly initialised or committed state the full contract holds. -/
theorem C28_first_elements_partial {shapes : List (List Int)} {a : Nat} {out : List Int}
    (h : Joined shapes a out) {xs ys : List (Arr Rat)} {ins} (hx : (concatNode shapes a out).ok xs)
    (hi : Ins ArrRel xs ins ys) (hfirst : ∀ i ∈ ins, ∀ u ∈ i.2, u.index = 0) :
    ∃ s s', (concatNode shapes a out).init xs = .ok s ∧
      (concatNode shapes a out).propagate s ins = .ok s' ∧
      (concatNode shapes a out).view s' = ⟨out, concatValue a out ys⟩ ∧
      Replays (concatValue a out xs) ((concatNode shapes a out).diff s') (concatValue a out ys) ∧
      (concatNode shapes a out).revert s' = (concatNode shapes a out).init xs ∧
      ((concatNode shapes a out).ok ys →
        (concatNode shapes a out).commit s' = (concatNode shapes a out).init ys) := by
  obtain ⟨s', e, hb, hr⟩ := concat_propagate h hx hi
  have hr := hr hfirst
  refine ⟨_, s', concat_init h hx, e, by simp only [hb], hr.rep.rep, ?_, fun hy => ?_⟩
  · rw [concat_init h hx]
    simp only [hr.rep.revert_eq]
  · rw [concat_init h hy]
    simp only [hr.rep.commit_eq]

/-- Operands `[[1, 2], [3, 4]]` and `[[5], [6]]`, joined along axis 1. -/
def concatXs : List (Arr Rat) := [⟨[2, 2], [1, 2, 3, 4]⟩, ⟨[2, 1], [5, 6]⟩]

/-- The 3 becomes a 9. -/
def concatIns : List (Arr Rat × List (Update Rat)) :=
  [(⟨[2, 2], [1, 2, 9, 4]⟩, [Update.change 2 3 9]), (⟨[2, 1], [5, 6]⟩, [])]

example : Joined [[2, 2], [2, 1]] 1 [2, 3] := ⟨by decide, by decide⟩
example : concatValue 1 [2, 3] concatXs = [1, 2, 5, 3, 4, 6] := by decide +kernel
example : Legal ArrRel (concatNode [[2, 2], [2, 1]] 1 [2, 3]).ok concatXs [⟨concatIns, true⟩]
    (concatIns.map Prod.fst) := by
  refine .cons (ys := concatIns.map Prod.fst) ?_ ?_ .nil <;> decide +kernel
example : (concatNode [[2, 2], [2, 1]] 1 [2, 3]).after concatXs [⟨concatIns, true⟩] =
    .ok (⟨[2, 3], [1, 2, 5, 9, 4, 6]⟩, []) := by decide +kernel
-- only first elements change
example : Ins ArrRel concatXs [(⟨[2, 2], [7, 2, 3, 4]⟩, [Update.change 0 1 7]),
    (⟨[2, 1], [8, 6]⟩, [Update.change 0 5 8])] [⟨[2, 2], [7, 2, 3, 4]⟩, ⟨[2, 1], [8, 6]⟩] := by
  decide +kernel

/-- **C28 fails** for the reported change: changing the element 3 of the operand, the symbol reports that
element 3 of its value changed from 1 (it was 3), which is not the change of its value. -/
theorem C28_diff_fails : ∃ s', (concatNode [[2, 2], [2, 1]] 1 [2, 3]).propagate
      (ArrayState.mk' (concatValue 1 [2, 3] concatXs)) concatIns = .ok s' ∧
    (concatNode [[2, 2], [2, 1]] 1 [2, 3]).diff s' = [Update.change 3 1 9] ∧
    ¬ Replays (concatValue 1 [2, 3] concatXs) ((concatNode [[2, 2], [2, 1]] 1 [2, 3]).diff s')
      (concatValue 1 [2, 3] (concatIns.map Prod.fst)) := by
  refine ⟨⟨[1, 2, 5, 9, 4, 6], [Update.change 3 1 9], 6⟩, ?_, rfl, ?_⟩ <;> decide +kernel

/-- **C28 fails** for reverting: after reverting the change the symbol's value has a 1 where its operand
has a 3. -/
theorem C28_revert_fails :
    Legal ArrRel (concatNode [[2, 2], [2, 1]] 1 [2, 3]).ok concatXs [⟨concatIns, false⟩] concatXs ∧
    (concatNode [[2, 2], [2, 1]] 1 [2, 3]).after concatXs [⟨concatIns, false⟩] =
      .ok (⟨[2, 3], [1, 2, 5, 1, 4, 6]⟩, []) ∧
    concatValue 1 [2, 3] concatXs = [1, 2, 5, 3, 4, 6] := by
  refine ⟨.cons (ys := concatIns.map Prod.fst) ?_ ?_ .nil, ?_, ?_⟩ <;> decide +kernel

end Verif
