import Verif.Spec.Shape
import Verif.Model.Shape
import Mathlib.Tactic.Ring
import Mathlib.Tactic.Linarith
import Mathlib.Algebra.Order.Ring.Int

set_option linter.unusedSectionVars false
set_option linter.unusedSimpArgs false
set_option linter.unusedVariables false

/-!
# C11, C12, C13: broadcasting, index conversion, strides and contiguity
-/

namespace Verif

/-! ## C11 -/

/-- Compatibility over reversed shapes. -/
private def CompatR (l r : List Int) : Prop :=
  ∀ i : Nat, (l[i]?).getD 1 = (r[i]?).getD 1 ∨ (l[i]?).getD 1 = 1 ∨ (r[i]?).getD 1 = 1

private theorem compatR_cons {l r : Int} {ls rs : List Int} :
    CompatR (l :: ls) (r :: rs) ↔ (l = r ∨ l = 1 ∨ r = 1) ∧ CompatR ls rs := by
  constructor
  · intro h
    refine ⟨by simpa using h 0, fun i => by simpa using h (i + 1)⟩
  · rintro ⟨h0, h⟩ i
    cases i with
    | zero => simpa using h0
    | succ i => simpa using h i

private theorem broadcastRev_ok : ∀ (l r : List Int), CompatR l r →
    ∃ c, broadcastRev l r = .ok c ∧ c.length = max l.length r.length ∧
      ∀ i : Nat, (c[i]?).getD 1 = if (l[i]?).getD 1 = 1 then (r[i]?).getD 1 else (l[i]?).getD 1
  | [], rs, _ => ⟨rs, by cases rs <;> rfl, by simp, by simp⟩
  | l :: ls, [], _ => ⟨l :: ls, rfl, by simp, by intro i; simp⟩
  | l :: ls, r :: rs, h => by
    obtain ⟨h0, hr⟩ := compatR_cons.1 h
    obtain ⟨c, hc, hl, hi⟩ := broadcastRev_ok ls rs hr
    have key : ∃ d, broadcastRev (l :: ls) (r :: rs) = .ok (d :: c) ∧ d = if l = 1 then r else l := by
      unfold broadcastRev
      simp only [hc, Res.ok_bind]
      by_cases h1 : l = r
      · exact ⟨l, by simp [h1], by simp [h1]⟩
      · by_cases h2 : l = 1
        · exact ⟨r, by simp [h1, h2], by simp [h2]⟩
        · have h3 : r = 1 := by tauto
          exact ⟨l, by simp [h1, h2, h3], by simp [h2]⟩
    obtain ⟨d, hd, he⟩ := key
    refine ⟨d :: c, hd, by simp [hl], ?_⟩
    intro i
    cases i with
    | zero => simpa using he
    | succ i => simpa using hi i

private theorem broadcastRev_throw : ∀ (l r : List Int), ¬ CompatR l r → broadcastRev l r = .throw
  | [], rs, h => (h (fun i => by simp)).elim
  | l :: ls, [], h => (h (fun i => by simp)).elim
  | l :: ls, r :: rs, h => by
    rw [compatR_cons] at h
    unfold broadcastRev
    by_cases h0 : l = r ∨ l = 1 ∨ r = 1
    · have := broadcastRev_throw ls rs (fun hc => h ⟨h0, hc⟩)
      simp only [this, Res.throw_bind]
      rcases h0 with h0 | h0 | h0 <;> simp [h0]
    · push Not at h0
      simp [h0]

private theorem broadcastable_iff (a b : List Int) : Broadcastable a b ↔ CompatR a.reverse b.reverse :=
  Iff.rfl

/-- **C11.** If NumPy's rule allows it, broadcasting succeeds with NumPy's shape. -/
theorem C11_broadcast_ok (a b : List Int) (h : Broadcastable a b) :
    ∃ c, broadcastShape a b = .ok c ∧ IsBroadcast a b c := by
  obtain ⟨c, hc, hl, hi⟩ := broadcastRev_ok _ _ ((broadcastable_iff a b).1 h)
  refine ⟨c.reverse, by simp [broadcastShape, hc], by simpa using hl, ?_⟩
  intro i
  have := hi i
  simp only [dimR, List.reverse_reverse]
  exact this

/-- **C11.** Otherwise it is rejected. -/
theorem C11_broadcast_rejects (a b : List Int) (h : ¬ Broadcastable a b) :
    broadcastShape a b = .throw := by
  simp [broadcastShape, broadcastRev_throw _ _ ((broadcastable_iff a b).not.1 h)]

private theorem ext_dimR {c c' : List Int} (hl : c.length = c'.length)
    (h : ∀ i, dimR c i = dimR c' i) : c = c' := by
  have : c.reverse = c'.reverse := by
    apply List.ext_getElem (by simp [hl])
    intro i h1 h2
    have := h i
    simp only [dimR] at this
    rwa [List.getElem?_eq_getElem h1, List.getElem?_eq_getElem h2] at this
  simpa using congrArg List.reverse this

/-- **C11.** The broadcast shape is determined by the specification, so `IsBroadcast` describes
the result completely. -/
theorem C11_broadcast_unique {a b c c' : List Int} (h : IsBroadcast a b c) (h' : IsBroadcast a b c') :
    c = c' :=
  ext_dimR (h.1.trans h'.1.symm) fun i => (h.2 i).trans (h'.2 i).symm

/-- **C11.** The order of the operands does not matter. -/
theorem C11_broadcast_comm (a b : List Int) : broadcastShape a b = broadcastShape b a := by
  have hsym : ∀ {x y}, Broadcastable x y → Broadcastable y x := by
    intro x y h i
    rcases h i with h | h | h
    · exact .inl h.symm
    · exact .inr (.inr h)
    · exact .inr (.inl h)
  by_cases h : Broadcastable a b
  · obtain ⟨c, hc, h1⟩ := C11_broadcast_ok a b h
    obtain ⟨c', hc', h1'⟩ := C11_broadcast_ok b a (hsym h)
    rw [hc, hc']
    congr 1
    refine ext_dimR (by rw [h1.1, h1'.1, max_comm]) fun i => ?_
    rw [h1.2 i, h1'.2 i]
    rcases h i with h | h | h
    · simp [h]
    · by_cases hb : dimR b i = 1 <;> simp [h, hb]
    · by_cases ha : dimR a i = 1 <;> simp [h, ha]
  · rw [C11_broadcast_rejects a b h, C11_broadcast_rejects b a (fun h' => h (hsym h'))]

/-- **C11.** A dynamic leading dimension (-1), against a shape with equally many dimensions, is
compatible exactly with a unit or dynamic dimension, and the result is then dynamic. -/
theorem C11_broadcast_dynamic (a b : List Int) (n : Int) (hl : a.length = b.length) :
    (n = 1 ∨ n = -1 → Broadcastable a b →
      ∃ c, broadcastShape (-1 :: a) (n :: b) = .ok (-1 :: c) ∧ IsBroadcast a b c) ∧
    (n ≠ 1 → n ≠ -1 → broadcastShape (-1 :: a) (n :: b) = .throw) := by
  have hd : ∀ (x : Int) (s : List Int) i, dimR (x :: s) i =
      if i < s.length then dimR s i else if i = s.length then x else 1 := by
    intro x s i
    simp only [dimR, List.reverse_cons]
    by_cases h : i < s.length
    · rw [if_pos h, List.getElem?_append_left (by simpa using h)]
    · rw [if_neg h, List.getElem?_append_right (by simpa using h)]
      by_cases h2 : i = s.length
      · simp [h2]
      · rw [if_neg h2, List.getElem?_eq_none (by simp; omega)]; rfl
  constructor
  · intro hn hb
    obtain ⟨c, _, h1⟩ := C11_broadcast_ok a b hb
    have hb' : Broadcastable (-1 :: a) (n :: b) := by
      intro i
      rw [hd, hd, ← hl]
      split_ifs
      · exact hb i
      · rcases hn with rfl | rfl <;> simp
      · simp
    obtain ⟨c', hc', h1'⟩ := C11_broadcast_ok _ _ hb'
    have : IsBroadcast (-1 :: a) (n :: b) (-1 :: c) := by
      have hcl : c.length = a.length := by rw [h1.1, hl]; simp
      refine ⟨by simp [hcl, hl], fun i => ?_⟩
      rw [hd, hd, hd, hcl, ← hl]
      rcases Nat.lt_trichotomy i a.length with h2 | h2 | h2
      · rw [if_pos h2, if_pos h2, if_pos h2, h1.2 i]
      · subst h2; simp
      · have h3 : ¬ i < a.length := by omega
        have h4 : i ≠ a.length := by omega
        simp [h3, h4]
    rw [C11_broadcast_unique h1' this] at hc'
    exact ⟨c, hc', h1⟩
  · intro h1 h2
    apply C11_broadcast_rejects
    intro h
    have := h a.length
    rw [hd, hd, ← hl] at this
    simp at this
    omega

example : broadcastShape [8, 1, 6, 1] [7, 1, 5] = .ok [8, 7, 6, 5] := by decide
example : broadcastShape [-1, 3] [1, 3] = .ok [-1, 3] := by decide
example : broadcastShape [2, 1] [8, 4, 3] = .throw := by decide
example : Broadcastable [8, 1, 6, 1] [7, 1, 5] := by
  by_contra h
  have := C11_broadcast_rejects _ _ h
  revert this; decide

/-! ## C12 -/

theorem shapeToStrides_cons (d : Int) (shape : List Int) :
    shapeToStrides (d :: shape) = 8 * shapeProd shape :: shapeToStrides shape := by
  induction shape generalizing d with
  | nil => rfl
  | cons e shape ih =>
    conv_lhs => unfold shapeToStrides
    rw [ih e]
    simp only [List.cons.injEq, and_true, shapeProd]
    ring

theorem shapeProd_pos : ∀ {shape : List Int}, (∀ d ∈ shape, 0 < d) → 0 < shapeProd shape
  | [], _ => by decide
  | d :: shape, h => by
    have := shapeProd_pos (shape := shape) fun e he => h e (List.mem_cons_of_mem _ he)
    exact Int.mul_pos (h d List.mem_cons_self) this

theorem InShape.pos : ∀ {shape idx : List Int}, InShape shape idx → ∀ d ∈ shape, 0 < d
  | [], _, _, d, hd => by simp at hd
  | e :: shape, i :: idx, ⟨h0, h1, h⟩, d, hd => by
    rcases List.mem_cons.1 hd with rfl | hd
    · omega
    · exact h.pos d hd

theorem InShape.rowMajor_range : ∀ {shape idx : List Int}, InShape shape idx →
    0 ≤ rowMajor shape idx ∧ rowMajor shape idx < shapeProd shape
  | [], [], _ => by decide
  | d :: shape, i :: idx, ⟨h0, h1, h⟩ => by
    have ih := h.rowMajor_range
    simp only [rowMajor, shapeProd]
    have hp : 0 < shapeProd shape := by omega
    constructor
    · nlinarith
    · have : (i + 1) * shapeProd shape ≤ d * shapeProd shape :=
        Int.mul_le_mul_of_nonneg_right (by omega) (by omega)
      nlinarith

theorem unravel_spec : ∀ (shape : List Int), (∀ d ∈ shape, 0 < d) → ∀ index, 0 ≤ index →
    index < shapeProd shape → ∃ idx, unravelIndex (shapeToStrides shape) index = .ok idx ∧
      InShape shape idx ∧ rowMajor shape idx = index
  | [], _, index, h0, h1 => by
    simp only [shapeProd] at h1
    exact ⟨[], rfl, trivial, by simp [rowMajor]; omega⟩
  | d :: shape, hd, index, h0, h1 => by
    have hp : 0 < shapeProd shape := shapeProd_pos fun e he => hd e (List.mem_cons_of_mem _ he)
    obtain ⟨idx, h2, h3, h4⟩ := unravel_spec shape (fun e he => hd e (List.mem_cons_of_mem _ he))
      (index % shapeProd shape) (Int.emod_nonneg _ hp.ne') (Int.emod_lt_of_pos _ hp)
    have h8 : 8 * shapeProd shape / 8 = shapeProd shape := by omega
    refine ⟨index / shapeProd shape :: idx, ?_, ⟨Int.ediv_nonneg h0 hp.le, ?_, h3⟩, ?_⟩
    · rw [shapeToStrides_cons]
      unfold unravelIndex
      rw [h8, guardUB_true ⟨h0, by omega, hp.ne'⟩]
      simp [h2]
    · exact Int.ediv_lt_of_lt_mul hp (by simpa [shapeProd] using h1)
    · simp only [rowMajor, h4]
      rw [mul_comm]; exact Int.mul_ediv_add_emod _ _

theorem ravel_spec : ∀ {shape idx : List Int}, InShape shape idx →
    ravelMultiIndex (shapeToStrides shape) idx = .ok (rowMajor shape idx)
  | [], [], _ => rfl
  | d :: shape, i :: idx, ⟨h0, h1, h⟩ => by
    have hp : 0 < shapeProd shape := shapeProd_pos h.pos
    rw [shapeToStrides_cons]
    unfold ravelMultiIndex
    rw [guardUB_true (Int.mul_nonneg h0 (by omega)), Res.ok_bind, ravel_spec h, Res.ok_bind]
    have : i * (8 * shapeProd shape) / 8 = i * shapeProd shape := by
      rw [show i * (8 * shapeProd shape) = 8 * (i * shapeProd shape) by ring]; omega
    rw [this, rowMajor]

theorem rowMajor_inj : ∀ {shape idx idx' : List Int}, InShape shape idx → InShape shape idx' →
    rowMajor shape idx = rowMajor shape idx' → idx = idx'
  | [], [], [], _, _, _ => rfl
  | d :: shape, i :: idx, j :: idx', ⟨h0, h1, h⟩, ⟨h0', h1', h'⟩, he => by
    simp only [rowMajor] at he
    have r := h.rowMajor_range
    have r' := h'.rowMajor_range
    have hp : 0 < shapeProd shape := by omega
    have hij : i = j := by
      rcases Int.lt_trichotomy i j with hlt | heq | hlt
      · have : (i + 1) * shapeProd shape ≤ j * shapeProd shape :=
          Int.mul_le_mul_of_nonneg_right (by omega) (by omega)
        nlinarith
      · exact heq
      · have : (j + 1) * shapeProd shape ≤ i * shapeProd shape :=
          Int.mul_le_mul_of_nonneg_right (by omega) (by omega)
        nlinarith
    subst hij
    rw [rowMajor_inj h h' (by omega)]

/-- **C12.** Unravelling a valid flat index gives in-range coordinates of the element at that
row-major position, and ravelling them gives the index back. -/
theorem C12_unravel_ravel (shape : List Int) (hd : ∀ d ∈ shape, 0 < d) (index : Int)
    (h0 : 0 ≤ index) (h1 : index < shapeProd shape) :
    ∃ idx, unravelIndex (shapeToStrides shape) index = .ok idx ∧ InShape shape idx ∧
      rowMajor shape idx = index ∧ ravelMultiIndex (shapeToStrides shape) idx = .ok index := by
  obtain ⟨idx, h2, h3, h4⟩ := unravel_spec shape hd index h0 h1
  exact ⟨idx, h2, h3, h4, by rw [ravel_spec h3, h4]⟩

/-- **C12.** Conversely, ravelling in-range coordinates gives a valid flat index, which unravels to
the same coordinates. -/
theorem C12_ravel_unravel (shape idx : List Int) (h : InShape shape idx) :
    ∃ index, ravelMultiIndex (shapeToStrides shape) idx = .ok index ∧ 0 ≤ index ∧
      index < shapeProd shape ∧ unravelIndex (shapeToStrides shape) index = .ok idx := by
  have hr := h.rowMajor_range
  refine ⟨rowMajor shape idx, ravel_spec h, hr.1, hr.2, ?_⟩
  obtain ⟨idx', h2, h3, h4⟩ := unravel_spec shape h.pos _ hr.1 hr.2
  rw [h2, rowMajor_inj h3 h h4]

example : unravelIndex (shapeToStrides [2, 3, 4]) 17 = .ok [1, 1, 1] := by decide
example : ravelMultiIndex (shapeToStrides [2, 3, 4]) [1, 1, 1] = .ok 17 := by decide
example : InShape [2, 3, 4] [1, 1, 1] := by simp [InShape]

/-! ## C13 -/

private theorem foldl_mul (a : Int) (l : List Int) : l.foldl (· * ·) a = a * shapeProd l := by
  induction l generalizing a with
  | nil => simp [shapeProd]
  | cons d l ih => rw [List.foldl_cons, ih, shapeProd]; ring

/-- **C13.** The size derived from a shape without negative leading dimension is the number of
elements, the product of the dimensions. -/
theorem C13_size (shape : List Int) (h : ∀ d ∈ shape.head?, 0 ≤ d) :
    shapeToSize shape = shapeProd shape := by
  cases shape with
  | nil => rfl
  | cons d shape =>
    have : ¬ d < 0 := by simpa using h d (by simp)
    simp only [shapeToSize, if_neg this, foldl_mul, shapeProd]
    ring

/-- **C13.** A negative leading dimension gives the marker for a state-dependent size. -/
theorem C13_size_dynamic (d : Int) (shape : List Int) (h : d < 0) :
    shapeToSize (d :: shape) = -1 := if_pos h

private theorem visits_strides : ∀ {shape idx : List Int}, InShape shape idx →
    byteOffset (shapeToStrides shape) idx = 8 * rowMajor shape idx
  | [], [], _ => rfl
  | d :: shape, i :: idx, ⟨_, _, h⟩ => by
    rw [shapeToStrides_cons]
    simp only [byteOffset, rowMajor, visits_strides h]
    ring

/-- **C13.** The strides derived from a shape are row-major: the element with given coordinates
lies at its row-major position. -/
theorem C13_strides_row_major (shape : List Int) :
    (shapeToStrides shape).length = shape.length ∧ VisitsConsecutive shape (shapeToStrides shape) := by
  refine ⟨?_, fun idx h => visits_strides h⟩
  induction shape with
  | nil => rfl
  | cons d shape ih => rw [shapeToStrides_cons]; simp [ih]

/-- Contiguity from the left, as a recursion: the inner dimensions first. -/
private def Contig : List Int → List Int → Prop
  | d :: shape, s :: strides => Contig shape strides ∧ (d ≠ 1 → s = 8 * shapeProd shape)
  | _, _ => True

private theorem isContiguousRev_append (l : List (Int × Int)) (d s sd : Int)
    (hne : ∀ p ∈ l, p.1 ≠ 0) (hd : d ≠ 0) :
    isContiguousRev (l ++ [(d, s)]) sd =
      (isContiguousRev l sd && decide (d ≠ 1 → s = sd * shapeProd (l.map Prod.fst))) := by
  induction l generalizing sd with
  | nil =>
    simp only [List.nil_append, isContiguousRev, if_neg hd, List.map_nil, shapeProd, mul_one]
    by_cases h1 : d = 1 <;> by_cases h2 : s = sd <;> simp [h1, h2]
  | cons p l ih =>
    obtain ⟨dim, stride⟩ := p
    have h0 : dim ≠ 0 := hne _ List.mem_cons_self
    simp only [List.cons_append, isContiguousRev, if_neg h0, List.map_cons, shapeProd]
    by_cases h1 : dim ≠ 1 ∧ stride ≠ sd
    · simp [h1]
    · rw [if_neg h1, if_neg h1, ih _ fun p hp => hne p (List.mem_cons_of_mem _ hp)]
      simp only [mul_assoc]

private theorem shapeProd_append (l l' : List Int) :
    shapeProd (l ++ l') = shapeProd l * shapeProd l' := by
  induction l with
  | nil => simp [shapeProd]
  | cons d l ih => simp only [List.cons_append, shapeProd, ih]; ring

private theorem shapeProd_reverse (l : List Int) : shapeProd l.reverse = shapeProd l := by
  induction l with
  | nil => rfl
  | cons d l ih => simp only [List.reverse_cons, shapeProd_append, ih, shapeProd]; ring

private theorem isContiguous_iff : ∀ (shape strides : List Int), shape.length = strides.length →
    (∀ d ∈ shape, d ≠ 0) → (isContiguous shape strides = true ↔ Contig shape strides)
  | [], _, _, _ => by simp [isContiguous, isContiguousRev, Contig]
  | d :: shape, [], h, _ => by simp at h
  | d :: shape, s :: strides, h, hd => by
    have hl : shape.length = strides.length := by simpa using h
    have ih := isContiguous_iff shape strides hl fun e he => hd e (List.mem_cons_of_mem _ he)
    unfold isContiguous at ih ⊢
    rw [List.zip_cons_cons, List.reverse_cons, isContiguousRev_append, Bool.and_eq_true, ih,
      decide_eq_true_iff, List.map_reverse, shapeProd_reverse, List.map_fst_zip hl.le]
    · rfl
    · intro p hp
      have : p.1 ∈ (shape.zip strides).map Prod.fst := List.mem_map.2 ⟨p, by simpa using hp, rfl⟩
      rw [List.map_fst_zip hl.le] at this
      exact hd _ (List.mem_cons_of_mem _ this)
    · exact hd d List.mem_cons_self

private theorem inShape_zero : ∀ {shape : List Int}, (∀ d ∈ shape, 0 < d) →
    InShape shape (shape.map fun _ => 0)
  | [], _ => trivial
  | d :: shape, h => ⟨le_refl _, h d List.mem_cons_self,
      inShape_zero fun e he => h e (List.mem_cons_of_mem _ he)⟩

private theorem rowMajor_zero (shape : List Int) : rowMajor shape (shape.map fun _ => 0) = 0 := by
  induction shape with
  | nil => rfl
  | cons d shape ih => simp [rowMajor, ih]

private theorem byteOffset_zero : ∀ (strides shape : List Int),
    byteOffset strides (shape.map fun _ => (0 : Int)) = 0
  | [], _ => by simp [byteOffset]
  | _ :: _, [] => by simp [byteOffset]
  | s :: strides, d :: shape => by simp [byteOffset, byteOffset_zero strides shape]

private theorem contig_iff : ∀ (shape strides : List Int), shape.length = strides.length →
    (∀ d ∈ shape, 0 < d) → (Contig shape strides ↔ VisitsConsecutive shape strides)
  | [], [], _, _ => by
    simp only [Contig, true_iff]
    intro idx h
    cases idx <;> simp [byteOffset, rowMajor, InShape] at *
  | d :: shape, [], h, _ => by simp at h
  | [], s :: strides, h, _ => by simp at h
  | d :: shape, s :: strides, h, hd => by
    have hl : shape.length = strides.length := by simpa using h
    have hd' := fun e he => hd e (List.mem_cons_of_mem d he)
    have ih := contig_iff shape strides hl hd'
    simp only [Contig, ih]
    constructor
    · rintro ⟨h1, h2⟩ idx hi
      match idx, hi with
      | i :: idx, ⟨h3, h4, h5⟩ =>
        simp only [byteOffset, rowMajor, h1 idx h5]
        by_cases hd1 : d = 1
        · have : i = 0 := by omega
          subst this; ring
        · rw [h2 hd1]; ring
    · intro hv
      refine ⟨fun idx hi => ?_, fun hd1 => ?_⟩
      · have := hv (0 :: idx) ⟨le_refl _, hd d List.mem_cons_self, hi⟩
        simpa [byteOffset, rowMajor] using this
      · have hpos := hd d List.mem_cons_self
        have := hv (1 :: shape.map fun _ => 0) ⟨by omega, by omega, inShape_zero hd'⟩
        simpa [byteOffset, rowMajor, byteOffset_zero, rowMajor_zero] using this

/-- **C13.** A non-empty array of fixed size is reported contiguous exactly when walking it in
row-major order visits consecutive memory. -/
theorem C13_contiguous_iff (shape strides : List Int) (hl : shape.length = strides.length)
    (hd : ∀ d ∈ shape, 0 < d) :
    isContiguous shape strides = true ↔ VisitsConsecutive shape strides := by
  rw [isContiguous_iff shape strides hl fun d h => (hd d h).ne', contig_iff shape strides hl hd]

private theorem isContiguousRev_zero (l : List (Int × Int)) (s : Int) (r : List (Int × Int)) (sd : Int) :
    isContiguousRev (l ++ (0, s) :: r) sd = isContiguousRev l sd := by
  induction l generalizing sd with
  | nil => simp [isContiguousRev]
  | cons p l ih =>
    obtain ⟨dim, stride⟩ := p
    simp only [List.cons_append, isContiguousRev, ih]

/-- **C13.** Arrays without elements: only the dimensions after a dimension 0 matter. -/
theorem C13_contiguous_zero_dim (outer inner outerStrides innerStrides : List Int) (s : Int)
    (ho : outer.length = outerStrides.length) :
    isContiguous (outer ++ 0 :: inner) (outerStrides ++ s :: innerStrides) =
      isContiguous inner innerStrides := by
  unfold isContiguous
  rw [List.zip_append ho, List.zip_cons_cons, List.reverse_append, List.reverse_cons, List.append_assoc]
  exact isContiguousRev_zero _ _ _ _

private theorem isContiguousRev_snoc (l : List (Int × Int)) (d s sd : Int)
    (h : isContiguousRev l sd = true) (hs : s = sd * shapeProd (l.map Prod.fst)) :
    isContiguousRev (l ++ [(d, s)]) sd = true := by
  induction l generalizing sd with
  | nil =>
    have : s = sd := by simpa [shapeProd] using hs
    simp [isContiguousRev, this]
  | cons p l ih =>
    obtain ⟨dim, stride⟩ := p
    simp only [List.cons_append, isContiguousRev] at h ⊢
    by_cases h1 : dim = 0
    · rw [if_pos h1]
    · rw [if_neg h1] at h ⊢
      by_cases h2 : dim ≠ 1 ∧ stride ≠ sd
      · rw [if_pos h2] at h; cases h
      rw [if_neg h2] at h ⊢
      exact ih _ h (by rw [hs]; simp only [List.map_cons, shapeProd]; ring)

/-- **C13.** An array laid out with the strides derived from its shape is reported contiguous, also if it
has no elements or its first dimension is open. -/
theorem C13_own_strides_contiguous : ∀ shape : List Int,
    isContiguous shape (shapeToStrides shape) = true
  | [] => rfl
  | d :: shape => by
    have ih := C13_own_strides_contiguous shape
    have hl := (C13_strides_row_major shape).1
    rw [shapeToStrides_cons]
    unfold isContiguous at ih ⊢
    rw [List.zip_cons_cons, List.reverse_cons]
    refine isContiguousRev_snoc _ _ _ _ ih ?_
    rw [List.map_reverse, shapeProd_reverse, List.map_fst_zip hl.ge]

example : isContiguous [3, 0, 2] (shapeToStrides [3, 0, 2]) = true := by decide
example : isContiguous [3, 0, 2] [5, 99, 8] = true := by decide
example : isContiguous [3, 0, 2] [5, 99, 16] = false := by decide

/-- **C13.** A dynamic array (leading dimension -1) is reported contiguous exactly when it is
contiguous at every run-time length. -/
theorem C13_contiguous_dynamic_iff (shape strides : List Int)
    (hl : shape.length + 1 = strides.length) (hd : ∀ d ∈ shape, 0 < d) :
    isContiguous (-1 :: shape) strides = true ↔ ∀ n : Nat, VisitsConsecutive (n :: shape) strides := by
  match strides, hl with
  | s :: strides, hl =>
    have hl' : shape.length = strides.length := by simpa using hl
    rw [isContiguous_iff _ _ (by simpa using hl) (by
      intro d h
      rcases List.mem_cons.1 h with rfl | h
      · decide
      · exact (hd d h).ne')]
    constructor
    · rintro ⟨h1, h2⟩ n idx hi
      match idx, hi with
      | i :: idx, ⟨_, _, h5⟩ =>
        simp only [byteOffset, rowMajor, (contig_iff shape strides hl' hd).1 h1 idx h5, h2 (by decide)]
        ring
    · intro h
      have := (contig_iff (2 :: shape) (s :: strides) (by simpa using hl) (by
        intro d h
        rcases List.mem_cons.1 h with rfl | h
        · decide
        · exact hd d h)).2 (h 2)
      exact ⟨this.1, fun _ => this.2 (by decide)⟩

/-- **C13.** For an array with a zero dimension a positive answer is still right (trivially: there is
nothing to visit). -/
theorem C13_contiguous_empty (shape strides : List Int) (h : 0 ∈ shape) :
    VisitsConsecutive shape strides := fun _ hi => absurd (hi.pos 0 h) (by decide)

/-- **C13, false of the code for empty arrays:** an array without elements, for which there is nothing
to visit, can be reported as not contiguous. -/
theorem C13_contiguous_empty_fails : ∃ shape strides : List Int, shape.length = strides.length ∧
    (∀ d ∈ shape, 0 ≤ d) ∧ VisitsConsecutive shape strides ∧ isContiguous shape strides = false :=
  ⟨[0, 3], [48, 16], rfl, by decide, C13_contiguous_empty _ _ (by decide), by decide⟩

example : shapeToStrides [2, 3, 4] = [96, 32, 8] := by decide
example : isContiguous [2, 1, 4] [32, 999, 8] = true := by decide
example : isContiguous [2, 2] [32, 8] = false := by decide
example : isContiguous [-1, 2] [16, 8] = true := by decide

end Verif
