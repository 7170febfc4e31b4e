import Verif.Props.BasicIndexingDynamic

set_option linter.unusedSimpArgs false
set_option linter.unusedVariables false

/-! Helper lemmas: which strides a view has is settled by the elements it shows. -/

namespace Verif

/-- The same strides, except where there is only one position. -/
def SameStrides : List Int → List Int → List Int → Prop
  | d :: shape, a :: st, b :: st' => (d ≠ 1 → a = b) ∧ SameStrides shape st st'
  | [], [], [] => True
  | _, _, _ => False

theorem sameStrides_of_offsets : ∀ {shape st st' : List Int} {start start' : Int}, (∀ d ∈ shape, 0 < d) →
    st.length = shape.length → st'.length = shape.length →
    (∀ c ∈ allCoords shape, start + byteOffset st c = start' + byteOffset st' c) → SameStrides shape st st' ∧ start = start' := by
  intro shape
  induction shape with
  | nil =>
    intro st st' start start' _ h1 h2 h
    obtain rfl := List.length_eq_zero_iff.1 h1
    obtain rfl := List.length_eq_zero_iff.1 h2
    have := h [] (by simp [allCoords])
    simp only [byteOffset] at this
    exact ⟨trivial, by omega⟩
  | cons d shape ih =>
    intro st st' start start' hd h1 h2 h
    match st, st', h1, h2, h with
    | a :: st, b :: st', h1, h2, h =>
      have hmem : ∀ (i : Nat) c, (i : Int) < d → c ∈ allCoords shape → (i : Int) :: c ∈ allCoords (d :: shape) := by
        intro i c hi hc
        simp only [allCoords, List.mem_flatMap, List.mem_range, List.mem_map]
        exact ⟨i, by omega, c, hc, rfl⟩
      have h0 : 0 < d := hd d List.mem_cons_self
      obtain ⟨k1, k2⟩ := ih (st := st) (st' := st') (start := start) (start' := start') (fun d hd' => hd d (List.mem_cons_of_mem _ hd'))
        (by simpa using h1) (by simpa using h2) (fun c hc => by
          have := h _ (hmem 0 c (by simpa using h0) hc)
          simpa [byteOffset] using this)
      refine ⟨⟨fun hne => ?_, k1⟩, k2⟩
      have hz : ∃ c, c ∈ allCoords shape := by
        have : ∀ l : List Int, (∀ d ∈ l, 0 < d) → ∃ c, c ∈ allCoords l := by
          intro l
          induction l with
          | nil => intro _; exact ⟨[], by simp [allCoords]⟩
          | cons e l ih =>
            intro hl
            obtain ⟨c, hc⟩ := ih fun d hd => hl d (List.mem_cons_of_mem _ hd)
            refine ⟨(0 : Int) :: c, ?_⟩
            have := hl e List.mem_cons_self
            simp only [allCoords, List.mem_flatMap, List.mem_range, List.mem_map]
            exact ⟨0, by omega, c, hc, rfl⟩
        exact this shape fun d hd' => hd d (List.mem_cons_of_mem _ hd')
      obtain ⟨c, hc⟩ := hz
      have e0 := h _ (hmem 0 c (by simpa using h0) hc)
      have e1 := h _ (hmem 1 c (by simp; omega) hc)
      simp only [byteOffset, Nat.cast_zero, Nat.cast_one, zero_mul, one_mul] at e0 e1
      omega

theorem SameStrides.scale : ∀ {shape st st' : List Int}, SameStrides shape st st' → SameStrides shape (st.map (8 * ·)) (st'.map (8 * ·))
  | d :: shape, a :: st, b :: st', h => ⟨fun hd => by rw [h.1 hd], SameStrides.scale h.2⟩
  | [], [], [], _ => trivial
  | [], _ :: _, _, h => h.elim
  | [], [], _ :: _, h => h.elim
  | _ :: _, [], _, h => h.elim
  | _ :: _, _ :: _, [], h => h.elim

theorem SameStrides.zip : ∀ {shape st st' : List Int}, SameStrides shape st st' →
    List.Forall₂ (fun p q : Int × Int => p.1 = q.1 ∧ (p.1 ≠ 1 → p.2 = q.2)) (shape.zip st) (shape.zip st')
  | d :: shape, a :: st, b :: st', h => .cons ⟨rfl, h.1⟩ (SameStrides.zip h.2)
  | [], [], [], _ => .nil
  | [], _ :: _, _, h => h.elim
  | [], [], _ :: _, h => h.elim
  | _ :: _, [], _, h => h.elim
  | _ :: _, _ :: _, [], h => h.elim

theorem isContiguousRev_congr {l l' : List (Int × Int)} (h : List.Forall₂ (fun p q : Int × Int => p.1 = q.1 ∧ (p.1 ≠ 1 → p.2 = q.2)) l l') :
    ∀ sd, isContiguousRev l sd = isContiguousRev l' sd := by
  induction h with
  | nil => intro sd; rfl
  | @cons p q l l' h _ ih =>
    intro sd
    obtain ⟨d, a⟩ := p
    obtain ⟨d', b⟩ := q
    obtain ⟨rfl, h⟩ := h
    simp only at h
    simp only [isContiguousRev]
    by_cases h1 : d = 1
    · simp [h1, ih]
    · simp [h h1, ih]

theorem SameStrides.contiguous {shape st st' : List Int} (h : SameStrides shape st st') :
    isContiguous shape st = isContiguous shape st' := by
  unfold isContiguous
  exact isContiguousRev_congr (List.rel_reverse h.zip) _

theorem map_eq_mem {α β : Type} {l : List α} {g h : α → β} (e : l.map g = l.map h) : ∀ a ∈ l, g a = h a :=
  List.map_inj_left.1 e

/-- Two views of an array of fixed size that show the same elements. -/
theorem contiguous_fixed {shape : List Int} {idx out : List BasicIndex} {P Q : Parsed} (hd : ∀ d ∈ shape, 0 ≤ d ∧ d ≤ ssMax)
    (ho : SelectOk shape idx) (hf : ∀ i ∈ idx, i.Fits) (ho' : SelectOk shape out) (hf' : ∀ i ∈ out, i.Fits)
    (hpos : ∀ d ∈ selectShape shape idx, 0 < d) (hs : selectShape shape out = selectShape shape idx)
    (hc : selectCoords shape out = selectCoords shape idx) (hP : basicParse shape idx = .ok P) (hQ : basicParse shape out = .ok Q) :
    Q.contiguous = P.contiguous := by
  obtain ⟨st, start, h1, h2, _, _, _, h3⟩ := parse_fixed hd ho hf
  obtain ⟨st', start', g1, g2, _, _, _, g3⟩ := parse_fixed hd ho' hf'
  rw [h1] at hP
  rw [g1] at hQ
  obtain rfl := Res.ok.inj hP
  obtain rfl := Res.ok.inj hQ
  rw [hs] at g2 g3 ⊢
  rw [hc, ← h3] at g3
  exact (sameStrides_of_offsets hpos g2 h2 (map_eq_mem g3)).1.scale.contiguous

/-- Two views of a dynamic array with the same slice of the rows. -/
theorem contiguous_dynamic {rest : List Int} {a b c a' b' c' : Option Int} {idx out : List BasicIndex} {P Q : Parsed}
    (h : DynIndex rest a b c idx) (h' : DynIndex rest a' b' c' out) (hpos : ∀ d ∈ selectShape rest idx, 0 < d)
    (hs : selectShape rest out = selectShape rest idx) (hc : selectCoords rest out = selectCoords rest idx)
    (hstep : c'.getD 1 = c.getD 1) (hP : basicParse (-1 :: rest) (.slice a b c :: idx) = .ok P)
    (hQ : basicParse (-1 :: rest) (.slice a' b' c' :: out) = .ok Q) : Q.contiguous = P.contiguous := by
  obtain ⟨s, st, start, _, e1, h1, h2, _, _, h3, _⟩ := h.parse
  obtain ⟨s', st', start', _, e2, g1, g2, _, _, g3, _⟩ := h'.parse
  rw [h1] at hP
  rw [g1] at hQ
  obtain rfl := Res.ok.inj hP
  obtain rfl := Res.ok.inj hQ
  rw [hs] at g2 g3
  rw [hc, ← h3] at g3
  have hsame := (sameStrides_of_offsets hpos g2 h2 (map_eq_mem g3)).1
  have : SameStrides (-1 :: selectShape rest idx) (s'.step * shapeProd rest :: st') (s.step * shapeProd rest :: st) :=
    ⟨fun _ => by rw [e1, e2, hstep], hsame⟩
  unfold Parsed.contiguous
  dsimp only
  rw [hs]
  exact this.scale.contiguous

end Verif
