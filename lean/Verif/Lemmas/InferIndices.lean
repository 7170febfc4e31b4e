import Verif.Lemmas.Indexing
import Verif.Model.Nodes.InferIndices

set_option linter.unusedSimpArgs false
set_option linter.unusedVariables false

/-! Helper lemmas about the indices inferred from a view. -/

namespace Verif

/-- The positions of a slice that is given by its first position, its number of positions and its step. -/
theorem slicePositions_run {n k : Nat} {s c : Int} (hs : 0 ≤ s) (hk : 0 < k) (hc : 0 < c)
    (hlast : s + (k - 1 : Int) * c < n) :
    slicePositions (some s) (some (min (s + k * c) n)) (some c) n =
      (List.range k).map fun (m : Nat) => (s + m * c).toNat := by
  have hsn : s < n := by
    have := Int.mul_nonneg (show (0 : Int) ≤ k - 1 by omega) hc.le
    omega
  have hsk : 0 ≤ s + k * c := by
    have := Int.mul_nonneg (show (0 : Int) ≤ k by omega) hc.le
    omega
  have e1 : (pyIndices (some s) (some (min (s + k * c) n)) ((some c).getD 1) n).1 = s := by
    simp only [pyIndices, Option.getD_some, if_neg (show ¬ c < 0 by omega), if_neg (show ¬ s < 0 by omega)]
    omega
  have e2 : (pyIndices (some s) (some (min (s + k * c) n)) ((some c).getD 1) n).2.1 = min (s + k * c) n := by
    simp only [pyIndices, Option.getD_some, if_neg (show ¬ c < 0 by omega),
      if_neg (show ¬ min (s + k * c) n < 0 by omega)]
    omega
  simp only [Option.getD_some] at e1 e2
  apply eq_of_increasing
  · exact List.Pairwise.filter _ List.pairwise_lt_range
  · rw [List.pairwise_map]
    refine List.pairwise_lt_range.imp ?_
    intro a b hab
    have h1 : (a : Int) * c + c ≤ b * c := by
      have := Int.mul_le_mul_of_nonneg_right (show (a : Int) + 1 ≤ b by omega) hc.le
      rw [Int.add_mul, Int.one_mul] at this
      exact this
    have h2 := Int.mul_nonneg (Int.natCast_nonneg a) hc.le
    omega
  · intro x
    unfold slicePositions
    simp only [List.mem_filter, List.mem_range, List.mem_map, e1, e2, Option.getD_some, decide_eq_true_eq]
    constructor
    · rintro ⟨h1, h2, h3, h4⟩
      obtain ⟨m, hm⟩ := Int.dvd_of_emod_eq_zero h4
      have hm0 : 0 ≤ m := by
        by_contra hneg
        have := Int.mul_le_mul_of_nonneg_left (show m ≤ -1 by omega) hc.le
        omega
      refine ⟨m.toNat, ?_, ?_⟩
      · by_contra hge
        have := Int.mul_le_mul_of_nonneg_left (show (k : Int) ≤ m by omega) hc.le
        have e : c * (k : Int) = k * c := by ring
        omega
      · rw [Int.toNat_of_nonneg hm0, Int.mul_comm]
        omega
    · rintro ⟨m, hm, rfl⟩
      have h2 := Int.mul_nonneg (Int.natCast_nonneg m) hc.le
      have h3 := Int.mul_le_mul_of_nonneg_right (show (m : Int) ≤ k - 1 by omega) hc.le
      have h4 : (k : Int) * c = (k - 1) * c + c := by ring
      have e : ((s + m * c).toNat : Int) = s + m * c := Int.toNat_of_nonneg (by omega)
      refine ⟨by omega, by omega, by omega, ?_⟩
      rw [e, add_sub_cancel_left]
      exact Int.mul_emod_left _ _

/-- The slice that is inferred, as read back. -/
theorem inferred_slice {n k : Nat} {s c : Int} (hs : 0 ≤ s) (hk : 0 < k) (hc : 0 < c)
    (hlast : s + (k - 1 : Int) * c < n) (hn : 8 * (n : Int) ≤ ssMax) (hcm : 8 * c ≤ ssMax) :
    IsSS (k * c) ∧ IsSS (s + k * c) ∧ ∃ t, Slice.make (some s) (some (s + k * c)) (some c) = .ok t ∧
      (SliceOrInt.slice (t.fit n)).toIndex = .slice (some s) (some (min (s + k * c) n)) (some c) ∧
      (BasicIndex.slice (some s) (some (min (s + k * c) n)) (some c)).Fits := by
  have h1 := Int.mul_nonneg (show (0 : Int) ≤ k - 1 by omega) hc.le
  have h4 : (k : Int) * c = (k - 1) * c + c := by ring
  simp only [ssMax] at hn hcm
  refine ⟨⟨by simp only [ssMin]; omega, by simp only [ssMax]; omega⟩, ⟨by simp only [ssMin]; omega, by simp only [ssMax]; omega⟩,
    ⟨s, s + k * c, c⟩, ?_, ?_, ?_⟩
  · unfold Slice.make
    simp only [Option.getD_some, if_neg (show ¬ c = 0 by omega)]
  · simp only [SliceOrInt.toIndex, Slice.fit, if_neg (show ¬ s < 0 by omega), if_neg (show ¬ s + k * c < 0 by omega),
      if_neg (show ¬ s ≥ n by omega), if_neg (show ¬ c < 0 by omega)]
    congr 2
    split_ifs <;> omega
  · refine ⟨?_, ?_, ?_⟩ <;> intro x hx <;> cases hx <;> simp only [IsSS, ssMin, ssMax] <;> omega

/-- The last position of a slice lies in its dimension. -/
theorem last_position {a b c : Option Int} {n k : Nat} {s t : Int} (hk : 0 < k) (h0 : 0 ≤ s) (ht : 0 < t)
    (h : slicePositions a b c n = (List.range k).map fun (m : Nat) => (s + m * t).toNat) :
    s + (k - 1 : Int) * t < n := by
  have hm : (s + ((k - 1 : Nat) : Int) * t).toNat ∈ slicePositions a b c n := by
    rw [h]; exact List.mem_map.2 ⟨k - 1, List.mem_range.2 (by omega), rfl⟩
  unfold slicePositions at hm
  have := List.mem_range.1 (List.mem_filter.1 hm).1
  have e : ((k - 1 : Nat) : Int) = k - 1 := by omega
  rw [e] at this
  omega

theorem selectShape_length_le : ∀ (shape : List Int) (idx : List BasicIndex), (selectShape shape idx).length ≤ shape.length
  | [], [] => by simp [selectShape]
  | [], .at _ :: _ => by simp [selectShape]
  | [], .slice _ _ _ :: _ => by simp [selectShape]
  | _ :: _, [] => by simp [selectShape]
  | _ :: shape, .at _ :: idx => by
    have := selectShape_length_le shape idx
    simp only [selectShape, List.length_cons]; omega
  | _ :: shape, .slice _ _ _ :: idx => by
    have := selectShape_length_le shape idx
    simp only [selectShape, List.length_cons]; omega

theorem forall₂_right {α β : Type} {R : α → β → Prop} : ∀ {a c : List α} {b d : List β}, a.length = b.length →
    List.Forall₂ R (a ++ c) (b ++ d) → List.Forall₂ R c d
  | [], _, [], _, _, h => h
  | _ :: a, _, _ :: b, _, hl, .cons _ h => forall₂_right (a := a) (b := b) (by simpa using hl) h

/-- One turn of the loop: division of the flat start. -/
theorem flat_div {s p r : Int} (hs : 0 ≤ s) (hr0 : 0 ≤ r) (hr : r < p) :
    (s * p + r).tdiv ((8 * p).tdiv 8) = s ∧ (s * p + r).tmod ((8 * p).tdiv 8) = r := by
  have hp : (8 * p).tdiv 8 = p := Int.mul_tdiv_cancel_left _ (by decide)
  have h0 : 0 ≤ s * p := Int.mul_nonneg hs (by omega)
  rw [hp, Int.tdiv_eq_ediv_of_nonneg (by omega), Int.tmod_eq_emod_of_nonneg (by omega)]
  constructor
  · rw [Int.add_comm, Int.add_mul_ediv_right _ _ (by omega), Int.ediv_eq_zero_of_lt hr0 hr]; omega
  · rw [Int.add_comm, Int.add_mul_emod_self_right]; exact Int.emod_eq_of_lt hr0 hr

/-- A view axis of `k` entries with stride `v` within a row of size `p`. -/
def Within (p k v : Int) : Prop := 0 < k ∧ 0 < v ∧ (k - 1) * v < p

theorem Within.one {p k v : Int} (h : Within p k v) (hv : p ≤ v) : k = 1 := by
  obtain ⟨h1, h2, h3⟩ := h
  by_contra hne
  have := Int.mul_le_mul_of_nonneg_right (show 1 ≤ k - 1 by omega) h2.le
  omega

theorem Within.mono {p q k v : Int} (h : Within p k v) (hpq : p ≤ q) : Within q k v :=
  ⟨h.1, h.2.1, by have := h.2.2; omega⟩

/-- What the inferred indices `out` have to be: the same coordinates, and the view's remaining axes. -/
structure Inferred (shape : List Int) (idx : List BasicIndex) (vs : List Int) (out : List BasicIndex) : Prop where
  ok : SelectOk shape out
  fits : ∀ i ∈ out, i.Fits
  axes : selectShape shape out = vs
  coords : selectCoords shape out = selectCoords shape idx

/-- One axis on which the view has one position `s`: the code reports an integer, or a slice of one entry. -/
theorem infer_single {n : Nat} {shape : List Int} {idx : List BasicIndex} {fewer : Bool} {s r : Int} {vs vst : List Int}
    (hs : 0 ≤ s) (hsn : s < n) (hp : 0 < shapeProd shape) (hr0 : 0 ≤ r) (hr : r < shapeProd shape)
    (hn : 8 * (n : Int) ≤ ssMax) (hfew : fewer = true) (hw : List.Forall₂ (Within (shapeProd shape)) vs vst)
    (hv : ∀ v ∈ vst, 8 * v ≤ ssMax)
    (ih : ∀ vs' vst', vs' = vs ∧ vst' = vst ∨ (∃ v, vs = 1 :: vs' ∧ vst = v :: vst') →
      ∃ out, inferAxes fewer shape (shapeToStrides shape) vs' (vst'.map (8 * ·)) r = .ok out ∧
        Inferred shape idx vs' (out.map SliceOrInt.toIndex)) :
    ∃ out, inferAxes fewer ((n : Int) :: shape) (8 * shapeProd shape :: shapeToStrides shape) vs (vst.map (8 * ·))
        (s * shapeProd shape + r) = .ok out ∧
      SelectOk ((n : Int) :: shape) (out.map SliceOrInt.toIndex) ∧ (∀ i ∈ out.map SliceOrInt.toIndex, i.Fits) ∧
      selectShape ((n : Int) :: shape) (out.map SliceOrInt.toIndex) = vs ∧
      selectCoords ((n : Int) :: shape) (out.map SliceOrInt.toIndex) = (selectCoords shape idx).map (s :: ·) := by
  obtain ⟨e1, e2⟩ := flat_div hs hr0 hr
  have e3 : (8 * shapeProd shape).tdiv 8 ≠ 0 := by
    rw [Int.mul_tdiv_cancel_left _ (by decide)]; omega
  have hss : IsSS s := by simp only [IsSS, ssMin, ssMax] at *; omega
  have int : ∀ out, Inferred shape idx vs (List.map SliceOrInt.toIndex out) →
      SelectOk ((n : Int) :: shape) ((SliceOrInt.int s :: out).map SliceOrInt.toIndex) ∧
      (∀ i ∈ (SliceOrInt.int s :: out).map SliceOrInt.toIndex, i.Fits) ∧
      selectShape ((n : Int) :: shape) ((SliceOrInt.int s :: out).map SliceOrInt.toIndex) = vs ∧
      selectCoords ((n : Int) :: shape) ((SliceOrInt.int s :: out).map SliceOrInt.toIndex) =
        (selectCoords shape idx).map (s :: ·) := by
    intro out h
    refine ⟨⟨⟨by omega, hsn⟩, h.ok⟩, ?_, h.axes, ?_⟩
    · intro i hi
      rcases List.mem_cons.1 hi with rfl | hi
      · exact hss
      · exact h.fits i hi
    · simp only [List.map_cons, SliceOrInt.toIndex, selectCoords, if_neg (show ¬ s < 0 by omega), h.coords]
  cases hw with
  | nil =>
    obtain ⟨out, h1, h2⟩ := ih [] [] (Or.inl ⟨rfl, rfl⟩)
    refine ⟨.int s :: out, ?_, int out h2⟩
    simp only [List.map_nil] at h1
    simp only [List.map_nil, inferAxes]
    rw [guardUB_true e3, guardUB_true hfew, e1, e2]
    simp only [Res.ok_bind, h1]
  | @cons k v vs' vst' hkv hw =>
    by_cases hlt : 8 * v < 8 * shapeProd shape
    · obtain ⟨out, h1, h2⟩ := ih (k :: vs') (v :: vst') (Or.inl ⟨rfl, rfl⟩)
      refine ⟨.int s :: out, ?_, int out h2⟩
      simp only [List.map_cons] at h1
      simp only [List.map_cons, inferAxes]
      rw [guardUB_true e3, e1, e2]
      simp only [Res.ok_bind]
      rw [if_pos hlt, guardUB_true hfew]
      simp only [Res.ok_bind, h1]
    · have hk1 : k = 1 := hkv.one (by omega)
      subst hk1
      obtain ⟨out, h1, h2⟩ := ih vs' vst' (Or.inr ⟨v, rfl, rfl⟩)
      have hq : (8 * v).tdiv (8 * shapeProd shape) = v / shapeProd shape := by
        rw [Int.mul_tdiv_mul_of_pos _ _ (by decide), Int.tdiv_eq_ediv_of_nonneg hkv.2.1.le]
      have hq1 : 0 < v / shapeProd shape := Int.lt_of_lt_of_le Int.zero_lt_one (Int.le_ediv_of_mul_le hp (by omega))
      have hq2 : 8 * (v / shapeProd shape) ≤ ssMax := by
        have := Int.ediv_le_self (shapeProd shape) hkv.2.1.le
        have := hv v List.mem_cons_self
        omega
      obtain ⟨f1, f2, t, f3, f4, f5⟩ := inferred_slice (n := n) (k := 1) (s := s) (c := v / shapeProd shape) hs (by omega) hq1
        (by simpa using hsn) hn hq2
      simp only [Nat.cast_one] at f1 f2 f3 f4 f5
      have hrun := slicePositions_run (n := n) (k := 1) (s := s) (c := v / shapeProd shape) hs (by omega) hq1 (by simpa using hsn)
      simp only [Nat.cast_one] at hrun
      refine ⟨.slice (t.fit n) :: out, ?_, ?_, ?_, ?_, ?_⟩
      · simp only [List.map_cons, inferAxes]
        rw [guardUB_true e3, e1, e2, hq]
        simp only [Res.ok_bind]
        rw [if_neg hlt, guardUB_true (show 8 * shapeProd shape ≠ 0 by omega), guardUB_true f1, guardUB_true f2, f3]
        simp only [Res.ok_bind, h1]
      · rw [List.map_cons, f4]
        exact ⟨by simpa using hq1, h2.ok⟩
      · intro i hi
        rw [List.map_cons, f4] at hi
        rcases List.mem_cons.1 hi with rfl | hi
        · exact f5
        · exact h2.fits i hi
      · rw [List.map_cons, f4]
        simp only [selectShape, Int.toNat_natCast, hrun, h2.axes]
        simp
      · rw [List.map_cons, f4]
        simp only [selectCoords, Int.toNat_natCast, hrun, h2.coords]
        simp [Int.toNat_of_nonneg hs]

theorem infer_spec : ∀ (shape : List Int) (idx : List BasicIndex), (∀ d ∈ shape, 0 < d) → 8 * shapeProd shape ≤ ssMax →
    SelectOk shape idx → (∀ i ∈ idx, i.Fits) → (∀ d ∈ selectShape shape idx, 0 < d) →
    ∃ ss st start, BasicIndex.makeAll idx = .ok ss ∧
      parseAxes shape (shapeToStrides shape) ss = .ok (selectShape shape idx, st.map (8 * ·), start) ∧
      List.Forall₂ (Within (shapeProd shape)) (selectShape shape idx) st ∧ (0 ≤ start ∧ start < shapeProd shape) ∧
      ∀ (fewer : Bool) (pre vs pst vst : List Int), selectShape shape idx = pre ++ vs → st = pst ++ vst → pre.length = pst.length →
        (∀ k ∈ pre, k = 1) → (∀ v ∈ vst, 8 * v ≤ ssMax) → (vs.length < shape.length → fewer = true) →
        ∃ out, inferAxes fewer shape (shapeToStrides shape) vs (vst.map (8 * ·)) start = .ok out ∧
          Inferred shape idx vs (out.map SliceOrInt.toIndex)
  | [], [], _, _, _, _, _ => by
    refine ⟨[], [], 0, rfl, rfl, .nil, ⟨le_refl _, by decide⟩, ?_⟩
    intro fewer pre vs pst vst h1 h2 _ _ _ _
    have hvs : vs = [] := by
      have := congrArg List.length h1; simp [selectShape] at this; exact List.eq_nil_of_length_eq_zero (by omega)
    subst hvs
    exact ⟨[], by cases vst <;> rfl, trivial, by simp, rfl, rfl⟩
  | [], i :: idx, _, _, h, _, _ => by cases h
  | n :: shape, [], _, _, h, _, _ => by cases h
  | n :: shape, .at i :: idx, hd, hm, h, hf, hpos => by
    have hn := hd n List.mem_cons_self
    have hp : 0 < shapeProd shape := shapeProd_pos fun d hd' => hd d (List.mem_cons_of_mem _ hd')
    have hm' : 8 * n ≤ ssMax ∧ 8 * shapeProd shape ≤ ssMax := by
      have h1 := Int.mul_le_mul_of_nonneg_left (show 1 ≤ shapeProd shape by omega) hn.le
      have h2 := Int.mul_le_mul_of_nonneg_right (show 1 ≤ n by omega) hp.le
      simp only [shapeProd] at hm
      omega
    obtain ⟨ss, st, start, h1, h2, h3, h4, h5⟩ := infer_spec shape idx
      (fun d hd' => hd d (List.mem_cons_of_mem _ hd')) hm'.2 h.2 (fun i hi => hf i (List.mem_cons_of_mem _ hi)) hpos
    have hi := h.1
    have hle : shapeProd shape ≤ n * shapeProd shape := by
      have := Int.mul_le_mul_of_nonneg_right (show 1 ≤ n by omega) hp.le
      omega
    obtain ⟨s, hsdef⟩ : ∃ s, s = (if i < 0 then i + n else i) := ⟨_, rfl⟩
    have hs : 0 ≤ s ∧ s < n := by rw [hsdef]; split_ifs <;> omega
    refine ⟨.int i :: ss, st, s * shapeProd shape + start, ?_, ?_, ?_, ?_, ?_⟩
    · simp only [BasicIndex.makeAll, BasicIndex.make, Res.ok_bind, h1]
    · rw [shapeToStrides_cons]
      simp only [parseAxes, selectShape, ← hsdef]
      rw [(guardThrow_eq_ok.2 (by omega) : guardThrow _ = .ok ())]
      simp only [Res.ok_bind, h2, tdiv_eight]
    · exact h3.imp fun k v hkv => hkv.mono hle
    · have a1 := Int.mul_nonneg hs.1 hp.le
      have a2 := Int.mul_le_mul_of_nonneg_right (show s + 1 ≤ n by omega) hp.le
      rw [Int.add_mul] at a2
      simp only [shapeProd]
      omega
    · intro fewer pre vs pst vst g1 g2 g3 g4 g5 g6
      have en : ((n.toNat : Nat) : Int) = n := Int.toNat_of_nonneg hn.le
      have hlen := selectShape_length_le shape idx
      have hsplit := congrArg List.length g1
      simp only [selectShape, List.length_append] at hsplit
      have hfew : fewer = true := g6 (by simp only [List.length_cons]; omega)
      have hw : List.Forall₂ (Within (shapeProd shape)) vs vst := by
        simp only [selectShape] at g1
        rw [g1, g2] at h3
        exact (forall₂_right g3 h3)
      obtain ⟨out, o1, o2, o3, o4, o5⟩ := infer_single (n := n.toNat) (shape := shape) (idx := idx) (fewer := fewer) (s := s)
        (r := start) (vs := vs) (vst := vst) hs.1 (by omega) hp h4.1 h4.2 (by omega) hfew hw g5 (by
          rintro vs' vst' (⟨rfl, rfl⟩ | ⟨v, rfl, rfl⟩)
          · exact h5 fewer pre vs' pst vst' g1 g2 g3 g4 g5 (fun _ => hfew)
          · refine h5 fewer (pre ++ [1]) vs' (pst ++ [v]) vst' ?_ ?_ ?_ ?_ ?_ (fun _ => hfew)
            · rw [List.append_assoc]; exact g1
            · rw [List.append_assoc]; exact g2
            · simp [g3]
            · intro k hk
              rcases List.mem_append.1 hk with hk | hk
              · exact g4 k hk
              · simpa using hk
            · exact fun v' hv' => g5 v' (List.mem_cons_of_mem _ hv'))
      rw [en] at o1 o2 o4 o5
      refine ⟨out, ?_, o2, o3, o4, ?_⟩
      · rw [shapeToStrides_cons]; exact o1
      · rw [o5]; simp only [selectCoords, ← hsdef]
  | n :: shape, .slice a b c :: idx, hd, hm, h, hf, hpos => by
    have hn := hd n List.mem_cons_self
    have hp : 0 < shapeProd shape := shapeProd_pos fun d hd' => hd d (List.mem_cons_of_mem _ hd')
    have hm' : 8 * n ≤ ssMax ∧ 8 * shapeProd shape ≤ ssMax := by
      have h1 := Int.mul_le_mul_of_nonneg_left (show 1 ≤ shapeProd shape by omega) hn.le
      have h2 := Int.mul_le_mul_of_nonneg_right (show 1 ≤ n by omega) hp.le
      simp only [shapeProd] at hm
      omega
    obtain ⟨ss, st, start, h1, h2, h3, h4, h5⟩ := infer_spec shape idx
      (fun d hd' => hd d (List.mem_cons_of_mem _ hd')) hm'.2 h.2 (fun i hi => hf i (List.mem_cons_of_mem _ hi))
      (fun d hd' => hpos d (by simp only [selectShape]; exact List.mem_cons_of_mem _ hd'))
    have en : ((n.toNat : Nat) : Int) = n := Int.toNat_of_nonneg hn.le
    have hle : shapeProd shape ≤ n * shapeProd shape := by
      have := Int.mul_le_mul_of_nonneg_right (show 1 ≤ n by omega) hp.le
      omega
    obtain ⟨t, k, ht, htst, hk, hkn, hb0, hb1, hfs, hps⟩ := slicePositions_eq a b c n.toNat (by simp only [ssMax] at *; omega) h.1
      (hf _ List.mem_cons_self)
    have hlen : (slicePositions a b c n.toNat).length = k := by rw [hps]; simp
    have hk0 : 0 < k := by
      have := hpos _ (by simp only [selectShape]; exact List.mem_cons_self)
      rw [hlen] at this; omega
    have hst0 : 0 < t.step := by have := h.1; omega
    rw [en] at hb0 hb1 hk hfs hps
    obtain ⟨s, hsdef⟩ : ∃ s, s = (t.fit n).start := ⟨_, rfl⟩
    rw [← hsdef] at hb0 hb1 hps
    have hlast := last_position hk0 hb0 hst0 hps
    rw [en] at hlast
    have hkc := Int.mul_nonneg (show (0 : Int) ≤ k - 1 by omega) hst0.le
    refine ⟨.slice t :: ss, t.step * shapeProd shape :: st, s * shapeProd shape + start, ?_, ?_, ?_, ?_, ?_⟩
    · simp only [BasicIndex.makeAll, BasicIndex.make, ht, Res.ok_bind, h1]
    · rw [shapeToStrides_cons]
      simp only [parseAxes, selectShape]
      rw [(guardThrow_eq_ok.2 (by omega) : guardThrow (t.step ≠ 0) = .ok ()),
        (guardThrow_eq_ok.2 (by omega) : guardThrow (¬ t.step < 0) = .ok ()), guardUB_true hn.le]
      simp only [Res.ok_bind, hk, h2, tdiv_eight, hlen, hfs, List.map_cons, ← hsdef]
      rw [show t.step * (8 * shapeProd shape) = 8 * (t.step * shapeProd shape) by ring]
    · simp only [selectShape, hlen]
      refine .cons ⟨by omega, Int.mul_pos hst0 hp, ?_⟩ (h3.imp fun k v hkv => hkv.mono hle)
      have := Int.mul_lt_mul_of_pos_right (show ((k : Int) - 1) * t.step < n by omega) hp
      rw [Int.mul_assoc] at this
      exact this
    · have a1 := Int.mul_nonneg hb0 hp.le
      have a2 := Int.mul_le_mul_of_nonneg_right (show s + 1 ≤ n by omega) hp.le
      rw [Int.add_mul] at a2
      simp only [shapeProd]
      omega
    · intro fewer pre vs pst vst g1 g2 g3 g4 g5 g6
      simp only [selectShape, hlen] at g1
      match pre, pst, g3 with
      | [], [], _ =>
        simp only [List.nil_append] at g1 g2
        subst g1 g2
        have hc8 : 8 * t.step ≤ ssMax := by
          have := g5 _ List.mem_cons_self
          have := Int.mul_le_mul_of_nonneg_left (show 1 ≤ shapeProd shape by omega) hst0.le
          omega
        obtain ⟨out, i1, i2⟩ := h5 fewer [] _ [] st rfl rfl rfl (by simp)
          (fun v hv => g5 v (List.mem_cons_of_mem _ hv)) (fun hl => g6 (by simp only [List.length_cons]; omega))
        obtain ⟨e1, e2⟩ := flat_div hb0 h4.1 h4.2
        have e3 : (8 * shapeProd shape).tdiv 8 ≠ 0 := by
          rw [Int.mul_tdiv_cancel_left _ (by decide)]; omega
        have hq : (8 * (t.step * shapeProd shape)).tdiv (8 * shapeProd shape) = t.step := by
          rw [show 8 * (t.step * shapeProd shape) = t.step * (8 * shapeProd shape) by ring]
          exact Int.mul_tdiv_cancel _ (by omega)
        obtain ⟨f1, f2, t', f3, f4, f5⟩ := inferred_slice (n := n.toNat) (k := k) (s := s) (c := t.step) hb0 hk0 hst0
          (by omega) (by omega) hc8
        have hrun := slicePositions_run (n := n.toNat) (k := k) (s := s) (c := t.step) hb0 hk0 hst0 (by omega)
        rw [en] at f4 f5 hrun
        have hstl : ¬ 8 * (t.step * shapeProd shape) < 8 * shapeProd shape := by
          have := Int.mul_le_mul_of_nonneg_right (show 1 ≤ t.step by omega) hp.le
          omega
        refine ⟨.slice (t'.fit n) :: out, ?_, ?_, ?_, ?_, ?_⟩
        · rw [shapeToStrides_cons]
          simp only [List.map_cons, inferAxes]
          rw [guardUB_true e3, e1, e2, hq]
          simp only [Res.ok_bind]
          rw [if_neg hstl, guardUB_true (show 8 * shapeProd shape ≠ 0 by omega), guardUB_true f1, guardUB_true f2, f3]
          simp only [Res.ok_bind, i1]
        · rw [List.map_cons, f4]
          exact ⟨by simpa using hst0, i2.ok⟩
        · intro i hi
          rw [List.map_cons, f4] at hi
          rcases List.mem_cons.1 hi with rfl | hi
          · exact f5
          · exact i2.fits i hi
        · rw [List.map_cons, f4]
          simp only [selectShape, hrun, i2.axes]
          simp
        · rw [List.map_cons, f4]
          simp only [selectCoords, hrun, i2.coords, hps]
      | k' :: pre, v' :: pst, g3 =>
        simp only [List.cons_append, List.cons.injEq] at g1 g2
        have hk1 : k = 1 := by have := g4 k' List.mem_cons_self; omega
        have hlen' := selectShape_length_le shape idx
        have hsplit := congrArg List.length g1.2
        simp only [List.length_append] at hsplit
        have hfew : fewer = true := g6 (by simp only [List.length_cons]; omega)
        have g3' : pre.length = pst.length := by simpa using g3
        have g4' : ∀ k ∈ pre, k = 1 := fun k hk => g4 k (List.mem_cons_of_mem _ hk)
        have hw : List.Forall₂ (Within (shapeProd shape)) vs vst := by
          rw [g1.2, g2.2] at h3
          exact (forall₂_right g3' h3)
        subst hk1
        simp only [Nat.cast_one, sub_self, Int.zero_mul, Int.add_zero] at hlast
        obtain ⟨out, o1, o2, o3, o4, o5⟩ := infer_single (n := n.toNat) (shape := shape) (idx := idx) (fewer := fewer) (s := s)
          (r := start) (vs := vs) (vst := vst) hb0 (by omega) hp h4.1 h4.2 (by omega) hfew hw g5 (by
            rintro vs' vst' (⟨rfl, rfl⟩ | ⟨v, rfl, rfl⟩)
            · exact h5 fewer pre vs' pst vst' g1.2 g2.2 g3' g4' g5 (fun _ => hfew)
            · refine h5 fewer (pre ++ [1]) vs' (pst ++ [v]) vst' ?_ ?_ ?_ ?_ ?_ (fun _ => hfew)
              · rw [List.append_assoc]; exact g1.2
              · rw [List.append_assoc]; exact g2.2
              · simp [g3']
              · intro k hk
                rcases List.mem_append.1 hk with hk | hk
                · exact g4' k hk
                · simpa using hk
              · exact fun v' hv' => g5 v' (List.mem_cons_of_mem _ hv'))
        rw [en] at o1 o2 o4 o5
        refine ⟨out, ?_, o2, o3, o4, ?_⟩
        · rw [shapeToStrides_cons]; exact o1
        · rw [o5]
          simp only [selectCoords, hps]
          simp [Int.toNat_of_nonneg hb0]

end Verif
