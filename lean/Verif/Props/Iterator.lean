import Verif.Model.Iterator
import Verif.Props.Shape

set_option linter.unusedSectionVars false
set_option linter.unusedSimpArgs false
set_option linter.unusedVariables false

/-!
# C14: iterating a strided array
-/

namespace Verif
namespace Iter

/-- Every location is within its axis, every axis is non-empty. -/
private def Valid (axes : List Axis) : Prop := ∀ a ∈ axes, 0 ≤ a.loc ∧ a.loc < a.dim

/-- Row-major position, axis 0 at `i0`. -/
private def posL : List Axis → Int → Int
  | [], i0 => i0
  | a :: rest, i0 => a.loc + a.dim * posL rest i0

/-- Byte offset, axis 0 at `i0`. -/
private def offL (s0 : Int) : List Axis → Int → Int
  | [], i0 => i0 * s0
  | a :: rest, i0 => a.loc * a.stride + offL s0 rest i0

private def geom (axes : List Axis) : List (Int × Int) := axes.map fun a => (a.dim, a.stride)

private theorem valid_cons {a : Axis} {rest : List Axis} :
    Valid (a :: rest) ↔ (0 ≤ a.loc ∧ a.loc < a.dim) ∧ Valid rest := by simp [Valid]

private theorem inc1_spec (s0 : Int) : ∀ (axes : List Axis) (i0 : Int), Valid axes →
    Valid (inc1 s0 axes).2 ∧ geom (inc1 s0 axes).2 = geom axes ∧ ∃ i0',
      posL (inc1 s0 axes).2 i0' = posL axes i0 + 1 ∧
      offL s0 (inc1 s0 axes).2 i0' = offL s0 axes i0 + (inc1 s0 axes).1
  | [], i0, h => ⟨h, rfl, i0 + 1, rfl, by simp [offL, inc1]; ring⟩
  | a :: rest, i0, h => by
    obtain ⟨ha, hr⟩ := valid_cons.1 h
    unfold inc1
    split_ifs with hlt
    · refine ⟨valid_cons.2 ⟨⟨by simp; omega, hlt⟩, hr⟩, rfl, i0, ?_, ?_⟩
      · simp only [posL]; ring
      · simp only [offL]; ring
    · obtain ⟨h1, h2, i0', h3, h4⟩ := inc1_spec s0 rest i0 hr
      have he : a.loc + 1 = a.dim := by omega
      refine ⟨valid_cons.2 ⟨⟨le_refl _, by simp; omega⟩, h1⟩, ?_, i0', ?_, ?_⟩
      · simpa [geom] using h2
      · simp only [posL, h3, ← he]; ring
      · simp only [offL, h4, ← he]; ring

private theorem dec1_spec (s0 : Int) : ∀ (axes : List Axis) (i0 : Int), Valid axes →
    Valid (dec1 s0 axes).2 ∧ geom (dec1 s0 axes).2 = geom axes ∧ ∃ i0',
      posL (dec1 s0 axes).2 i0' = posL axes i0 - 1 ∧
      offL s0 (dec1 s0 axes).2 i0' = offL s0 axes i0 + (dec1 s0 axes).1
  | [], i0, h => ⟨h, rfl, i0 - 1, rfl, by simp [offL, dec1]; ring⟩
  | a :: rest, i0, h => by
    obtain ⟨ha, hr⟩ := valid_cons.1 h
    unfold dec1
    split_ifs with hlt
    · refine ⟨valid_cons.2 ⟨⟨hlt, by simp; omega⟩, hr⟩, rfl, i0, ?_, ?_⟩
      · simp only [posL]; ring
      · simp only [offL]; ring
    · obtain ⟨h1, h2, i0', h3, h4⟩ := dec1_spec s0 rest i0 hr
      have he : a.loc = 0 := by omega
      refine ⟨valid_cons.2 ⟨⟨by simp; omega, by simp⟩, h1⟩, ?_, i0', ?_, ?_⟩
      · simpa [geom] using h2
      · simp only [posL, h3, he]; ring
      · simp only [offL, h4, he]; ring

/-- Truncated division corrected to a non-negative remainder. -/
private theorem div_fix (n d : Int) (hd : 0 < d) :
    ∃ q r, (if n.tmod d < 0 then (n.tdiv d - 1, n.tmod d + d) else (n.tdiv d, n.tmod d)) = (q, r) ∧
      n = r + d * q ∧ 0 ≤ r ∧ r < d := by
  have h1 := Int.mul_tdiv_add_tmod n d
  have h2 := Int.tmod_lt_of_pos n hd
  have h3 : -d < n.tmod d := by
    have := Int.lt_tmod_of_pos n hd; omega
  split_ifs with h
  · exact ⟨_, _, rfl, by linarith [mul_sub d (n.tdiv d) 1], by omega, by omega⟩
  · exact ⟨_, _, rfl, by linarith, by omega, by omega⟩

private theorem incN_spec (s0 : Int) : ∀ (axes : List Axis) (i0 n : Int), Valid axes →
    ∃ r, incN s0 axes n = .ok r ∧ Valid r.2 ∧ geom r.2 = geom axes ∧ ∃ i0',
      posL r.2 i0' = posL axes i0 + n ∧ offL s0 r.2 i0' = offL s0 axes i0 + r.1
  | [], i0, n, h => ⟨_, rfl, h, rfl, i0 + n, rfl, by simp [offL]; ring⟩
  | a :: rest, i0, n, h => by
    obtain ⟨ha, hr⟩ := valid_cons.1 h
    obtain ⟨q, r, hqr, he, hr0, hrd⟩ := div_fix (n + a.loc) a.dim (by omega)
    unfold incN
    rw [guardUB_true ha.1, guardUB_true (show a.dim ≠ 0 by omega)]
    simp only [Res.ok_bind, hqr]
    split_ifs with hq
    · subst hq
      refine ⟨_, rfl, valid_cons.2 ⟨⟨hr0, hrd⟩, hr⟩, rfl, i0, ?_, ?_⟩
      · simp only [posL]; linarith
      · simp only [offL]; ring
    · obtain ⟨r', h0, h1, h2, i0', h3, h4⟩ := incN_spec s0 rest i0 q hr
      rw [h0]
      refine ⟨_, rfl, valid_cons.2 ⟨⟨hr0, hrd⟩, h1⟩, ?_, i0', ?_, ?_⟩
      · simpa [geom] using h2
      · simp only [posL, h3]; linarith [mul_add a.dim (posL rest i0) q]
      · simp only [offL, h4]; ring

/-- The iterator stands at position `k` of the array which starts at `base`. -/
private def At (base s0 : Int) (g : List (Int × Int)) (it : Iter) (k : Int) : Prop :=
  it.stride0 = s0 ∧ geom it.axes = g ∧ Valid it.axes ∧
  ∃ i0, posL it.axes i0 = k ∧ 8 * (it.ptr - base) = offL s0 it.axes i0

private theorem At.step {base s0 : Int} {g : List (Int × Int)} {it : Iter} {k : Int}
    (h : At base s0 g it k) {off : Int} {axes : List Axis} {n : Int}
    (h1 : Valid axes) (h2 : geom axes = geom it.axes)
    (h3 : ∀ i0, ∃ i0', posL axes i0' = posL it.axes i0 + n ∧ offL s0 axes i0' = offL s0 it.axes i0 + off)
    (h8 : (8 : Int) ∣ s0) (hg : ∀ p ∈ g, (8 : Int) ∣ p.2) :
    At base s0 g { it with ptr := it.ptr + off.tdiv 8, axes := axes } (k + n) := by
  obtain ⟨e1, e2, _, i0, e3, e4⟩ := h
  obtain ⟨i0', h4, h5⟩ := h3 i0
  have hdvd : ∀ (l : List Axis) (j : Int), (∀ p ∈ geom l, (8 : Int) ∣ p.2) → (8 : Int) ∣ offL s0 l j := by
    intro l j hl
    induction l with
    | nil => exact Dvd.dvd.mul_left h8 j
    | cons a l ih =>
      refine Int.dvd_add (Dvd.dvd.mul_left (hl (a.dim, a.stride) (by simp [geom])) _) (ih ?_)
      intro p hp
      exact hl p (by simp only [geom, List.map_cons, List.mem_cons]; exact .inr hp)
  have hoff : (8 : Int) ∣ off := by
    have a1 := hdvd axes i0' (by rw [h2, e2]; exact hg)
    have a2 := hdvd it.axes i0 (by rw [e2]; exact hg)
    have : off = offL s0 axes i0' - offL s0 it.axes i0 := by omega
    rw [this]; exact Int.dvd_sub a1 a2
  have hdiv : 8 * off.tdiv 8 = off := Int.mul_tdiv_cancel' hoff
  refine ⟨e1, h2.trans e2, h1, i0', by rw [h4, e3], ?_⟩
  simp only
  rw [h5, ← e4]; linarith

private theorem At.move {base s0 : Int} {g : List (Int × Int)} {it : Iter} {k : Int}
    (h : At base s0 g it k) (m : IterMove) (h8 : (8 : Int) ∣ s0) (hg : ∀ p ∈ g, (8 : Int) ∣ p.2) :
    ∃ it', it.move m = .ok it' ∧ At base s0 g it' (k + m.delta) := by
  have hv := h.2.2.1
  have hs := h.1
  subst hs
  have hinc : At base it.stride0 g it.incr (k + 1) := by
    unfold Iter.incr
    exact h.step (inc1_spec _ it.axes 0 hv).1 (inc1_spec _ it.axes 0 hv).2.1
      (fun i0 => (inc1_spec _ it.axes i0 hv).2.2) h8 hg
  have hdec : At base it.stride0 g it.decr (k + -1) := by
    unfold Iter.decr
    exact h.step (dec1_spec _ it.axes 0 hv).1 (dec1_spec _ it.axes 0 hv).2.1
      (fun i0 => (dec1_spec _ it.axes i0 hv).2.2) h8 hg
  cases m with
  | incr => exact ⟨_, rfl, hinc⟩
  | decr => exact ⟨_, rfl, hdec⟩
  | advance n =>
    simp only [Iter.move, Iter.advance, IterMove.delta]
    split_ifs with h0 h1 h2
    · exact ⟨_, rfl, by rw [h0, add_zero]; exact h⟩
    · exact ⟨_, rfl, by rw [h1]; exact hinc⟩
    · exact ⟨_, rfl, by rw [h2]; exact hdec⟩
    · obtain ⟨r, hr, h3, h4, _⟩ := incN_spec it.stride0 it.axes 0 n hv
      rw [hr]
      refine ⟨_, rfl, h.step h3 h4 (fun i0 => ?_) h8 hg⟩
      obtain ⟨r', hr', _, _, h5⟩ := incN_spec it.stride0 it.axes i0 n hv
      rw [hr] at hr'
      cases hr'
      exact h5

private theorem At.moves {base s0 : Int} {g : List (Int × Int)} (h8 : (8 : Int) ∣ s0)
    (hg : ∀ p ∈ g, (8 : Int) ∣ p.2) : ∀ (ms : List IterMove) {it : Iter} {k : Int},
    At base s0 g it k → ∃ it', ms.foldlM Iter.move it = .ok it' ∧ At base s0 g it' (k + totalDelta ms)
  | [], it, k, h => ⟨it, rfl, by simpa [totalDelta] using h⟩
  | m :: ms, it, k, h => by
    obtain ⟨it1, h1, h2⟩ := h.move m h8 hg
    obtain ⟨it2, h3, h4⟩ := At.moves h8 hg ms h2
    refine ⟨it2, by rw [List.foldlM_cons, h1]; exact h3, ?_⟩
    simpa [totalDelta, add_assoc] using h4

/-! Relating the reversed axes to shape, strides and coordinates. -/

private theorem rowMajor_append : ∀ (l m : List Int) (d i : Int), l.length = m.length →
    rowMajor (l ++ [d]) (m ++ [i]) = rowMajor l m * d + i
  | [], [], d, i, _ => by simp [rowMajor, shapeProd]
  | x :: l, y :: m, d, i, h => by
    have hp : ∀ l : List Int, shapeProd (l ++ [d]) = shapeProd l * d := by
      intro l
      induction l with
      | nil => simp [shapeProd]
      | cons e l ih => simp only [List.cons_append, shapeProd, ih]; ring
    simp only [List.cons_append, rowMajor, rowMajor_append l m d i (by simpa using h), hp]
    ring

private theorem byteOffset_append : ∀ (l m : List Int) (s i : Int), l.length = m.length →
    byteOffset (l ++ [s]) (m ++ [i]) = byteOffset l m + i * s
  | [], [], s, i, _ => by simp [byteOffset]
  | x :: l, y :: m, s, i, h => by
    simp only [List.cons_append, byteOffset, byteOffset_append l m s i (by simpa using h)]
    ring

private theorem inShape_append : ∀ (l m : List Int) (d i : Int), InShape l m → 0 ≤ i → i < d →
    InShape (l ++ [d]) (m ++ [i])
  | [], [], d, i, _, h0, h1 => ⟨h0, h1, trivial⟩
  | x :: l, y :: m, d, i, ⟨a, b, c⟩, h0, h1 => ⟨a, b, inShape_append l m d i c h0 h1⟩

private theorem decode (d0 s0 i0 : Int) : ∀ (axes : List Axis), Valid axes →
    rowMajor (d0 :: (axes.map Axis.dim).reverse) (i0 :: (axes.map Axis.loc).reverse) = posL axes i0 ∧
    byteOffset (s0 :: (axes.map Axis.stride).reverse) (i0 :: (axes.map Axis.loc).reverse) =
      offL s0 axes i0 ∧
    InShape (axes.map Axis.dim).reverse (axes.map Axis.loc).reverse
  | [], _ => ⟨by simp [rowMajor, shapeProd, posL], by simp [byteOffset, offL], trivial⟩
  | a :: rest, h => by
    obtain ⟨ha, hr⟩ := valid_cons.1 h
    obtain ⟨h1, h2, h3⟩ := decode d0 s0 i0 rest hr
    simp only [List.map_cons, List.reverse_cons, ← List.cons_append]
    refine ⟨?_, ?_, inShape_append _ _ _ _ h3 ha.1 ha.2⟩
    · rw [rowMajor_append _ _ _ _ (by simp), h1, posL]; ring
    · rw [byteOffset_append _ _ _ _ (by simp), h2, offL]; ring

end Iter

open Iter

/-- Reaching element `k`: the iterator points at the element of the array (starting at address
`base`, counted in doubles) whose row-major position is `k`.  Axis 0 may be left in either direction
(`i0` is any integer), as when stepping to `end()`; the other coordinates are in range. -/
def PointsAt (base : Int) (shape strides : List Int) (it : Iter) (k : Int) : Prop :=
  ∃ i0 rest, InShape shape.tail rest ∧ rowMajor shape (i0 :: rest) = k ∧
    it.ptr = base + byteOffset strides (i0 :: rest) / 8

private theorem map_axes (f : Axis → Int) (g : List (Int × Int)) {axes : List Axis} (h : geom axes = g)
    (pr : Int × Int → Int) (hf : ∀ a, f a = pr (a.dim, a.stride)) : axes.map f = g.map pr := by
  rw [← h, geom, List.map_map]
  exact List.map_congr_left fun a _ => hf a

private theorem at_begin {base d0 s0 : Int} {shape strides : List Int}
    (hd : ∀ d ∈ shape, 0 < d) {it : Iter}
    (h : Iter.make base (d0 :: shape) (s0 :: strides) = some it) :
    At base s0 (shape.zip strides).reverse it 0 := by
  simp only [Iter.make, Option.some.injEq] at h
  subst h
  refine ⟨rfl, ?_, ?_, 0, ?_, ?_⟩
  · simp only [geom, List.map_reverse, List.map_zipWith]
    rfl
  · intro a ha
    rw [List.mem_reverse, List.mem_iff_getElem] at ha
    obtain ⟨i, hi, rfl⟩ := ha
    simp only [List.getElem_zipWith]
    exact ⟨le_refl _, hd _ (List.getElem_mem _)⟩
  · have : ∀ l : List Axis, (∀ a ∈ l, a.loc = 0) → posL l 0 = 0 := by
      intro l hl
      induction l with
      | nil => rfl
      | cons a l ih =>
        simp [posL, hl a List.mem_cons_self, ih fun b hb => hl b (List.mem_cons_of_mem _ hb)]
    apply this
    intro a ha
    rw [List.mem_reverse, List.mem_iff_getElem] at ha
    obtain ⟨i, hi, rfl⟩ := ha
    simp
  · have : ∀ l : List Axis, (∀ a ∈ l, a.loc = 0) → offL s0 l 0 = 0 := by
      intro l hl
      induction l with
      | nil => simp [offL]
      | cons a l ih =>
        simp [offL, hl a List.mem_cons_self, ih fun b hb => hl b (List.mem_cons_of_mem _ hb)]
    rw [this]
    · simp
    intro a ha
    rw [List.mem_reverse, List.mem_iff_getElem] at ha
    obtain ⟨i, hi, rfl⟩ := ha
    simp

private theorem At.pointsAt {base d0 s0 : Int} {shape strides : List Int}
    (hl : shape.length = strides.length) {it : Iter} {k : Int}
    (h : At base s0 (shape.zip strides).reverse it k) :
    PointsAt base (d0 :: shape) (s0 :: strides) it k := by
  obtain ⟨_, hg, hv, i0, h1, h2⟩ := h
  obtain ⟨a1, a2, a3⟩ := decode d0 s0 i0 it.axes hv
  have e1 : (it.axes.map Axis.dim).reverse = shape := by
    rw [map_axes Axis.dim _ hg Prod.fst (fun _ => rfl), List.map_reverse, List.reverse_reverse,
      List.map_fst_zip hl.le]
  have e2 : (it.axes.map Axis.stride).reverse = strides := by
    rw [map_axes Axis.stride _ hg Prod.snd (fun _ => rfl), List.map_reverse, List.reverse_reverse,
      List.map_snd_zip hl.ge]
  rw [e1] at a1 a3
  rw [e2] at a2
  refine ⟨i0, _, a3, a1.trans h1, ?_⟩
  rw [a2, ← h2]; omega

/-- **C14.** Whatever moves are made (single steps and jumps, forwards and backwards), an iterator
obtained from the start of a strided array never misbehaves and points at the element whose
row-major position is the total displacement. -/
theorem C14_iterator_row_major (base : Int) (shape strides : List Int)
    (hl : shape.length = strides.length) (hd : ∀ d ∈ shape.tail, 0 < d)
    (h8 : ∀ s ∈ strides, (8 : Int) ∣ s) (it0 : Iter) (h0 : Iter.make base shape strides = some it0)
    (moves : List IterMove) :
    ∃ it, moves.foldlM Iter.move it0 = .ok it ∧ PointsAt base shape strides it (totalDelta moves) := by
  match shape, strides, hl with
  | [], [], _ => simp [Iter.make] at h0
  | d0 :: shape, s0 :: strides, hl =>
    have hl' : shape.length = strides.length := by simpa using hl
    obtain ⟨it, h1, h2⟩ := At.moves (h8 s0 List.mem_cons_self)
      (fun p hp => h8 _ (List.mem_cons_of_mem _ (List.of_mem_zip (List.mem_reverse.1 hp)).2)) moves
      (at_begin hd h0)
    refine ⟨it, h1, At.pointsAt hl' ?_⟩
    simpa using h2

/-- The row-major position determines the coordinates, so `PointsAt` determines the address. -/
theorem rowMajor_inj_unbounded {d0 : Int} {shape rest rest' : List Int} {i0 i0' : Int}
    (h : InShape shape rest) (h' : InShape shape rest')
    (he : rowMajor (d0 :: shape) (i0 :: rest) = rowMajor (d0 :: shape) (i0' :: rest')) :
    i0 = i0' ∧ rest = rest' := by
  simp only [rowMajor] at he
  have r := h.rowMajor_range
  have r' := h'.rowMajor_range
  have hp : 0 < shapeProd shape := by omega
  have hij : i0 = i0' := by
    rcases Int.lt_trichotomy i0 i0' with hlt | heq | hlt
    · have : (i0 + 1) * shapeProd shape ≤ i0' * shapeProd shape :=
        Int.mul_le_mul_of_nonneg_right (by omega) (by omega)
      nlinarith
    · exact heq
    · have : (i0' + 1) * shapeProd shape ≤ i0 * shapeProd shape :=
        Int.mul_le_mul_of_nonneg_right (by omega) (by omega)
      nlinarith
  subst hij
  exact ⟨rfl, rowMajor_inj h h' (by omega)⟩

/-- **C14.** For an in-range element: moving by its row-major position, in whatever way, reaches it. -/
theorem C14_iterator_reaches (base : Int) (shape strides idx : List Int)
    (hl : shape.length = strides.length) (hi : InShape shape idx)
    (h8 : ∀ s ∈ strides, (8 : Int) ∣ s) (it0 : Iter) (h0 : Iter.make base shape strides = some it0)
    (moves : List IterMove) (hm : totalDelta moves = rowMajor shape idx) :
    ∃ it, moves.foldlM Iter.move it0 = .ok it ∧ it.ptr = base + byteOffset strides idx / 8 := by
  match shape, idx, hi with
  | [], _, _ => simp [Iter.make] at h0
  | d0 :: shape, i :: idx, hi =>
    obtain ⟨it, h1, i0, rest, h2, h3, h4⟩ := C14_iterator_row_major base _ strides hl
      (fun d h => hi.pos d (List.mem_of_mem_tail h)) h8 it0 h0 moves
    obtain ⟨e1, e2⟩ := rowMajor_inj_unbounded h2 hi.2.2 (h3.trans hm)
    subst e1 e2
    exact ⟨it, h1, h4⟩

/-- **C14.** Two ways of moving by the same total displacement (e.g. forward and back) end at the
same element. -/
theorem C14_same_total (base : Int) (shape strides : List Int)
    (hl : shape.length = strides.length) (hd : ∀ d ∈ shape.tail, 0 < d)
    (h8 : ∀ s ∈ strides, (8 : Int) ∣ s) (it0 : Iter) (h0 : Iter.make base shape strides = some it0)
    (ms ms' : List IterMove) (hm : totalDelta ms = totalDelta ms') :
    ∃ it it', ms.foldlM Iter.move it0 = .ok it ∧ ms'.foldlM Iter.move it0 = .ok it' ∧
      it.ptr = it'.ptr := by
  obtain ⟨it, h1, i0, rest, h2, h3, h4⟩ := C14_iterator_row_major base shape strides hl hd h8 it0 h0 ms
  obtain ⟨it', h1', i0', rest', h2', h3', h4'⟩ :=
    C14_iterator_row_major base shape strides hl hd h8 it0 h0 ms'
  refine ⟨it, it', h1, h1', ?_⟩
  match shape, h2, h2', h3, h3' with
  | [], _, _, _, _ => simp [Iter.make] at h0
  | d0 :: shape, h2, h2', h3, h3' =>
    obtain ⟨e1, e2⟩ := rowMajor_inj_unbounded (d0 := d0) h2 h2' (h3.trans (hm.trans h3'.symm))
    rw [h4, h4', e1, e2]

private theorem diffLoop_spec (s0 ia ib : Int) : ∀ (as bs : List Axis), geom as = geom bs → ∀ incs,
    (∀ a ∈ as, (8 : Int) ∣ a.stride) →
    (diffLoop as bs incs).1 + (ia - ib) * (diffLoop as bs incs).2.2.2 =
      incs * (posL as ia - posL bs ib) ∧
    offL s0 as ia + 8 * (diffLoop as bs incs).2.1 = ia * s0 ∧
    offL s0 bs ib + 8 * (diffLoop as bs incs).2.2.1 = ib * s0
  | [], [], _, incs, _ => by simp [diffLoop, posL, offL]; ring
  | [], b :: bs, h, _, _ => by simp [geom] at h
  | a :: as, [], h, _, _ => by simp [geom] at h
  | a :: as, b :: bs, h, incs, h8 => by
    simp only [geom, List.map_cons, List.cons.injEq, Prod.mk.injEq] at h
    obtain ⟨⟨h1, h2⟩, h3⟩ := h
    obtain ⟨e1, e2, e3⟩ := diffLoop_spec s0 ia ib as bs h3 (incs * a.dim)
      fun x hx => h8 x (List.mem_cons_of_mem _ hx)
    have hs : 8 * a.stride.tdiv 8 = a.stride := Int.mul_tdiv_cancel' (h8 a List.mem_cons_self)
    simp only [diffLoop, posL, offL]
    refine ⟨?_, ?_, ?_⟩
    · rw [← h1]; linarith
    · have : a.loc * a.stride = 8 * (a.loc * a.stride.tdiv 8) := by
        conv_lhs => rw [← hs]
        ring
      linarith
    · have : b.loc * b.stride = 8 * (b.loc * a.stride.tdiv 8) := by
        rw [← h2]; conv_lhs => rw [← hs]
        ring
      linarith

/-- **C14.** The difference of two iterators over the same array is the difference of their
positions, provided axis 0 has a non-zero stride and no two positions share an address. -/
theorem C14_difference_partial (base : Int) (shape strides : List Int)
    (hl : shape.length = strides.length) (hd : ∀ d ∈ shape.tail, 0 < d)
    (h8 : ∀ s ∈ strides, (8 : Int) ∣ s) (hs0 : ∀ s ∈ strides.head?, s ≠ 0)
    (it0 : Iter) (h0 : Iter.make base shape strides = some it0)
    (ms ms' : List IterMove) (a b : Iter) (ha : ms.foldlM Iter.move it0 = .ok a)
    (hb : ms'.foldlM Iter.move it0 = .ok b)
    (hinj : a.ptr = b.ptr → totalDelta ms = totalDelta ms') :
    ∃ a' b', Iter.sub a b = .ok (totalDelta ms - totalDelta ms', a', b') := by
  match shape, strides, hl with
  | [], [], _ => simp [Iter.make] at h0
  | d0 :: shape, s0 :: strides, hl =>
    have h8' : ∀ p ∈ (shape.zip strides).reverse, (8 : Int) ∣ p.2 := fun p hp =>
      h8 _ (List.mem_cons_of_mem _ (List.of_mem_zip (List.mem_reverse.1 hp)).2)
    have hd8 := h8 s0 List.mem_cons_self
    obtain ⟨a1, e1, hA⟩ := At.moves hd8 h8' ms (at_begin hd h0)
    obtain ⟨b1, e2, hB⟩ := At.moves hd8 h8' ms' (at_begin hd h0)
    rw [ha] at e1; rw [hb] at e2
    cases e1; cases e2
    rw [zero_add] at hA hB
    by_cases hp : a.ptr = b.ptr
    · exact ⟨a, b, by simp [Iter.sub, hp, hinj hp]⟩
    · obtain ⟨as, ag, av, ia, ap, ao⟩ := hA
      obtain ⟨bs, bg, bv, ib, bp, bo⟩ := hB
      obtain ⟨f1, f2, f3⟩ := diffLoop_spec s0 ia ib a.axes b.axes (ag.trans bg.symm) 1 (by
        intro x hx
        have : (x.dim, x.stride) ∈ geom a.axes := List.mem_map.2 ⟨x, hx, rfl⟩
        rw [ag] at this
        exact h8' _ this)
      have hs : 8 * s0.tdiv 8 = s0 := Int.mul_tdiv_cancel' hd8
      have hs0' : s0 ≠ 0 := hs0 s0 (by simp)
      have hz : s0.tdiv 8 ≠ 0 := by intro h; rw [h] at hs; simp at hs; exact hs0' hs.symm
      have hsub : (a.ptr + (diffLoop a.axes b.axes 1).2.1) - (b.ptr + (diffLoop a.axes b.axes 1).2.2.1) =
          (ia - ib) * s0.tdiv 8 := by
        have : 8 * ((a.ptr + (diffLoop a.axes b.axes 1).2.1) -
            (b.ptr + (diffLoop a.axes b.axes 1).2.2.1)) = 8 * ((ia - ib) * s0.tdiv 8) := by
          have : 8 * ((ia - ib) * s0.tdiv 8) = ia * s0 - ib * s0 := by
            rw [show 8 * ((ia - ib) * s0.tdiv 8) = (ia - ib) * (8 * s0.tdiv 8) by ring, hs]; ring
          rw [this, ← f2, ← f3, ← ao, ← bo]; ring
        omega
      refine ⟨{ a with axes := a.axes.map fun x => { x with loc := 0 } },
        { b with axes := b.axes.map fun x => { x with loc := 0 } }, ?_⟩
      · unfold Iter.sub
        rw [if_neg hp]
        simp only [as]
        rw [guardUB_true hz, Res.ok_bind]
        simp only [hsub, Int.mul_tdiv_cancel _ hz]
        rw [f1, ap, bp, one_mul]

/-- **C14, false of the code:** "taking a difference of two iterators leaves them usable".  In a 2 x 3
array with strides (64, 16), move `a` to position 2 and `b` to position 0, and take `a - b`.  The
result (2) is right, but `a` has lost its place: its next step goes to byte offset 48 instead of
position 3, which is at byte offset 64 (array.hpp 455-469 resets the operands' own locations). -/
theorem C14_difference_fails :
    ∃ it0 a b a' b' : Iter, Iter.make 0 [2, 3] [64, 16] = some it0 ∧
      [IterMove.advance 2].foldlM Iter.move it0 = .ok a ∧
      [IterMove.advance 0].foldlM Iter.move it0 = .ok b ∧
      Iter.sub a b = .ok (2, a', b') ∧ a.incr.ptr = 8 ∧ a'.incr.ptr = 6 ∧
      PointsAt 0 [2, 3] [64, 16] a.incr 3 ∧ ¬ PointsAt 0 [2, 3] [64, 16] a'.incr 3 := by
  refine ⟨_, _, _, _, _, rfl, rfl, rfl, rfl, rfl, rfl, ⟨1, [0], ⟨le_refl _, by decide, trivial⟩, rfl, rfl⟩, ?_⟩
  rintro ⟨i0, rest, h1, h2, h3⟩
  have := rowMajor_inj_unbounded (d0 := 2) (i0' := 1) (rest' := [0]) h1
    ⟨le_refl _, by decide, trivial⟩ h2
  rw [this.1, this.2] at h3
  revert h3
  decide

/-- **C14, false of the code:** a non-contiguous array whose axis 0 has stride zero has no iterator
differences at all (division by zero, array.hpp 477-478). -/
theorem C14_difference_zero_stride_fails :
    ∃ it0 a : Iter, Iter.make 0 [2, 2] [0, 16] = some it0 ∧
      [IterMove.incr].foldlM Iter.move it0 = .ok a ∧ Iter.sub a it0 = .ub :=
  ⟨_, _, rfl, rfl, rfl⟩

example : ∃ it0 it : Iter, Iter.make 0 [2, 3] [64, 16] = some it0 ∧
    [IterMove.advance 5, .decr, .incr, .advance (-2)].foldlM Iter.move it0 = .ok it ∧ it.ptr = 8 :=
  ⟨_, _, rfl, rfl, rfl⟩

end Verif
