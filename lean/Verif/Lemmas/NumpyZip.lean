import Verif.Spec.Expressions
import Verif.Props.Shape
import Verif.Lemmas.Catalog
import Verif.Lemmas.Indexing
import Verif.Lemmas.AdvancedGeometry
import Verif.Lemmas.ScriptBasic

set_option linter.unusedSimpArgs false

/-! Helper lemmas: broadcasting of equal shapes and of single elements. -/

namespace Verif

theorem dimR_out {a : List Int} {i : Nat} (h : a.length ≤ i) : dimR a i = 1 := by
  unfold dimR
  rw [List.getElem?_eq_none (by simpa using h)]
  rfl

theorem isBroadcast_dims (a b : List Int) : IsBroadcast a b (broadcastDims a b) := by
  refine ⟨by simp [broadcastDims], fun i => ?_⟩
  have e : dimR (broadcastDims a b) i =
      (((List.range (max a.length b.length)).map fun i => if dimR a i = 1 then dimR b i else dimR a i)[i]?).getD 1 := by
    simp only [dimR, broadcastDims, List.reverse_reverse]
  rw [e]
  by_cases hi : i < max a.length b.length
  · rw [List.getElem?_map, List.getElem?_range hi]
    rfl
  · rw [List.getElem?_eq_none (by simpa using Nat.le_of_not_lt hi), dimR_out (a := a) (by omega), dimR_out (a := b) (by omega)]
    rfl

theorem fits_iff {a b : List Int} : NumpyFits a b ↔ Broadcastable a b := by
  refine ⟨fun h i => ?_, fun h i _ => h i⟩
  by_cases hi : i < max a.length b.length
  · exact h i hi
  · rw [dimR_out (a := a) (by omega)]
    exact .inr (.inl rfl)

theorem dims_of_broadcast {a b c : List Int} (h : broadcastShape a b = .ok c) : NumpyFits a b ∧ broadcastDims a b = c := by
  by_cases hf : Broadcastable a b
  · obtain ⟨c', hc, hb⟩ := C11_broadcast_ok a b hf
    rw [h] at hc
    injection hc with hc
    subst hc
    exact ⟨fits_iff.2 hf, C11_broadcast_unique (isBroadcast_dims a b) hb⟩
  · rw [C11_broadcast_rejects a b hf] at h
    cases h

theorem broadcastRev_ones_ok : ∀ {l r : List Int}, (∀ d ∈ l, d = 1) → ∃ s, broadcastRev l r = .ok s
  | [], r, _ => by cases r <;> exact ⟨_, rfl⟩
  | e :: l, [], _ => ⟨_, rfl⟩
  | e :: l, r :: rs, h => by
    obtain ⟨s, hs⟩ := broadcastRev_ones_ok (l := l) (r := rs) fun d hd => h d (by simp [hd])
    obtain rfl : e = 1 := h e (by simp)
    simp only [broadcastRev, hs, Res.ok_bind, if_true]
    split_ifs
    · exact ⟨_, rfl⟩
    · exact ⟨_, rfl⟩

theorem broadcastRev_self_ok : ∀ l : List Int, broadcastRev l l = .ok l
  | [] => rfl
  | e :: l => by simp [broadcastRev, broadcastRev_self_ok l]

theorem dims_ones {a b : List Int} (h : ∀ d ∈ a, d = 1) :
    NumpyFits a b ∧ broadcastDims a b = List.replicate (a.length - b.length) 1 ++ b := by
  obtain ⟨s, hs⟩ := broadcastRev_ones_ok (l := a.reverse) (r := b.reverse) (by simpa using h)
  have e := broadcastRev_ones (by simpa using h) hs
  have hb : broadcastShape a b = .ok s.reverse := by simp [broadcastShape, hs]
  obtain ⟨h1, h2⟩ := dims_of_broadcast hb
  refine ⟨h1, ?_⟩
  rw [h2, e]
  simp

theorem dims_ones_right {a b : List Int} (h : ∀ d ∈ a, d = 1) :
    NumpyFits b a ∧ broadcastDims b a = List.replicate (a.length - b.length) 1 ++ b := by
  obtain ⟨s, hs⟩ := broadcastRev_ones_ok (l := a.reverse) (r := b.reverse) (by simpa using h)
  have e := broadcastRev_ones (by simpa using h) hs
  have hb : broadcastShape b a = .ok s.reverse := by simp [broadcastShape, broadcastRev_comm hs]
  obtain ⟨h1, h2⟩ := dims_of_broadcast hb
  refine ⟨h1, ?_⟩
  rw [h2, e]
  simp

theorem dims_self (a : List Int) : NumpyFits a a ∧ broadcastDims a a = a :=
  dims_of_broadcast (by simp [broadcastShape, broadcastRev_self_ok])

/-- As many elements as the shape says. -/
def Arr.Full (x : Arr Rat) : Prop := (∀ d ∈ x.shape, 0 ≤ d) ∧ (x.data.length : Int) = shapeProd x.shape

theorem Arr.Full.reads {x : Arr Rat} (h : x.Full) :
    ((allCoords x.shape).map fun c => x.data.getD (rowMajor x.shape c).toNat 0) = x.data := by
  by_cases h0 : 0 ∈ x.shape
  · have hp : shapeProd x.shape = 0 := by rw [shapeProd_eq]; exact List.prod_eq_zero h0
    have : x.data = [] := List.length_eq_zero_iff.1 (by have := h.2; omega)
    rw [allCoords_empty h0, this]
    rfl
  · have hpos : ∀ d ∈ x.shape, 0 < d := fun d hd => by
      have := h.1 d hd
      have : d ≠ 0 := fun e => h0 (e ▸ hd)
      omega
    have e := congrArg (List.map fun i : Int => x.data.getD i.toNat 0) (allCoords_rowMajor hpos)
    rw [List.map_map, List.map_map] at e
    refine Eq.trans e ?_
    have hl : (shapeProd x.shape).toNat = x.data.length := by have := h.2; omega
    rw [hl]
    apply List.ext_getElem
    · simp
    · intro i h1 h2
      simp [List.getElem?_eq_getElem h2]

theorem inShape_zip : ∀ {s c : List Int}, InShape s c → List.zipWith (fun d i => if d = 1 then 0 else i) s c = c
  | [], [], _ => rfl
  | d :: s, i :: c, ⟨h0, h1, h⟩ => by
    rw [List.zipWith_cons_cons, inShape_zip h]
    split_ifs with hd
    · congr 1
      omega
    · rfl

theorem inShape_length : ∀ {s c : List Int}, InShape s c → c.length = s.length
  | [], [], _ => rfl
  | d :: s, i :: c, ⟨_, _, h⟩ => by simp [inShape_length h]

theorem aligned_padded {x : Arr Rat} {c : List Int} (k : Nat) (h : InShape x.shape c) :
    x.aligned (List.replicate k 0 ++ c) = x.data.getD (rowMajor x.shape c).toNat 0 := by
  unfold Arr.aligned
  have hl := inShape_length h
  have : (List.replicate k (0 : Int) ++ c).drop ((List.replicate k (0 : Int) ++ c).length - x.shape.length) = c := by
    rw [List.length_append, List.length_replicate, hl, Nat.add_sub_cancel]
    rw [List.drop_left' (by simp)]
  rw [this, inShape_zip h]

theorem rowMajor_ones : ∀ {s c : List Int}, (∀ d ∈ s, d = 1) →
    rowMajor s (List.zipWith (fun d i => if d = 1 then 0 else i) s c) = 0
  | [], c, _ => by simp [rowMajor]
  | d :: s, [], _ => by simp [rowMajor]
  | d :: s, i :: c, h => by
    rw [List.zipWith_cons_cons, if_pos (h d (by simp)), rowMajor, rowMajor_ones fun e he => h e (by simp [he])]
    simp

theorem aligned_ones {x : Arr Rat} (h : ∀ d ∈ x.shape, d = 1) (c : List Int) : x.aligned c = x.data.headD 0 := by
  unfold Arr.aligned
  rw [rowMajor_ones h]
  cases x.data <;> rfl

theorem allCoords_padded {β : Type} (s : List Int) (g : List Int → β) : ∀ k : Nat,
    (allCoords (List.replicate k 1 ++ s)).map g = (allCoords s).map fun c => g (List.replicate k 0 ++ c)
  | 0 => by simp
  | k + 1 => by
    have := allCoords_padded s (fun c => g (0 :: c)) k
    simp only [List.replicate_succ, List.cons_append, allCoords]
    rw [show (1 : Int).toNat = 1 from rfl]
    simp only [List.range_one, List.flatMap_cons, List.flatMap_nil, List.append_nil, List.map_map]
    exact this

theorem numpyZip_left {op : Rat → Rat → Rat} {x y : Arr Rat} (h : ∀ d ∈ x.shape, d = 1) (hy : y.Full) :
    numpyZip op x y = some ⟨List.replicate (x.shape.length - y.shape.length) 1 ++ y.shape, y.data.map (op (x.data.headD 0))⟩ := by
  obtain ⟨h1, h2⟩ := dims_ones (b := y.shape) h
  unfold numpyZip
  rw [if_pos h1, h2, allCoords_padded]
  congr 2
  have e := congrArg (List.map (op (x.data.headD 0))) hy.reads
  rw [← e, List.map_map]
  refine List.map_congr_left fun c hc => ?_
  rw [aligned_ones h, aligned_padded _ (mem_allCoords.1 hc)]
  rfl

theorem numpyZip_right {op : Rat → Rat → Rat} {x y : Arr Rat} (h : ∀ d ∈ x.shape, d = 1) (hy : y.Full) :
    numpyZip op y x = some ⟨List.replicate (x.shape.length - y.shape.length) 1 ++ y.shape, y.data.map (op · (x.data.headD 0))⟩ := by
  obtain ⟨h1, h2⟩ := dims_ones_right (b := y.shape) h
  unfold numpyZip
  rw [if_pos h1, h2, allCoords_padded]
  congr 2
  have e := congrArg (List.map (op · (x.data.headD 0))) hy.reads
  rw [← e, List.map_map]
  refine List.map_congr_left fun c hc => ?_
  rw [aligned_ones h, aligned_padded _ (mem_allCoords.1 hc)]
  rfl

theorem aligned_in {x : Arr Rat} {c : List Int} (h : InShape x.shape c) :
    x.aligned c = x.data.getD (rowMajor x.shape c).toNat 0 := aligned_padded 0 h

theorem numpyZip_same {op : Rat → Rat → Rat} {x y : Arr Rat} (h : x.shape = y.shape) (hx : x.Full) (hy : y.Full) :
    numpyZip op x y = some ⟨y.shape, List.zipWith op x.data y.data⟩ := by
  obtain ⟨h1, h2⟩ := dims_self y.shape
  unfold numpyZip
  rw [h, if_pos h1, h2]
  congr 2
  rw [← hx.reads, ← hy.reads, h, List.zipWith_map, List.zipWith_self]
  refine List.map_congr_left fun c hc => ?_
  have hc := mem_allCoords.1 hc
  have e1 := aligned_in (x := x) (by rw [h]; exact hc)
  rw [h] at e1
  rw [e1, aligned_in hc]

theorem numpyWhere_same {c x y : Arr Rat} (h1 : c.shape = x.shape) (h2 : x.shape = y.shape) (hc : c.Full) (hx : x.Full) (hy : y.Full) :
    numpyWhere c x y = some ⟨x.shape, (List.range x.data.length).map fun i =>
      if c.data.getD i 0 ≠ 0 then x.data.getD i 0 else y.data.getD i 0⟩ := by
  obtain ⟨e1, e2⟩ := dims_self x.shape
  unfold numpyWhere
  rw [← h2, h1, e2, if_pos ⟨e1, e1⟩, e2]
  congr 2
  apply List.ext_getElem?
  intro i
  have hl := length_allCoords_nonneg hx.1
  have hxl := hx.2
  by_cases hi : i < x.data.length
  · have key : ∀ z : Arr Rat, z.Full → z.shape = x.shape → ∀ (h : i < (allCoords x.shape).length),
        z.data.getD i 0 = z.aligned ((allCoords x.shape)[i]) := by
      intro z hz hs h
      have e := hz.reads
      rw [hs] at e
      have hcm := mem_allCoords.1 (List.getElem_mem h)
      have := aligned_in (x := z) (c := (allCoords x.shape)[i]) (by rw [hs]; exact hcm)
      rw [this, hs]
      conv_lhs => rw [← e]
      rw [List.getD_eq_getElem?_getD, List.getElem?_map, List.getElem?_eq_getElem h]
      rfl
    have h' : i < (allCoords x.shape).length := by omega
    rw [List.getElem?_map, List.getElem?_map, List.getElem?_range hi, List.getElem?_eq_getElem h']
    simp only [Option.map_some]
    rw [key c hc h1 h', key x hx rfl h', key y hy h2.symm h']
  · rw [List.getElem?_eq_none (by rw [List.length_map]; omega), List.getElem?_eq_none (by rw [List.length_map, List.length_range]; omega)]

theorem numpyWhere_one {c x y : Arr Rat} (h1 : ∀ d ∈ c.shape, d = 1) (hl : c.shape.length ≤ x.shape.length) (h2 : x.shape = y.shape)
    (hx : x.Full) (hy : y.Full) :
    numpyWhere c x y = some ⟨x.shape, if c.data.getD 0 0 ≠ 0 then x.data else y.data⟩ := by
  obtain ⟨e1, e2⟩ := dims_self x.shape
  obtain ⟨e3, e4⟩ := dims_ones (b := x.shape) h1
  unfold numpyWhere
  rw [← h2, e2, if_pos ⟨e1, e3⟩, e4, show c.shape.length - x.shape.length = 0 by omega]
  simp only [List.replicate_zero, List.nil_append]
  congr 2
  have hc0 : ∀ i, c.aligned i = c.data.getD 0 0 := fun i => by rw [aligned_ones h1]; cases c.data <;> rfl
  simp only [hc0]
  split_ifs with hz
  · conv_rhs => rw [← hx.reads]
    exact List.map_congr_left fun i hi => aligned_in (mem_allCoords.1 hi)
  · conv_rhs => rw [← hy.reads, ← h2]
    refine List.map_congr_left fun i hi => ?_
    have := aligned_in (x := y) (c := i) (by rw [← h2]; exact mem_allCoords.1 hi)
    rw [this, ← h2]

end Verif
