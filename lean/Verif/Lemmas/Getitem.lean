import Verif.Spec.Getitem
import Verif.Lemmas.Combined
import Verif.Lemmas.ProgramRealises

set_option linter.unusedSectionVars false
set_option linter.unusedSimpArgs false
set_option linter.unusedVariables false

/-! Helper lemmas: what `x[...]` makes. -/

namespace Verif

open MixedIndex

namespace Script

variable {s s' t : Script} {A vals : Nat → Val}

theorem row_prefix (h : s <+: t) {i : Nat} (hi : i < s.length) : t.row i = s.row i := by
  obtain ⟨r, rfl⟩ := h
  unfold row
  rw [List.getD_eq_getElem?_getD, List.getD_eq_getElem?_getD, List.getElem?_append_left hi]

theorem add_made {u : Term} {ops : List Nat} {j : Nat} (h : s.add u ops = .ok (s', j)) (ht : s' <+: t) :
    j < t.length ∧ s <+: t ∧ (t.row j).Realises (u, ops) ∧ (∀ p ∈ ops, p < s.length) := by
  unfold Script.add at h
  obtain ⟨_, hg, h⟩ := Res.bind_eq_ok.1 h
  obtain ⟨b, hb, h⟩ := Res.bind_eq_ok.1 h
  cases h
  have hlt : s.length < (s ++ [(⟨b.1, ops, ops.map fun p => (s.row p).out, b.2⟩ : Row)]).length := by simp
  refine ⟨lt_of_lt_of_le hlt ht.length_le, (List.prefix_append _ _).trans ht, ?_, ?_⟩
  · rw [row_prefix ht hlt]
    have : row (s ++ [(⟨b.1, ops, ops.map fun p => (s.row p).out, b.2⟩ : Row)]) s.length =
        ⟨b.1, ops, ops.map fun p => (s.row p).out, b.2⟩ := by
      unfold row
      rw [List.getD_eq_getElem?_getD, List.getElem?_append_right (le_refl _)]
      simp
    rw [this]
    exact realises_of_construct hb
  · unfold guardUB at hg
    split_ifs at hg with h
    exact h

theorem order_length {n : Nat} {data : List Rat} (h : (⟨[(n : Int)], data⟩ : Arr Rat).WF) : data.length = n := by
  have : (data.length : Int) = [(n : Int)].prod := h
  simpa using this

theorem Made.const_value (h : t.Made) (hf : t.Follows A vals) {i : Nat} (hi : i < t.length) {a : Arr Rat}
    (ha : (t.row i).out.const = some a) : vals i = [a] := by
  obtain ⟨sizes, _, _, _, how⟩ := h.how hi
  cases how with
  | basic _ _ _ _ _ _ ho => rw [ho] at ha; cases ha
  | advanced _ _ _ _ _ ho => rw [ho] at ha; cases ha
  | @kind k asked shapes hb _ _ _ ho =>
    rw [ho] at ha
    have hk : k = .constant a := by
      cases k <;> simp [Kind.value] at ha
      rw [ha]
    have hval := hf i hi
    have hnode : (t.row i).node = constantNode a := by unfold Row.node; rw [hb, hk]
    rw [hnode] at hval
    exact hval
  | permutation hb ho => rw [ho] at ha; cases ha

/-- The value of `x[idx]` with integers and slices. -/
theorem Made.basic_value (h : t.Made) (hf : t.Follows A vals) {i x : Nat} (hi : i < t.length) {sh : List Int} {idx : List BasicIndex}
    {P : Parsed} (hb : (t.row i).built = .basic sh idx P) (hops : (t.row i).ops = [x]) (hd : ∀ d ∈ sh, 0 ≤ d ∧ d ≤ ssMax)
    (hfit : ∀ i ∈ idx, i.Fits) {v : Arr Rat} (hv : vals x = [v]) (hsh : (t.row x).out.shapes = [v.shape]) :
    v.shape = sh ∧ SelectOk sh idx ∧ (t.row i).out.shapes = [selectShape sh idx] ∧
      vals i = [⟨selectShape sh idx, basicSelect sh v.data idx⟩] := by
  obtain ⟨sizes, _, _, _, how⟩ := h.how hi
  cases how with
  | kind hb' => rw [hb] at hb'; cases hb'
  | advanced hb' => rw [hb] at hb'; cases hb'
  | permutation hb' => rw [hb] at hb'; cases hb'
  | @basic x' sh' idx' P' z hb' hops' _ hsh' hP hz ho =>
    rw [hb] at hb'
    cases hb'
    obtain rfl : x = x' := by rw [hops] at hops'; simpa using hops'
    obtain rfl : v.shape = sh := by rw [hsh] at hsh'; simpa using hsh'
    have hok : SelectOk v.shape idx := by
      by_contra hn
      rw [(C30_accepts _ _ hd hfit).2 hn] at hP
      cases hP
    obtain ⟨Q, hQ, hQs⟩ := (C30_accepts _ _ hd hfit).1 hok
    rw [hP] at hQ
    cases hQ
    refine ⟨rfl, hok, by rw [ho, hQs], ?_⟩
    have hval := hf i hi
    have hdec : (t.row i).decision = false := by unfold Row.decision; rw [hb]; rfl
    rw [hdec] at hval
    simp only [Bool.false_eq_true, if_false] at hval
    rw [hval, hops]
    unfold Row.node
    rw [hb]
    simp only [List.map_cons, List.map_nil, hv]
    show [(⟨P.shape, basicSelect v.shapeNow v.data idx⟩ : Arr Rat)] = _
    have hnow : v.shapeNow = v.shape := by
      obtain ⟨w, data⟩ := v
      exact shapeNow_fixed fun d h => (hd d h).1
    rw [hnow, hQs]

theorem arrayDims_zip : ∀ (kinds : List Bool) (sh : List Int), arrayDims kinds sh = ((sh.zip kinds).filter Prod.snd).map Prod.fst
  | [], sh => by cases sh <;> simp [arrayDims]
  | _ :: _, [] => by simp [arrayDims]
  | true :: kinds, d :: sh => by simp [arrayDims, arrayDims_zip kinds sh]
  | false :: kinds, d :: sh => by simp [arrayDims, arrayDims_zip kinds sh]

theorem toSS_nat (k : Nat) : toSS (k : Rat) = k := by simp [toSS]

theorem floor_nat (k : Nat) : (k : Rat).floor = k := by
  have := Rat.floor_intCast (k : Int)
  simpa using this

theorem index_inShape {dims : List Int} {ys : List (Arr Rat)}
    (h : List.Forall₂ (fun (d : Int) (y : Arr Rat) => ∀ v ∈ y.data, ∃ k : Nat, v = k ∧ (k : Int) < d) dims ys) {n t : Nat} (ht : t < n)
    (hl : ∀ y ∈ ys, y.data.length = n) :
    InShape dims (Adv.indexAt ys t) ∧ Adv.indexAt ys t = ys.map fun y => (y.data.getD t 0).floor := by
  induction h with
  | nil => exact ⟨trivial, rfl⟩
  | @cons d y dims ys hd _ ih =>
    obtain ⟨h1, h2⟩ := ih fun y hy => hl y (by simp [hy])
    have hlt : t < y.data.length := by rw [hl y (by simp)]; exact ht
    obtain ⟨k, hk, hkd⟩ := hd (y.data.getD t 0) (getD_mem_of_lt hlt)
    have e : Adv.indexAt (y :: ys) t = toSS (y.data.getD t 0) :: Adv.indexAt ys t := rfl
    rw [e, List.map_cons, ← h2, hk, toSS_nat, floor_nat]
    exact ⟨⟨Int.natCast_nonneg _, hkd, h1⟩, rfl⟩

/-- The value of `x[arrays]`. -/
theorem Made.advanced_value (h : t.Made) (hf : t.Follows A vals) {i x : Nat} {xs : List Nat} (hi : i < t.length)
    {idx : List (Option Indexer)} {P : Adv} {base : Option (Arr Rat)} (hb : (t.row i).built = .advanced idx P base)
    (hops : (t.row i).ops = x :: xs) {v : Arr Rat} (hv : vals x = [v]) (hsh : (t.row x).out.shapes = [v.shape])
    (hpos : ∀ d ∈ v.shape, 0 < d) (hshapes : ∀ p ∈ xs, (vals p).map Arr.shape = (t.row p).out.shapes)
    (hin : (t.row i).InBounds vals) :
    ∃ y ys, xs.map vals = (y :: ys).map (fun y => [y]) ∧ idx.length = v.shape.length ∧
      (IndexEntries (arrayDims (idx.map Option.isSome) v.shape) (y :: ys) ∧
        ∀ z ∈ y :: ys, z.data.length = y.data.length ∧ z.shape.length = y.shape.length ∧ z.shape.length ≤ 1) ∧
      (∀ k < y.data.length, InShape (arrayDims (idx.map Option.isSome) v.shape) (Adv.indexAt (y :: ys) k) ∧
        Adv.indexAt (y :: ys) k = (y :: ys).map fun y => (y.data.getD k 0).floor) ∧
      vals i = [⟨advShape (idx.map Option.isSome) v.shape y.shape,
        advSelect (idx.map Option.isSome) v.shape v.data (Adv.indexAt (y :: ys)) y.data.length⟩] := by
  obtain ⟨sizes, hbef, _, _, how⟩ := h.how hi
  cases how with
  | kind hb' => rw [hb] at hb'; cases hb'
  | basic hb' => rw [hb] at hb'; cases hb'
  | permutation hb' => rw [hb] at hb'; cases hb'
  | @advanced x' xs' sh slots idx' P' z hb' hops' hsh' hidx hP ho =>
    rw [hb] at hb'
    cases hb'
    obtain ⟨rfl, rfl⟩ : x = x' ∧ xs = xs' := by rw [hops] at hops'; simpa using hops'
    obtain rfl : v.shape = sh := by rw [hsh] at hsh'; simpa using hsh'
    obtain ⟨f, hacc, rfl⟩ := advParse_ok hpos hP
    obtain ⟨w, ys, e, e2, e3, e4⟩ := hin _ _ _ hb
    rw [hops, List.map_cons, hv] at e
    obtain ⟨e0, e1⟩ := List.cons.inj e
    obtain rfl : v = w := by simpa using e0
    clear e e0
    have hinv := indexers_rows hidx
    have hfirst := hacc.first
    obtain ⟨y, ys, rfl⟩ : ∃ y ys', ys = y :: ys' := by
      cases ys with
      | cons y ys => exact ⟨y, ys, rfl⟩
      | nil =>
        cases xs with
        | cons p xs => simp at e1
        | nil =>
          have := hinv
          cases hl : idx.reduceOption with
          | nil => rw [hl] at hfirst; cases hfirst
          | cons f' l => rw [hl] at this; cases this
    have hsame : ∀ z ∈ y :: ys, z.data.length = y.data.length := e4
    have hyf : f.shape = y.shape := by
      cases xs with
      | nil => simp at e1
      | cons p xs =>
        cases hl : idx.reduceOption with
        | nil => rw [hl] at hfirst; cases hfirst
        | cons f' l =>
          rw [hl] at hinv hfirst
          cases hfirst
          obtain ⟨hI, _⟩ := List.forall₂_cons.1 hinv
          have hs1 : (t.row p).out.shapes = [f.shape] := hI.shape
          have hs2 := hshapes p (by simp)
          simp only [List.map_cons, List.cons.injEq] at e1
          rw [e1.1, hs1] at hs2
          simpa using hs2.symm
    have hrank : ∀ z ∈ y :: ys, z.shape.length = f.shape.length := by
      intro z hz
      obtain ⟨p, hp, hpz⟩ : ∃ p ∈ xs, vals p = [z] := by
        have : [z] ∈ xs.map vals := by rw [e1]; exact List.mem_map.2 ⟨z, hz, rfl⟩
        obtain ⟨p, hp, e⟩ := List.mem_map.1 this
        exact ⟨p, hp, e⟩
      obtain ⟨I, hI, hI2⟩ := forall₂_mem_right (List.Forall₂.flip hinv) hp
      have hs1 : (t.row p).out.shapes = [I.shape] := hI2.shape
      have hs2 := hshapes p hp
      rw [hpz, hs1] at hs2
      have hzI : z.shape = I.shape := by simpa using hs2
      rw [hzI]
      cases hl : idx.reduceOption with
      | nil => rw [hl] at hI; cases hI
      | cons f' l =>
        rw [hl] at hfirst hI
        cases hfirst
        rcases List.mem_cons.1 hI with rfl | hI
        · rfl
        · exact (hacc.agree I (by rw [hl]; exact hI)).2
    refine ⟨y, ys, e1, hacc.len, ⟨by rw [arrayDims_zip]; exact e3, fun z hz => ⟨hsame z hz, ?_, ?_⟩⟩, ?_, ?_⟩
    · rw [hrank z hz, hyf]
    · rw [hrank z hz]; exact hacc.rank
    · intro k hk
      rw [arrayDims_zip]
      exact index_inShape e3 hk hsame
    · have hnow : v.shapeNow = v.shape := by
        obtain ⟨w, data⟩ := v
        exact shapeNow_fixed fun d h => (hpos d h).le
      have hval := hf i hi
      have hdec : (t.row i).decision = false := by unfold Row.decision; rw [hb]; rfl
      rw [hdec] at hval
      simp only [Bool.false_eq_true, if_false] at hval
      have hopv : (t.row i).ops.map vals = [v] :: (y :: ys).map fun y => [y] := by rw [hops, List.map_cons, hv, e1]
      have hnode : (t.row i).node = (Built.advanced idx (advBuilt v.shape idx f) (t.row x).out.const).node (t.row i).ins (t.row i).out := by
        unfold Row.node; rw [hb]
      rw [hval, hopv, hnode]
      have hmap : ∀ l : List (Arr Rat), (l.map fun y => [y]).map single = l := by
        intro l
        rw [List.map_map]
        exact List.map_id _
      have hres : [(⟨(advBuilt v.shape idx f).shape, (advBuilt v.shape idx f).select v (y :: ys)⟩ : Arr Rat)] =
          [⟨advShape (idx.map Option.isSome) v.shape y.shape,
            advSelect (idx.map Option.isSome) v.shape v.data (Adv.indexAt (y :: ys)) y.data.length⟩] := by
        rw [hacc.shape_eq, hyf]
        unfold Adv.select
        rw [hnow]
        rfl
      cases hc : (t.row x).out.const with
      | none =>
        show [(⟨_, (advBuilt v.shape idx f).select (single [v]) (((y :: ys).map fun y => [y]).map single)⟩ : Arr Rat)] = _
        rw [hmap]
        exact hres
      | some a =>
        have hxl : x < t.length := lt_trans (hbef x (by rw [hops]; simp)) hi
        have := h.const_value hf hxl hc
        rw [hv] at this
        obtain rfl : v = a := by simpa using this
        show [(⟨_, (advBuilt v.shape idx f).select v (((y :: ys).map fun y => [y]).map single)⟩ : Arr Rat)] = _
        rw [hmap]
        exact hres

end Script

/-! ## What the indices are taken for -/

namespace PyIndex

theorem mixed_pad (idx : List PyIndex) (n : Nat) : (pad idx n).map mixed = padded (idx.map mixed) n := by
  simp [pad, padded, mixed, all, MixedIndex.all]

theorem symbols_append (a b : List PyIndex) : symbols (a ++ b) = symbols a ++ symbols b := List.filterMap_append

theorem symbols_pad (idx : List PyIndex) (n : Nat) : symbols (pad idx n) = symbols idx := by
  have : ∀ k, symbols (List.replicate k all) = [] := by
    intro k
    induction k with
    | zero => rfl
    | succ k ih => rw [List.replicate_succ]; exact ih
  unfold pad
  rw [symbols_append, this, List.append_nil]

theorem mapM_basic : ∀ {L : List PyIndex} {bs : List BasicIndex}, L.mapM basic? = some bs →
    bs = basics (L.map mixed) ∧ .array ∉ L.map mixed ∧ symbols L = []
  | [], bs, h => by
    simp at h
    subst h
    exact ⟨rfl, by simp, rfl⟩
  | i :: L, bs, h => by
    rw [List.mapM_cons] at h
    obtain ⟨b, hb, h⟩ := Option.bind_eq_some_iff.1 h
    obtain ⟨bs', hbs, h⟩ := Option.bind_eq_some_iff.1 h
    obtain ⟨h1, h2, h3⟩ := mapM_basic hbs
    simp only [Option.pure_def, Option.some.injEq] at h
    subst h h1
    cases i with
    | int i => cases hb; exact ⟨rfl, by simpa [mixed] using h2, h3⟩
    | slice a b c => cases hb; exact ⟨rfl, by simpa [mixed] using h2, h3⟩
    | symbol i => cases hb
    | other => cases hb

theorem mapM_advanced : ∀ {L : List PyIndex} {os : List (Option Nat)}, L.mapM advanced? = some os →
    os.map Option.isSome = axisKinds (L.map mixed) ∧ os.filterMap id = symbols L ∧
    (∀ b ∈ basics (L.map mixed), b = .slice none none none) ∧ (L.map mixed).map advanced = axisKinds (L.map mixed)
  | [], os, h => by
    simp at h
    subst h
    exact ⟨rfl, rfl, by simp [basics], rfl⟩
  | i :: L, os, h => by
    rw [List.mapM_cons] at h
    obtain ⟨o, ho, h⟩ := Option.bind_eq_some_iff.1 h
    obtain ⟨os', hos, h⟩ := Option.bind_eq_some_iff.1 h
    obtain ⟨h1, h2, h3, h4⟩ := mapM_advanced hos
    simp only [Option.pure_def, Option.some.injEq] at h
    subst h
    cases i with
    | int i => cases ho
    | slice a b c =>
      cases a <;> cases b <;> cases c <;> cases ho
      refine ⟨?_, h2, ?_, ?_⟩
      · rw [List.map_cons, List.map_cons, mixed, axisKinds_slice, ← h1]; rfl
      · simpa [basics, mixed] using h3
      · rw [List.map_cons, List.map_cons, mixed, axisKinds_slice, ← h4]; rfl
    | symbol i =>
      cases ho
      refine ⟨?_, ?_, ?_, ?_⟩
      · rw [List.map_cons, List.map_cons, mixed, axisKinds_array, ← h1]; rfl
      · show i :: os'.filterMap id = i :: symbols L
        rw [h2]
      · simpa [basics, mixed] using h3
      · rw [List.map_cons, List.map_cons, mixed, axisKinds_array, ← h4]; rfl
    | other => cases ho

theorem split_ok : ∀ {L : List PyIndex} {r : List BasicIndex × List (Option Nat)}, split L = .ok r →
    r.1 = basics (L.map mixed) ∧ r.2.map Option.isSome = axisKinds (L.map mixed) ∧ r.2.filterMap id = symbols L
  | [], r, h => by
    cases h
    exact ⟨rfl, rfl, rfl⟩
  | i :: L, r, h => by
    cases i with
    | other => cases h
    | int i =>
      obtain ⟨q, hq, h⟩ := Res.bind_eq_ok.1 h
      obtain ⟨h1, h2, h3⟩ := split_ok hq
      cases h
      exact ⟨congrArg (_ :: ·) h1, h2, h3⟩
    | slice a b c =>
      obtain ⟨q, hq, h⟩ := Res.bind_eq_ok.1 h
      obtain ⟨h1, h2, h3⟩ := split_ok hq
      cases h
      exact ⟨congrArg (_ :: ·) h1, congrArg (false :: ·) h2, h3⟩
    | symbol i =>
      obtain ⟨q, hq, h⟩ := Res.bind_eq_ok.1 h
      obtain ⟨h1, h2, h3⟩ := split_ok hq
      cases h
      exact ⟨congrArg (_ :: ·) h1, congrArg (true :: ·) h2, congrArg (i :: ·) h3⟩

end PyIndex

/-! ## Full slices -/

theorem ok_full : ∀ {shape : List Int} {idx : List MixedIndex}, (∀ b ∈ basics idx, b = .slice none none none) → idx.length = shape.length →
    Ok shape idx
  | [], [], _, _ => trivial
  | n :: shape, i :: idx, h, hl => by
    have ih := ok_full (shape := shape) (idx := idx) (fun b hb => h b (List.mem_cons_of_mem _ hb)) (by simpa using hl)
    cases i with
    | «at» i => cases h (.at i) (by simp [basics])
    | slice a b c => cases h (.slice a b c) (by simp [basics]); exact ⟨by simp, ih⟩
    | array => exact ih
  | [], _ :: _, _, hl => by simp at hl
  | _ :: _, [], _, hl => by simp at hl

theorem selectShape_full : ∀ {shape : List Int} {bs : List BasicIndex}, (∀ b ∈ bs, b = .slice none none none) → bs.length = shape.length →
    (∀ d ∈ shape, 0 ≤ d) → selectShape shape bs = shape
  | [], [], _, _, _ => rfl
  | n :: shape, b :: bs, h, hl, hd => by
    rw [h b (by simp)]
    show ((slicePositions none none none n.toNat).length : Int) :: selectShape shape bs = _
    rw [selectShape_full (fun b hb => h b (by simp [hb])) (by simpa using hl) (fun d hd' => hd d (by simp [hd'])), slicePositions_all,
      List.length_range, Int.toNat_of_nonneg (hd n (by simp))]
  | [], _ :: _, _, hl, _ => by simp at hl
  | _ :: _, [], _, hl, _ => by simp at hl

theorem liftCoords_full : ∀ {shape : List Int} {bs : List BasicIndex} {c : List Int}, (∀ b ∈ bs, b = .slice none none none) →
    bs.length = shape.length → InShape shape c → liftCoords shape bs c = c
  | [], [], [], _, _, _ => rfl
  | n :: shape, b :: bs, i :: c, h, hl, hc => by
    rw [h b (by simp)]
    show (((slicePositions none none none n.toNat).getD i.toNat 0 : Nat) : Int) :: liftCoords shape bs c = _
    rw [liftCoords_full (fun b hb => h b (by simp [hb])) (by simpa using hl) hc.2.2, slicePositions_all]
    have h0 := hc.1
    have h1 := hc.2.1
    have : (List.range n.toNat).getD i.toNat 0 = i.toNat := by
      rw [List.getD_eq_getElem?_getD, List.getElem?_range (by omega)]
      rfl
    rw [this, Int.toNat_of_nonneg h0]
  | [], _ :: _, _, _, hl, _ => by simp at hl
  | _ :: _, [], _, _, hl, _ => by simp at hl

/-- Taking everything first changes nothing. -/
theorem advSelect_full {kinds : List Bool} {shape : List Int} {bs : List BasicIndex} {data : List Rat} {index : Nat → List Int} {count : Nat}
    (h : ∀ b ∈ bs, b = .slice none none none) (hl : bs.length = shape.length) (hd : ∀ d ∈ shape, 0 ≤ d) (hk : kinds.length = shape.length)
    (hok : SelectOk shape bs) (hi : ∀ t < count, InShape (arrayDims kinds shape) (index t)) :
    advSelect kinds shape (basicSelect shape data bs) index count = advSelect kinds shape data index count := by
  unfold advSelect
  refine List.map_congr_left fun c hc => ?_
  obtain ⟨p, hp, hc⟩ := List.mem_flatMap.1 hc
  obtain ⟨t, ht, hc⟩ := List.mem_flatMap.1 hc
  obtain ⟨q, hq, rfl⟩ := List.mem_map.1 hc
  have hs : InShape (sliceDims kinds shape) (p ++ q) := by
    rw [← List.take_append_drop (advLeft kinds) (sliceDims kinds shape)]
    exact (mem_allCoords.1 hp).append (mem_allCoords.1 hq)
  have hin := InShape.merge hk (hi t (List.mem_range.1 ht)) hs
  have e := selectShape_full h hl hd
  have := basicSelect_getD hok (data := data) (c := mergeCoords kinds (index t) (p ++ q)) (by rw [e]; exact hin)
  rw [e, liftCoords_full h hl hin] at this
  exact this

theorem arrayDims_mixed : ∀ {shape : List Int} {idx : List MixedIndex}, Ok shape idx → (∀ d ∈ shape, 0 ≤ d) →
    arrayDims (axisKinds idx) (selectShape shape (basics idx)) = arrayAxes shape idx
  | [], [], _, _ => rfl
  | n :: shape, .at i :: idx, h, hd => arrayDims_mixed (shape := shape) (idx := idx) h.2 fun d hd' => hd d (by simp [hd'])
  | n :: shape, .slice a b c :: idx, h, hd => arrayDims_mixed (shape := shape) (idx := idx) h.2 fun d hd' => hd d (by simp [hd'])
  | n :: shape, .array :: idx, h, hd => by
    show ((slicePositions none none none n.toNat).length : Int) :: arrayDims (axisKinds idx) (selectShape shape (basics idx)) = _
    rw [arrayDims_mixed (shape := shape) (idx := idx) h fun d hd' => hd d (by simp [hd']), slicePositions_all, List.length_range, Int.toNat_of_nonneg (hd n (by simp))]
    rfl
  | [], _ :: _, h, _ => by cases h
  | _ :: _, [], h, _ => by cases h

theorem arrayAxes_none : ∀ {shape : List Int} {idx : List MixedIndex}, .array ∉ idx → arrayAxes shape idx = []
  | [], [], _ => rfl
  | [], _ :: _, _ => rfl
  | _ :: _, [], _ => rfl
  | n :: shape, .at i :: idx, h => arrayAxes_none (shape := shape) fun h' => h (List.mem_cons_of_mem _ h')
  | n :: shape, .slice a b c :: idx, h => arrayAxes_none (shape := shape) fun h' => h (List.mem_cons_of_mem _ h')
  | n :: shape, .array :: idx, h => absurd (List.mem_cons_self ..) h

theorem sliceDims_mem {d : Int} : ∀ {kinds : List Bool} {shape : List Int}, d ∈ sliceDims kinds shape → d ∈ shape
  | true :: kinds, _ :: shape, h => List.mem_cons_of_mem _ (sliceDims_mem (kinds := kinds) h)
  | false :: kinds, e :: shape, h => by
    rcases List.mem_cons.1 h with rfl | h
    · exact List.mem_cons_self
    · exact List.mem_cons_of_mem _ (sliceDims_mem (kinds := kinds) h)
  | [], _, h => by cases h
  | true :: _, [], h => by cases h
  | false :: _, [], h => by cases h

/-- What is known about the indices of `x[...]`: they are valid, the index arrays have at most one dimension and all the same number
of elements, and with index arrays the slices are not empty. -/
structure Picks (shape : List Int) (idx : List MixedIndex) (ys : List (Arr Rat)) : Prop where
  ok : Ok shape idx
  entries : IndexEntries (arrayAxes shape idx) ys
  alike : ∀ z ∈ ys, z.data.length = (ys.headD ⟨[], [0]⟩).data.length ∧ z.shape.length = (ys.headD ⟨[], [0]⟩).shape.length ∧
    z.shape.length ≤ 1
  filled : ys ≠ [] → ∀ l ∈ positions shape idx, l ≠ []

theorem picks_mixed {shape : List Int} {idx : List MixedIndex} {y : Arr Rat} {ys : List (Arr Rat)} (h : Ok shape idx)
    (hd : ∀ d ∈ shape, 0 ≤ d) (hpos : ∀ d ∈ selectShape shape (basics idx), 0 < d)
    (he : IndexEntries (arrayDims (axisKinds idx) (selectShape shape (basics idx))) (y :: ys))
    (hl : ∀ z ∈ y :: ys, z.data.length = y.data.length ∧ z.shape.length = y.shape.length ∧ z.shape.length ≤ 1) :
    Picks shape idx (y :: ys) := by
  refine ⟨h, by rw [← arrayDims_mixed h hd]; exact he, hl, fun _ l hl' e => ?_⟩
  have : ((l.length : Nat) : Int) ∈ sliceDims (axisKinds idx) (selectShape shape (basics idx)) := by
    rw [sliceDims_select h]
    exact List.mem_map.2 ⟨l, hl', rfl⟩
  have := hpos _ (sliceDims_mem this)
  rw [e] at this
  simp at this

theorem picks_basic {shape : List Int} {idx : List MixedIndex} (h : Ok shape idx) (hm : .array ∉ idx) : Picks shape idx [] :=
  ⟨h, by rw [arrayAxes_none hm]; exact .nil, by simp, fun h => absurd rfl h⟩

/-- Index arrays after integers and slices, as NumPy does both. -/
theorem numpyIndex_mixed {shape : List Int} {idx : List MixedIndex} {data : List Rat} {y : Arr Rat} {ys : List (Arr Rat)}
    (h : Ok shape idx) (hm : .array ∈ idx) (hl : SameLayout idx ∨ y.shape = [] ∧ y.data.length = 1)
    (hi : ∀ k < y.data.length, InShape (arrayDims (axisKinds idx) (selectShape shape (basics idx))) (Adv.indexAt (y :: ys) k) ∧
        Adv.indexAt (y :: ys) k = (y :: ys).map fun y => (y.data.getD k 0).floor) :
    (⟨advShape (axisKinds idx) (selectShape shape (basics idx)) y.shape,
      advSelect (axisKinds idx) (selectShape shape (basics idx)) (basicSelect shape data (basics idx)) (Adv.indexAt (y :: ys))
        y.data.length⟩ : Arr Rat) = numpyIndex shape data idx (y :: ys) := by
  rw [advSelect_basicSelect h fun t ht => (hi t ht).1]
  unfold numpyIndex advShape mixedShape
  rw [sliceDims_select h, List.headD_cons]
  have hcoord : ∀ L, mixedAt L shape idx (Adv.indexAt (y :: ys)) y.data.length =
      mixedAt L shape idx (fun t => (y :: ys).map fun y => (y.data.getD t 0).floor) y.data.length := by
    intro L
    unfold mixedAt
    refine List.flatMap_congr fun p _ => List.flatMap_congr fun t ht => ?_
    rw [(hi t (List.mem_range.1 ht)).2]
  have hmc : ∀ index count, mixedCoords shape idx index count = mixedAt (advLeft (idx.map advanced)) shape idx index count := fun _ _ => rfl
  rw [hmc, hcoord]
  rcases hl with hl | ⟨h1, h2⟩
  · rw [hl.left hm]
    rfl
  · rw [h1, h2, mixedAt_one, mixedAt_one]
    simp only [List.append_nil, List.take_append_drop]
    rfl

/-- Index arrays and full slices only. -/
theorem numpyIndex_full {shape : List Int} {idx : List MixedIndex} {data : List Rat} {y : Arr Rat} {ys : List (Arr Rat)}
    (hfull : ∀ b ∈ basics idx, b = .slice none none none) (hlen : idx.length = shape.length) (hd : ∀ d ∈ shape, 0 ≤ d)
    (hkinds : idx.map MixedIndex.advanced = axisKinds idx) (hm : .array ∈ idx)
    (hi : ∀ k < y.data.length, InShape (arrayDims (axisKinds idx) shape) (Adv.indexAt (y :: ys) k) ∧
        Adv.indexAt (y :: ys) k = (y :: ys).map fun y => (y.data.getD k 0).floor) :
    (⟨advShape (axisKinds idx) shape y.shape, advSelect (axisKinds idx) shape data (Adv.indexAt (y :: ys)) y.data.length⟩ : Arr Rat) =
      numpyIndex shape data idx (y :: ys) := by
  have hok := ok_full hfull hlen
  have hbl : (basics idx).length = shape.length := by rw [← hlen]; simp [basics]
  have hsf := selectShape_full hfull hbl hd
  have hkl : (axisKinds idx).length = shape.length := by rw [← hkinds, List.length_map, hlen]
  rw [← numpyIndex_mixed hok hm (Or.inl fun h => Or.inl (by rw [← hkinds]; exact h)) (by rw [hsf]; exact hi), hsf,
    advSelect_full hfull hbl hd hkl (selectOk_basics.1 hok) fun k hk => (hi k hk).1]

/-- No index arrays. -/
theorem numpyIndex_basic {shape : List Int} {idx : List MixedIndex} {data : List Rat} (h : Ok shape idx) (hm : .array ∉ idx) :
    (⟨selectShape shape (basics idx), basicSelect shape data (basics idx)⟩ : Arr Rat) = numpyIndex shape data idx [] := by
  unfold numpyIndex mixedShape basicSelect
  rw [selectShape_eq h hm, selectCoords_eq h hm]
  have hmc : ∀ index count, mixedCoords shape idx index count = mixedAt (advLeft (idx.map advanced)) shape idx index count := fun _ _ => rfl
  rw [hmc]
  simp only [List.headD_nil, List.append_nil, List.take_append_drop, List.length_singleton, mixedAt_one, List.map_nil]
  rfl

namespace PyIndex

theorem array_mem {L : List PyIndex} {i : Nat} {l : List Nat} (h : symbols L = i :: l) : .array ∈ L.map mixed := by
  have : i ∈ symbols L := by rw [h]; simp
  unfold symbols at this
  obtain ⟨a, ha, e⟩ := List.mem_filterMap.1 this
  cases a with
  | symbol j => exact List.mem_map.2 ⟨_, ha, rfl⟩
  | int _ => cases e
  | slice _ _ _ => cases e
  | other => cases e

theorem pad_length {idx : List PyIndex} {n : Nat} : (pad idx n).length = max idx.length n := by
  simp [pad]; omega

end PyIndex

namespace Script

variable {s s' t : Script} {A vals : Nat → Val}

/-- `x[...]` with an array symbol `x` of fixed size. -/
theorem Made.getitem_value (h : t.Made) (hf : t.Follows A vals) (hshapes : ∀ i < t.length, (vals i).map Arr.shape = (t.row i).out.shapes)
    (hone : ∀ i < t.length, ∀ a ∈ vals i, a.shape = [] → a.data.length = 1)
    (hbasic : ∀ i < t.length, ∀ sh idx P, (t.row i).built = .basic sh idx P → (∀ d ∈ sh, 0 ≤ d) →
      (∀ d ∈ sh, 0 ≤ d ∧ d ≤ ssMax) ∧ ∀ i ∈ idx, i.Fits)
    (hadv : ∀ i < t.length, ∀ idx P base, (t.row i).built = .advanced idx P base → ∀ d ∈ P.operand, 0 < d)
    (hbounds : ∀ i < t.length, (t.row i).InBounds vals) {x j : Nat} {idx : List PyIndex} (hg : s.getitemArray x idx = .ok (s', j))
    (ht : s' <+: t) (hfixed : ∀ d ∈ (t.row x).out.shape, 0 ≤ d)
    (hl : SameLayout (padded (idx.map PyIndex.mixed) (t.row x).out.shape.length) ∨
      ∀ i ∈ PyIndex.symbols idx, (t.row i).out.shape = []) :
    ∃ v ys, vals x = [v] ∧ (PyIndex.symbols idx).map vals = ys.map (fun y => [y]) ∧
      Picks v.shape (padded (idx.map PyIndex.mixed) v.shape.length) ys ∧
      vals j = [numpyIndex v.shape v.data (padded (idx.map PyIndex.mixed) v.shape.length) ys] := by
  -- the operand of an indexing symbol
  have operand : ∀ {i x : Nat}, i < t.length → x < t.length → (t.row x).out.shapes = [(t.row x).out.shape] →
      ∃ v, vals x = [v] ∧ (t.row x).out.shapes = [v.shape] ∧ v.shape = (t.row x).out.shape := by
    intro i x hi hx e
    have := hshapes x hx
    rw [e] at this
    obtain ⟨v, hv, hv2⟩ := List.map_eq_singleton_iff.1 this
    exact ⟨v, hv, by rw [e, hv2], hv2⟩
  have pos : ∀ {i x : Nat} {xs : List Nat} {idx P base}, i < t.length → (t.row i).built = .advanced idx P base → (t.row i).ops = x :: xs →
      (t.row x).out.shapes = [(t.row x).out.shape] ∧ ∀ d ∈ (t.row x).out.shape, 0 < d := by
    intro i x xs idx P base hi hb hops
    have hp := hadv i hi _ _ _ hb
    obtain ⟨sizes, _, _, _, how⟩ := h.how hi
    cases how with
    | kind hb' => rw [hb] at hb'; cases hb'
    | basic hb' => rw [hb] at hb'; cases hb'
    | permutation hb' => rw [hb] at hb'; cases hb'
    | advanced hb' hops' hsh' hidx hP ho =>
      rw [hb] at hb'
      cases hb'
      rw [hops] at hops'
      obtain ⟨rfl, rfl⟩ := List.cons.inj hops'
      have e : (t.row x).out.shape = _ := congrArg Kind.shape1 hsh'
      rw [advParse_operand hP] at hp
      exact ⟨by rw [hsh']; exact congrArg (fun l => [l]) e.symm, by rw [e]; exact hp⟩
  have bshape : ∀ {i x : Nat} {sh idx P}, i < t.length → (t.row i).built = .basic sh idx P → (t.row i).ops = [x] →
      (t.row x).out.shapes = [(t.row x).out.shape] ∧ (t.row x).out.shape = sh := by
    intro i x sh idx P hi hb hops
    obtain ⟨sizes, _, _, _, how⟩ := h.how hi
    cases how with
    | kind hb' => rw [hb] at hb'; cases hb'
    | advanced hb' => rw [hb] at hb'; cases hb'
    | permutation hb' => rw [hb] at hb'; cases hb'
    | basic hb' hops' _ hsh' =>
      rw [hb] at hb'
      cases hb'
      rw [hops] at hops'
      obtain ⟨rfl, -⟩ := List.cons.inj hops'
      have e : (t.row x).out.shape = _ := congrArg Kind.shape1 hsh'
      exact ⟨by rw [hsh']; exact congrArg (fun l => [l]) e.symm, e⟩
  -- indexing with integers and slices
  have basic : ∀ {s s' : Script} {x j : Nat} {bs : List BasicIndex}, s.basicIndexing x bs = .ok (s', j) → s' <+: t →
      (∀ d ∈ (t.row x).out.shape, 0 ≤ d) → x < s.length ∧ s <+: t ∧ j < t.length ∧
      ∃ v, vals x = [v] ∧ v.shape = (t.row x).out.shape ∧ SelectOk v.shape bs ∧
        vals j = [⟨selectShape v.shape bs, basicSelect v.shape v.data bs⟩] ∧ (t.row j).out.shapes = [selectShape v.shape bs] := by
    intro s s' x j bs hg ht hd
    unfold Script.basicIndexing at hg
    obtain ⟨_, _, hg⟩ := Res.bind_eq_ok.1 hg
    obtain ⟨hj, hs, ⟨hops, sh, P, hb⟩, hx⟩ := add_made hg ht
    have hx := hx x (by simp)
    have hx' := lt_of_lt_of_le hx hs.length_le
    obtain ⟨e1, e2⟩ := bshape hj hb hops
    obtain ⟨v, hv, hv2, hv3⟩ := operand hj hx' e1
    obtain ⟨hd', hfit⟩ := hbasic j hj _ _ _ hb (by rw [← e2]; exact hd)
    obtain ⟨h1, h2, h3, h4⟩ := h.basic_value hf hj hb hops hd' hfit hv hv2
    subst h1
    exact ⟨hx, hs, hj, v, hv, hv3, h2, h4, h3⟩
  -- indexing with arrays
  have adv : ∀ {s s' : Script} {x j : Nat} {os : List (Option Nat)}, s.advancedIndexing x os = .ok (s', j) → s' <+: t →
      x < s.length ∧ s <+: t ∧ ∃ v y ys, vals x = [v] ∧ v.shape = (t.row x).out.shape ∧ (∀ d ∈ v.shape, 0 < d) ∧
        (os.filterMap id).map vals = (y :: ys).map (fun y => [y]) ∧ os.length = v.shape.length ∧
        (∀ p ∈ os.filterMap id, p < t.length) ∧
        (IndexEntries (arrayDims (os.map Option.isSome) v.shape) (y :: ys) ∧
          ∀ z ∈ y :: ys, z.data.length = y.data.length ∧ z.shape.length = y.shape.length ∧ z.shape.length ≤ 1) ∧
        (∀ k < y.data.length, InShape (arrayDims (os.map Option.isSome) v.shape) (Adv.indexAt (y :: ys) k) ∧
          Adv.indexAt (y :: ys) k = (y :: ys).map fun y => (y.data.getD k 0).floor) ∧
        vals j = [⟨advShape (os.map Option.isSome) v.shape y.shape,
          advSelect (os.map Option.isSome) v.shape v.data (Adv.indexAt (y :: ys)) y.data.length⟩] := by
    intro s s' x j os hg ht
    unfold Script.advancedIndexing at hg
    obtain ⟨hj, hs, ⟨hops, idx, P, base, hb, hslots⟩, hx⟩ := add_made hg ht
    have hx1 := hx x (by simp)
    have hx' := lt_of_lt_of_le hx1 hs.length_le
    obtain ⟨e1, e2⟩ := pos hj hb hops
    obtain ⟨v, hv, hv2, hv3⟩ := operand hj hx' e1
    have hps : ∀ p ∈ os.filterMap id, p < t.length := fun p hp => lt_of_lt_of_le (hx p (by simp only [List.mem_cons]; exact Or.inr hp)) hs.length_le
    obtain ⟨y, ys, h1, h2, h3, h4, h5⟩ := h.advanced_value hf hj hb hops hv hv2 (by rw [hv3]; exact e2)
      (fun p hp => hshapes p (hps p hp)) (hbounds j hj)
    rw [hslots] at h3 h4 h5
    refine ⟨hx1, hs, v, y, ys, hv, hv3, by rw [hv3]; exact e2, h1, ?_, hps, h3, h4, h5⟩
    rw [← h2, ← List.length_map (f := Option.isSome) (as := idx), hslots, List.length_map]
  have dimless : ∀ {L : List PyIndex} {y ys}, (∀ p ∈ PyIndex.symbols L, p < t.length) →
      (PyIndex.symbols L).map vals = (y :: ys).map (fun y => [y]) → (∀ i ∈ PyIndex.symbols L, (t.row i).out.shape = []) →
      y.shape = [] ∧ y.data.length = 1 := by
    intro L y ys hlt e hnil
    cases hS : PyIndex.symbols L with
    | nil => rw [hS] at e; simp at e
    | cons p l =>
      rw [hS] at e hlt hnil
      simp only [List.map_cons, List.cons.injEq] at e
      have h1 := hshapes p (hlt p (by simp))
      rw [e.1] at h1
      have h2 : (t.row p).out.shape = y.shape := congrArg Kind.shape1 h1.symm
      have h3 : y.shape = [] := by rw [← h2]; exact hnil p (by simp)
      exact ⟨h3, hone p (hlt p (by simp)) y (by rw [e.1]; simp) h3⟩
  unfold Script.getitemArray at hg
  simp only at hg
  set L := PyIndex.pad idx (s.row x).out.shape.length with hL
  have sym : PyIndex.symbols L = PyIndex.symbols idx := PyIndex.symbols_pad _ _
  split at hg
  · rename_i bs hbs
    obtain ⟨e1, e2, e3⟩ := PyIndex.mapM_basic hbs
    obtain ⟨hx, hs, _, v, hv, hv2, hok, hj, _⟩ := basic hg ht hfixed
    have hLm : L.map PyIndex.mixed = padded (idx.map PyIndex.mixed) v.shape.length := by
      rw [hL, PyIndex.mixed_pad, hv2, row_prefix hs hx]
    rw [e1, hLm] at hok hj
    rw [hLm] at e2
    refine ⟨v, [], hv, by rw [← sym, e3]; rfl, picks_basic (selectOk_basics.2 hok) e2, ?_⟩
    rw [hj, numpyIndex_basic (selectOk_basics.2 hok) e2]
  · split at hg
    · rename_i os hos
      obtain ⟨e1, e2, e3, e4⟩ := PyIndex.mapM_advanced hos
      obtain ⟨hx, hs, v, y, ys, hv, hv2, hpos, hxs, hlen, hlt, halike, hk, hj⟩ := adv hg ht
      have hLm : L.map PyIndex.mixed = padded (idx.map PyIndex.mixed) v.shape.length := by
        rw [hL, PyIndex.mixed_pad, hv2, row_prefix hs hx]
      rw [e2] at hxs
      have hm : .array ∈ L.map PyIndex.mixed := by
        cases hS : PyIndex.symbols L with
        | nil => rw [hS] at hxs; simp at hxs
        | cons p l => exact PyIndex.array_mem hS
      have hlenL : (L.map PyIndex.mixed).length = v.shape.length := by
        rw [← List.length_map (f := MixedIndex.advanced), e4, ← e1, List.length_map, hlen]
      rw [e1] at hk hj halike
      rw [hLm] at e3 e4 hm hlenL hk hj halike
      have hsf := selectShape_full e3 (by rw [basics, List.length_map]; exact hlenL) fun d hd => (hpos d hd).le
      refine ⟨v, y :: ys, hv, by rw [← sym, hxs], picks_mixed (ok_full e3 hlenL) (fun d hd => (hpos d hd).le) (by rw [hsf]; exact hpos)
        (by rw [hsf]; exact halike.1) halike.2, ?_⟩
      rw [hj, ← numpyIndex_full e3 hlenL (fun d hd => (hpos d hd).le) e4 hm hk]
    · obtain ⟨r, hr, hg⟩ := Res.bind_eq_ok.1 hg
      obtain ⟨b, hb, hg⟩ := Res.bind_eq_ok.1 hg
      obtain ⟨bs', bj⟩ := b
      obtain ⟨e1, e2, e3⟩ := PyIndex.split_ok hr
      obtain ⟨hx2, hs2, w, y, ys, hw, hw2, hpos, hxs, hlen, hlt, halike, hk, hj⟩ := adv hg ht
      obtain ⟨hx, hs, _, v, hv, hv2, hok, hbj, _⟩ := basic hb hs2 hfixed
      have hLm : L.map PyIndex.mixed = padded (idx.map PyIndex.mixed) v.shape.length := by
        rw [hL, PyIndex.mixed_pad, hv2, row_prefix hs hx]
      rw [hbj] at hw
      obtain rfl : _ = w := by simpa using hw
      rw [e3] at hxs hlt
      have hm : .array ∈ L.map PyIndex.mixed := by
        cases hS : PyIndex.symbols L with
        | nil => rw [hS] at hxs; simp at hxs
        | cons p l => exact PyIndex.array_mem hS
      rw [e1] at hok hpos
      rw [e1, e2] at hk hj halike
      rw [hLm] at hok hk hj hm halike hpos
      have hok := selectOk_basics.2 hok
      refine ⟨v, y :: ys, hv, by rw [← sym, hxs], picks_mixed hok (by rw [hv2]; exact hfixed) hpos halike.1 halike.2, ?_⟩
      rw [hj, ← numpyIndex_mixed hok hm ?_ hk]
      rw [hv2]
      exact hl.imp id fun hl => dimless hlt hxs (by rw [sym]; exact hl)

/-- Taking columns and rows with the same order. -/
theorem permSelect_columns (n : Nat) (data : List Rat) (order : Nat → Int) (ho : ∀ i, i < n → 0 ≤ order i ∧ order i < n) :
    permSelect [(n : Int), (n : Int)] data (fun i => order i.toNat) =
      advSelect [true, false] [(n : Int), (n : Int)]
        (advSelect [false, true] [(n : Int), (n : Int)] data (fun t => [order t]) n) (fun t => [order t]) n := by
  rcases Nat.eq_zero_or_pos n with h0 | hn
  · subst h0; rfl
  have e1 : advSelect [false, true] [(n : Int), (n : Int)] data (fun t => [order t]) n =
      (List.range (n * n)).map fun t => data.getD (((t / n : Nat) : Int) * n + order (t % n)).toNat default := by
    unfold advSelect
    rw [advCoords_eq (by simp [sliceDims, advLeft, separated, leading, List.findIdx_cons])]
    have : (sliceDims [false, true] [(n : Int), (n : Int)]).insertIdx (advLeft [false, true]) (n : Int) = [(n : Int), (n : Int)] := rfl
    rw [this, allCoords_square hn, List.map_map]
    apply List.map_congr_left
    intro t _
    have hleft : advLeft [false, true] = 1 := rfl
    simp only [Function.comp_apply, hleft, List.map_cons, List.map_nil, rowMajor, shapeProd, mul_one, add_zero, Int.toNat_natCast,
      List.getD_cons_succ, List.getD_cons_zero, List.eraseIdx_cons_succ, List.eraseIdx_zero, List.tail_cons, mergeCoords]
  rw [e1]
  unfold advSelect
  rw [advCoords_eq (Nat.zero_le _)]
  have : (sliceDims [true, false] [(n : Int), (n : Int)]).insertIdx (advLeft [true, false]) (n : Int) = [(n : Int), (n : Int)] := rfl
  rw [this, allCoords_square hn, List.map_map]
  unfold permSelect
  rw [allCoords_square hn]
  apply List.map_congr_left
  intro t ht
  have ht := List.mem_range.1 ht
  have hd := Nat.div_lt_of_lt_mul ht
  have hmod := Nat.mod_lt t hn
  obtain ⟨h1, h2⟩ := ho (t / n) hd
  have hleft : advLeft [true, false] = 0 := rfl
  simp only [Function.comp_apply, hleft, List.map_cons, List.map_nil, rowMajor, shapeProd, mul_one, add_zero, Int.toNat_natCast,
    List.getD_cons_succ, List.getD_cons_zero, List.eraseIdx_cons_succ, List.eraseIdx_zero, List.tail_cons, mergeCoords]
  obtain ⟨k, hk⟩ := Int.eq_ofNat_of_zero_le h1
  rw [hk] at h2 ⊢
  have hkn : k < n := by exact_mod_cast h2
  have e2 : ((k : Int) * (n : Int) + ((t % n : Nat) : Int)).toNat = k * n + t % n := by
    rw [← Nat.cast_mul, ← Nat.cast_add, Int.toNat_natCast]
  rw [e2]
  have hlt : k * n + t % n < n * n := by
    have : (k + 1) * n ≤ n * n := Nat.mul_le_mul_right _ hkn
    rw [add_mul] at this
    omega
  conv_rhs => rw [List.getD_eq_getElem?_getD, List.getElem?_map, List.getElem?_range hlt]
  simp only [Option.map_some, Option.getD_some]
  rw [mul_comm k n, Nat.mul_add_div hn, Nat.div_eq_of_lt hmod, add_zero, Nat.mul_add_mod, Nat.mod_eq_of_lt hmod]

/-- What `A[i, :][:, i]` needs. -/
theorem permutes_some {x : Nat} {idx : List PyIndex} {A i : Nat} (h : s.permutes x idx = some (A, i)) :
    ∃ f P a, (s.row x).ops = [A, i] ∧ a.shape.length = 2 ∧ a.shape[0]? = a.shape[1]? ∧
      ((s.row x).built = .advanced [some f, none] P (some a) ∧ idx = [.all, .symbol i] ∨
       (s.row x).built = .advanced [none, some f] P (some a) ∧ idx = [.symbol i, .all]) := by
  unfold Script.permutes at h
  split at h
  · rename_i hb ho
    split_ifs at h with hc
    obtain ⟨h1, h2, h3⟩ := hc
    cases h
    subst h3
    exact ⟨_, _, _, ho, h1, h2, .inl ⟨hb, rfl⟩⟩
  · rename_i hb ho
    split_ifs at h with hc
    obtain ⟨h1, h2, h3⟩ := hc
    cases h
    subst h3
    exact ⟨_, _, _, ho, h1, h2, .inr ⟨hb, rfl⟩⟩
  · cases h

/-- The value of `A[i, :][:, i]` and `A[:, i][i, :]`. -/
theorem Made.permutation_value (h : t.Made) (hf : t.Follows A vals)
    (hshapes : ∀ i < t.length, (vals i).map Arr.shape = (t.row i).out.shapes ∧ ∀ a ∈ vals i, a.WF) {x j : Nat} {idx : List PyIndex}
    (hp : s.permutes x idx ≠ none) (hg : s.getitem x idx = .ok (s', j)) (ht : s' <+: t) (hx : x < s.length)
    (hreg : (t.row x).Regular) (hin : (t.row x).InBounds vals) :
    ∃ v y, vals x = [v] ∧ (PyIndex.symbols idx).map vals = [[y]] ∧ (∃ n : Nat, v.shape = [(n : Int), (n : Int)]) ∧ idx.length = 2 ∧
      Picks v.shape (idx.map PyIndex.mixed) [y] ∧ vals j = [numpyIndex v.shape v.data (idx.map PyIndex.mixed) [y]] := by
  obtain ⟨⟨u, i⟩, hp⟩ := Option.ne_none_iff_exists'.1 hp
  unfold Script.getitem at hg
  rw [hp] at hg
  dsimp only at hg
  obtain ⟨hj, hs, ⟨hops, a', hb⟩, _⟩ := add_made hg ht
  obtain ⟨f, P, a, hxo, hl2, hsq, hcase⟩ := permutes_some hp
  rw [← row_prefix hs hx] at hxo hcase
  have hx' := lt_of_lt_of_le hx hs.length_le
  -- the permutation
  obtain ⟨sizes, _, _, _, how⟩ := h.how hj
  cases how with
  | kind hb' => rw [hb] at hb'; cases hb'
  | basic hb' => rw [hb] at hb'; cases hb'
  | advanced hb' => rw [hb] at hb'; cases hb'
  | @permutation a2 u2 i2 sh hb' _ hops' hc hshu hshi =>
  rw [hb] at hb'
  cases hb'
  rw [hops] at hops'
  obtain ⟨hu2, hi2⟩ : u = u2 ∧ i = i2 := by simpa using hops'
  subst hu2 hi2
  clear hops'
  -- the matrix
  have hxbuilt : ∃ idx', (t.row x).built = .advanced idx' P (some a) ∧
      (idx'.map Option.isSome = [true, false] ∧ idx = [.all, .symbol i] ∨ idx'.map Option.isSome = [false, true] ∧ idx = [.symbol i, .all]) := by
    rcases hcase with ⟨h1, h2⟩ | ⟨h1, h2⟩
    · exact ⟨_, h1, .inl ⟨rfl, h2⟩⟩
    · exact ⟨_, h1, .inr ⟨rfl, h2⟩⟩
  obtain ⟨idx', hxb, hcase⟩ := hxbuilt
  obtain ⟨sizes2, hbef, _, _, how⟩ := h.how hx'
  cases how with
  | kind hb' => rw [hxb] at hb'; cases hb'
  | basic hb' => rw [hxb] at hb'; cases hb'
  | permutation hb' => rw [hxb] at hb'; cases hb'
  | @advanced x' xs' sh2 slots idx2 P2 z hb' hops2 hsh2 hidx hP ho =>
  rw [hxb] at hb'
  rw [hxo] at hops2
  obtain ⟨rfl, rfl⟩ := List.cons.inj hops2
  injection hb' with q1 q2 q3
  subst q1 q2
  rw [hc] at q3
  injection q3 with q3
  subst q3
  have hul : u < t.length := lt_trans (hbef u (by rw [hxo]; simp)) hx'
  have hil : i < t.length := lt_trans (hbef i (by rw [hxo]; simp)) hx'
  have hua := h.const_value hf hul hc
  obtain rfl : sh = sh2 := by rw [hshu] at hsh2; simpa using hsh2
  obtain rfl : a.shape = sh := by
    have := (hshapes u hul).1
    rw [hua, hshu] at this
    simpa using this
  have hpos : ∀ d ∈ a.shape, 0 < d := by
    unfold Row.Regular at hreg
    rw [hxb] at hreg
    have := hreg.1
    rw [advParse_operand hP] at this
    exact this
  obtain ⟨y, ys, h1, h2, h3, h4, h5⟩ := h.advanced_value hf hx' hxb hxo hua hshu hpos
    (fun p hp => (hshapes p (by simp only [List.mem_singleton] at hp; subst hp; exact hil)).1) hin
  obtain ⟨hiy, hys⟩ : vals i = [y] ∧ ys = [] := by
    simp only [List.map_cons, List.map_nil, List.cons.injEq] at h1
    exact ⟨h1.1, List.map_eq_nil_iff.1 h1.2.symm⟩
  subst hys
  clear h1
  obtain ⟨n, hn⟩ : ∃ n : Nat, a.shape = [(n : Int), (n : Int)] := by
    match e : a.shape, hl2, hsq, hpos with
    | [p, q], _, hsq, hpos =>
      simp only [List.getElem?_cons_zero, List.getElem?_cons_succ, Option.some.injEq] at hsq
      subst hsq
      exact ⟨p.toNat, by rw [Int.toNat_of_nonneg (hpos p (by simp)).le]⟩
  have hyw := (hshapes i hil).2 y (by rw [hiy]; simp)
  have hysh : y.shape = [(n : Int)] := by
    have := (hshapes i hil).1
    rw [hiy, hshi, hn] at this
    simpa using this
  have hylen : y.data.length = n := by
    obtain ⟨ysh, ydata⟩ := y
    obtain rfl : ysh = [(n : Int)] := hysh
    exact order_length hyw
  have hval := hf j hj
  have hdec : (t.row j).decision = false := by unfold Row.decision; rw [hb]; rfl
  rw [hdec] at hval
  simp only [Bool.false_eq_true, if_false] at hval
  have hjv : vals j = [permValue a [y]] := by
    rw [hval, hops]
    unfold Row.node
    rw [hb]
    show [permValue a (([u, i].map vals).tail.map single)] = _
    simp only [List.map_cons, List.map_nil, List.tail_cons, hiy]
    rfl
  rw [hn, hylen] at h5
  rw [hn, hylen] at h4
  have hord : ∀ k, k < n → 0 ≤ toSS (y.data.getD k 0) ∧ toSS (y.data.getD k 0) < n := by
    intro k hk
    have := (h4 k hk).1
    have e : Adv.indexAt [y] k = [toSS (y.data.getD k 0)] := rfl
    rw [e] at this
    rcases hcase with ⟨hsl, _⟩ | ⟨hsl, _⟩
    · rw [hsl] at this
      exact ⟨this.1, this.2.1⟩
    · rw [hsl] at this
      exact ⟨this.1, this.2.1⟩
  have hpv : permValue a [y] = ⟨[(n : Int), (n : Int)], permSelect [(n : Int), (n : Int)] a.data (fun i => toSS (y.data.getD i.toNat 0))⟩ := by
    unfold permValue
    rw [hn]
    rfl
  have hn0 : (0 : Int) < n := hpos n (by rw [hn]; simp)
  have hent : ∀ v ∈ y.data, ∃ k : Nat, v = k ∧ (k : Int) < n := by
    have := h3.1
    rw [hn] at this
    rcases hcase with ⟨hsl, _⟩ | ⟨hsl, _⟩ <;> rw [hsl] at this <;> exact (List.forall₂_cons.1 this).1
  have hnn : ∀ d ∈ [(n : Int), (n : Int)], 0 < d := by
    intro d hd
    simp only [List.mem_cons, List.not_mem_nil, or_false, or_self] at hd
    rw [hd]
    exact hn0
  have hnr : (slicePositions none none none n) ≠ [] := by
    rw [slicePositions_all]
    intro e
    have := congrArg List.length e
    simp at this
    omega
  refine ⟨_, y, h5, ?_, ?_, ?_, ?_, ?_⟩
  · rcases hcase with ⟨_, e⟩ | ⟨_, e⟩ <;> subst e <;> show [vals i] = _ <;> rw [hiy]
  · exact ⟨n, by rcases hcase with ⟨hsl, _⟩ | ⟨hsl, _⟩ <;> rw [hsl, hysh] <;> rfl⟩
  · rcases hcase with ⟨_, e⟩ | ⟨_, e⟩ <;> subst e <;> rfl
  · have one : ∀ z ∈ [y], z.data.length = y.data.length ∧ z.shape.length = y.shape.length ∧ z.shape.length ≤ 1 := by
      intro z hz
      obtain rfl := List.mem_singleton.1 hz
      exact ⟨rfl, rfl, by rw [hysh]; simp⟩
    rcases hcase with ⟨hsl, e⟩ | ⟨hsl, e⟩
    · subst e
      rw [hsl, hysh]
      refine ⟨⟨by decide, trivial⟩, .cons hent .nil, one, fun _ l hl => ?_⟩
      rw [List.mem_singleton.1 hl]
      exact hnr
    · subst e
      rw [hsl, hysh]
      refine ⟨⟨by decide, trivial⟩, .cons hent .nil, one, fun _ l hl => ?_⟩
      rw [List.mem_singleton.1 hl]
      exact hnr
  · rw [hjv, hpv]
    congr 1
    rcases hcase with ⟨hsl, e⟩ | ⟨hsl, e⟩
    · subst e
      rw [hsl, hysh]
      rw [C33_composition n a.data (fun t => toSS (y.data.getD t 0)) hord]
      refine Eq.trans ?_ (numpyIndex_full (idx := [.all, .array]) (shape := [(n : Int), (n : Int)]) (ys := []) (by decide) rfl ?_ rfl (by decide) ?_)
      · rw [hysh, hylen]; rfl
      · intro d hd
        simp only [List.mem_cons, List.not_mem_nil, or_false, or_self] at hd
        subst hd
        exact Int.natCast_nonneg _
      · intro k hk
        rw [hylen] at hk
        exact ⟨⟨(hord k hk).1, (hord k hk).2, trivial⟩, (h4 k hk).2⟩
    · subst e
      rw [hsl, hysh]
      rw [permSelect_columns n a.data (fun t => toSS (y.data.getD t 0)) hord]
      refine Eq.trans ?_ (numpyIndex_full (idx := [.array, .all]) (shape := [(n : Int), (n : Int)]) (ys := []) (by decide) rfl ?_ rfl (by decide) ?_)
      · rw [hysh, hylen]; rfl
      · intro d hd
        simp only [List.mem_cons, List.not_mem_nil, or_false, or_self] at hd
        subst hd
        exact Int.natCast_nonneg _
      · intro k hk
        rw [hylen] at hk
        exact ⟨⟨(hord k hk).1, (hord k hk).2, trivial⟩, (h4 k hk).2⟩

end Script

end Verif
