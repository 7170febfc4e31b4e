import Verif.Lemmas.ScriptBasic

set_option linter.unusedSectionVars false
set_option linter.unusedSimpArgs false
set_option linter.unusedVariables false

/-! Helper lemmas: advanced indexing in programs that build models. -/

namespace Verif

theorem SizeInfo.beq_self (s : SizeInfo) : s.beq s = true := by
  unfold SizeInfo.beq
  split_ifs <;> simp_all

theorem shapeEqual_of_beq {sizes : Nat → SizeInfo} {fuel l r : Nat} (h : (sizes l).beq (sizes r) = true) :
    shapeEqual sizes fuel l r = .ok true := by
  unfold shapeEqual
  rw [if_pos h]

theorem map_getD_all (l : List Rat) : (List.range l.length).map (fun i => l.getD i 0) = l := by
  apply List.ext_getElem
  · simp
  · intro i h1 h2
    simp [List.getD_eq_getElem?_getD, List.getElem?_eq_getElem h2]

theorem flatMap_one {α β : Type} (l : List α) (f : α → β) : (l.flatMap fun i => [f i]) = l.map f := by
  induction l with
  | nil => rfl
  | cons x l ih => simp [List.flatMap_cons, ih]

namespace Script

variable {full : Prop} {P : Nat → Prop} {s s' s'' : Script} {A vals : Nat → Val} {D : Nat → Prop} {adm : (Nat → Val) → Prop}

/-- An array that can index an axis of size `d`: what it declares fits, and its values are what it declares. -/
structure IsIndex (P : Nat → Prop) (s : Script) (adm : (Nat → Val) → Prop) (d : Nat) (i : Nat) (t : List Int) (c : Claim) (size : SizeInfo)
    (const : Option (Arr Rat)) (g : (Nat → Val) → List Rat) : Prop where
  has : HasArr P s i t (.ok c) size const g
  integral : c.integral = true
  low : 0 ≤ c.range.lo
  high : c.range.hi < d
  values : ∀ A, adm A → ∀ v ∈ g A, v.den = 1 ∧ c.range.lo ≤ v ∧ v ≤ c.range.hi

theorem IsIndex.mono {d i : Nat} {t : List Int} {c : Claim} {size : SizeInfo} {const : Option (Arr Rat)} {g : (Nat → Val) → List Rat}
    (h : IsIndex P s adm d i t c size const g) (e : Ext P s s') : IsIndex P s' adm d i t c size const g :=
  ⟨h.has.mono e, h.integral, h.low, h.high, h.values⟩

/-- The index a value stands for. -/
theorem toSS_of_den {v : Rat} (h : v.den = 1) : ((toSS v : Int) : Rat) = v := by
  unfold toSS
  rw [h]
  simp only [Nat.cast_one, Int.tdiv_one]
  exact Rat.coe_int_num_of_den_eq_one h

theorem IsIndex.range {d i : Nat} {t : List Int} {c : Claim} {size : SizeInfo} {const : Option (Arr Rat)} {g : (Nat → Val) → List Rat}
    (h : IsIndex P s adm d i t c size const g) (hA : adm A) {v : Rat} (hv : v ∈ g A) : 0 ≤ toSS v ∧ toSS v < d := by
  obtain ⟨h1, h2, h3⟩ := h.values A hA v hv
  have e := toSS_of_den h1
  have a1 : (0 : Rat) ≤ v := le_trans h.low h2
  have a2 : v < (d : Rat) := lt_of_le_of_lt h3 h.high
  rw [← e] at a1 a2
  exact ⟨by exact_mod_cast a1, by exact_mod_cast a2⟩

/-- `x[indices]`: the general step. -/
theorem State.advanced (S : State full P s D adm) (hP : P s.length) {x : Nat} {sh : List Int} {claim : Res Claim} {z : Int}
    {const : Option (Arr Rat)} {g : (Nat → Val) → List Rat} (hx : HasArr P s x sh claim (.fixed z) const g)
    (hconst : ∀ a, const = some a → a.shape = sh ∧ a.WF ∧ ∀ A, adm A → g A = a.data)
    {slots : List Bool} {xs : List Nat} {qs : List (Info × ((Nat → Val) → Val))} {ys : (Nat → Val) → List (Arr Rat)}
    {idx : List (Option Indexer)} {f : Indexer}
    (hqs : List.Forall₂ (fun p (q : Info × ((Nat → Val) → Val)) => Has P s p q.1 q.2) xs qs)
    (hys : ∀ A, adm A → (qs.map fun q => q.2 A) = (ys A).map fun y => [y])
    (hidx : indexers s.sizes (s.length + 1) none slots (xs.zip (qs.map Prod.fst)) = .ok idx)
    (hacc : AdvAccept sh idx f) (hd : ∀ d ∈ sh, 0 < d) (hl : leading (idx.map Option.isSome) = 0)
    (hsep : separated (idx.map Option.isSome) = false)
    (hin : ∀ A, adm A → AdvInputs idx (ys A)) :
    ∃ s', s.add (.advanced slots) (x :: xs) = .ok (s', s.length) ∧
      NextArr full P s s' D adm (f.shape ++ sliceDims (idx.map Option.isSome) sh) claim
        (if dynamicShape (f.shape ++ sliceDims (idx.map Option.isSome) sh) then .of (xs.headD 0) none none
          else .fixed (f.shape ++ sliceDims (idx.map Option.isSome) sh).prod) none
        (fun A => advSelect (idx.map Option.isSome) sh (g A) (Adv.indexAt (ys A)) ((ys A).headD ⟨[], []⟩).data.length) := by
  have hne : sh ≠ [] := by
    rintro rfl
    have := hacc.len
    have := hacc.first
    simp_all
  have hparse := (advParse_fixed (minSize := some z) (idx := idx) (fun d h => (hd d h).le) hne).1 f hacc
  have hshape : (advBuilt sh idx f).shape = f.shape ++ sliceDims (idx.map Option.isSome) sh := by
    rw [hacc.shape_eq]
    unfold advShape advLeft
    simp [hsep, hl]
  have hfix : dynamicShape sh = false := not_dynamic fun d h => (hd d h).le
  have hnow : ∀ A, (⟨sh, g A⟩ : Arr Rat).shapeNow = sh := fun A => shapeNow_fixed fun d h => (hd d h).le
  have hsep' : ¬ (separated (idx.map Option.isSome) = true ∧ 0 < leading (idx.map Option.isSome) ∧ f.shape ≠ []) := by
    rw [hsep]; simp
  have hwf : ∀ A, adm A → ∀ y ∈ ys A, y.WF := by
    intro A hA y hy
    have h := (hin A hA).fits
    clear hin
    generalize idx.reduceOption = l at h
    generalize ys A = l' at h hy
    induction h with
    | nil => cases hy
    | cons h _ ih =>
      rcases List.mem_cons.1 hy with rfl | hy
      · exact h.wf
      · exact ih hy
  refine S.make (t := .advanced slots) (ops := x :: xs) (qs := (_, _) :: qs) (b := .advanced idx (advBuilt sh idx f) const)
    (v := fun A => [⟨_, advSelect (idx.map Option.isSome) sh (g A) (Adv.indexAt (ys A)) ((ys A).headD ⟨[], []⟩).data.length⟩])
    hP (.cons hx hqs) ?_ rfl ?_ ?_ ?_ ?_
  · show (do
      let s' ← Kind.arrayShape [sh]
      let idx ← indexers s.sizes (s.length + 1) none slots (xs.zip (qs.map Prod.fst))
      let z ← (SizeInfo.fixed z).substitute s.sizes (if (SizeInfo.fixed z).array = none then 0 else 100)
      let P ← advParse s' z.min idx
      .ok (Built.advanced idx P const,
        (⟨[P.shape], claim, if dynamicShape P.shape then .of (xs.headD 0) none none else .fixed P.shape.prod, none⟩ : Info))) = _
    rw [show Kind.arrayShape [sh] = .ok sh from rfl, Res.ok_bind, hidx, Res.ok_bind]
    rw [if_pos (show (SizeInfo.fixed z).array = none from rfl)]
    rw [show SizeInfo.substitute s.sizes 0 (.fixed z) = .ok (.fixed z) from rfl, Res.ok_bind,
      show (SizeInfo.fixed z).min = some z from rfl, hparse, Res.ok_bind, hshape]
  · cases const with
    | none => exact ⟨(liftContract (advContract hacc hd hsep')).toSettled, fun _ _ => congrArg (fun t => [t]) hshape, fun _ => (liftContract (advContract hacc hd hsep')).propagates⟩
    | some a =>
      obtain ⟨h1, h2, _⟩ := hconst a rfl
      exact ⟨(liftConstContract a (advConstantContract hacc hd h1 h2)).toSettled, fun _ _ => congrArg (fun t => [t]) hshape,
        fun _ => (liftConstContract a (advConstantContract hacc hd h1 h2)).propagates⟩
  · intro A hA
    have hs : (((ys A).map fun y => [y]).map single) = ys A := by
      rw [List.map_map]
      exact List.map_id _
    cases const with
    | none =>
      refine ⟨?_, ?_⟩
      · intro q hq
        rcases List.mem_cons.1 hq with rfl | hq
        · exact ⟨rfl, hx.wf S hA⟩
        · rw [hys A hA] at hq
          obtain ⟨y, hy, rfl⟩ := List.mem_map.1 hq
          exact ⟨rfl, hwf A hA y hy⟩
      · refine ⟨⟨sh, g A⟩, ys A, ?_, rfl, hx.wf S hA, hin A hA⟩
        simp only [List.map_cons]
        rw [hys A hA, hs]
        rfl
    | some a =>
      obtain ⟨h1, h2, h3⟩ := hconst a rfl
      refine ⟨(ys A).map fun y => [y], ?_, ?_, ?_⟩
      · simp only [List.map_cons]
        rw [hys A hA, h3 A hA, ← h1]
      · intro q hq
        obtain ⟨y, hy, rfl⟩ := List.mem_map.1 hq
        exact ⟨rfl, hwf A hA y hy⟩
      · rw [hs]
        exact hin A hA
  · intro A hA
    have hs : (((ys A).map fun y => [y]).map single) = ys A := by
      rw [List.map_map]
      exact List.map_id _
    cases const with
    | none =>
      show [(⟨(advBuilt sh idx f).shape, (advBuilt sh idx f).select (single [⟨sh, g A⟩]) ((qs.map fun q => q.2 A).map single)⟩ : Arr Rat)] = _
      rw [hys A hA, hs, hshape]
      unfold Adv.select
      rw [show (single [(⟨sh, g A⟩ : Arr Rat)]) = ⟨sh, g A⟩ from rfl, hnow A]
      rfl
    | some a =>
      obtain ⟨h1, h2, h3⟩ := hconst a rfl
      show [(⟨(advBuilt sh idx f).shape, (advBuilt sh idx f).select a ((qs.map fun q => q.2 A).map single)⟩ : Arr Rat)] = _
      rw [hys A hA, hs, hshape]
      unfold Adv.select
      have : a = ⟨sh, g A⟩ := by rw [h3 A hA, ← h1]
      rw [this, hnow A]
      rfl
  · intro A hA
    refine hasShapes_single ?_
    have hcount : ((advSelect (idx.map Option.isSome) sh (g A) (Adv.indexAt (ys A)) ((ys A).headD ⟨[], []⟩).data.length).length : Int) =
        ((ys A).headD ⟨[], []⟩).data.length * shapeProd (sliceDims (idx.map Option.isSome) sh) := by
      unfold advSelect
      rw [List.length_map]
      refine advCoords_length ?_ ?_
      · unfold advLeft; simp [hsep, hl]
      · intro d h
        exact sliceDims_pos hd d h
    obtain ⟨y, rest, hy⟩ : ∃ y rest, ys A = y :: rest := by
      have := (hin A hA).fits.length_eq
      cases h : ys A with
      | nil =>
        rw [h] at this
        have h2 := hacc.first
        rw [List.length_nil, List.length_eq_zero_iff] at this
        rw [this] at h2
        cases h2
      | cons y rest => exact ⟨y, rest, rfl⟩
    have hyf : f.Fits y := by
      have h1 := (hin A hA).fits
      have h2 := hacc.first
      rw [hy] at h1
      cases h : idx.reduceOption with
      | nil => rw [h] at h2; cases h2
      | cons f' l =>
        rw [h] at h1 h2
        cases h1 with
        | cons h1 _ => cases h2; exact h1
    rw [hy] at hcount ⊢
    simp only [List.headD_cons] at hcount ⊢
    have hw := hyf.wf
    unfold Arr.WF Arr.dynamic at hw ⊢
    rw [hyf.shape] at hw
    have hr := hacc.rank
    match hfs : f.shape, hr with
    | [], _ =>
      rw [hfs] at hw
      have hpos := sliceDims_pos (kinds := idx.map Option.isSome) hd
      have hnd : dynamicShape ([] ++ sliceDims (idx.map Option.isSome) sh) = false := not_dynamic fun d h => (hpos d h).le
      have h1 : (y.data.length : Int) = 1 := by simpa [dynamicShape] using hw
      simp only [hnd, Bool.false_eq_true, if_false]
      rw [hcount, h1, ← shapeProd_eq]
      simp
    | [k], _ =>
      rw [hfs] at hw
      simp only [List.singleton_append, dynamicShape]
      by_cases hk : k < 0
      · simp only [hk, decide_true, if_true] at hw ⊢
        simp only [dynamicShape, hk, decide_true, if_true] at hw
        rw [hcount]
        refine ⟨y.data.length, ?_⟩
        simp only [rowSize, List.drop_succ_cons, List.drop_zero]
        rw [shapeProd_eq, mul_comm]
      · simp only [dynamicShape, hk, decide_false, Bool.false_eq_true, if_false] at hw ⊢
        rw [hcount]
        simp only [List.prod_cons, List.prod_nil, mul_one] at hw ⊢
        rw [hw, ← shapeProd_eq]

/-- The value of a single index array. -/
theorem advSelect_one (n : Int) (data : List Rat) (y : Arr Rat) :
    advSelect [true] [n] data (Adv.indexAt [y]) y.data.length = y.data.map fun v => data.getD (toSS v).toNat 0 := by
  unfold advSelect advCoords
  simp only [advLeft, separated, leading, sliceDims, List.take_nil, List.drop_nil, allCoords, List.flatMap_cons, List.flatMap_nil,
    List.append_nil, List.map_cons, List.map_nil, mergeCoords, Adv.indexAt, List.map_flatMap, rowMajor, shapeProd]
  conv_rhs => rw [← map_getD_all y.data]
  rw [List.map_map, ← List.flatMap_singleton' (List.map _ _), List.flatMap_map]
  simp
  rfl

/-- The value of two index arrays. -/
theorem advSelect_two (m n : Nat) (data : List Rat) (y z : Arr Rat) (h : z.data.length = y.data.length) :
    advSelect [true, true] [(m : Int), (n : Int)] data (Adv.indexAt [y, z]) y.data.length =
      y.data.zipWith (fun u v => data.getD (toSS u * n + toSS v).toNat 0) z.data := by
  have e : y.data.zipWith (fun u v => data.getD (toSS u * n + toSS v).toNat 0) z.data =
      (List.range y.data.length).map fun t => data.getD (toSS (y.data.getD t 0) * n + toSS (z.data.getD t 0)).toNat 0 := by
    apply List.ext_getElem
    · simp [h]
    · intro i h1 h2
      have hi : i < y.data.length := by simpa using h2
      simp [List.getD_eq_getElem?_getD, List.getElem?_eq_getElem hi, List.getElem?_eq_getElem (h ▸ hi : i < z.data.length)]
  rw [e]
  unfold advSelect advCoords
  simp only [advLeft, separated, leading, sliceDims, List.take_nil, List.drop_nil, allCoords, List.flatMap_cons, List.flatMap_nil,
    List.append_nil, List.map_cons, List.map_nil, mergeCoords, Adv.indexAt, List.map_flatMap, flatMap_one]
  simp only [List.map_map]
  apply List.map_congr_left
  intro t _
  simp only [Function.comp, rowMajor, shapeProd, mul_one, add_zero]
  rfl

/-- The value of an index array for rows. -/
theorem advSelect_rows (m n : Nat) (data : List Rat) (y : Arr Rat) (hl : data.length = m * n)
    (hy : ∀ v ∈ y.data, 0 ≤ toSS v ∧ toSS v < m) :
    advSelect [true, false] [(m : Int), (n : Int)] data (Adv.indexAt [y]) y.data.length =
      y.data.flatMap fun v => (data.drop ((toSS v).toNat * n)).take n := by
  have e : (y.data.flatMap fun v => (data.drop ((toSS v).toNat * n)).take n) =
      (List.range y.data.length).flatMap fun t => (data.drop ((toSS (y.data.getD t 0)).toNat * n)).take n := by
    conv_lhs => rw [← map_getD_all y.data]
    rw [List.flatMap_map]
  rw [e]
  unfold advSelect advCoords
  simp only [advLeft, separated, leading, sliceDims, List.take_nil, List.drop_nil, allCoords, List.flatMap_cons, List.flatMap_nil,
    List.append_nil, List.map_cons, List.map_nil, mergeCoords, Adv.indexAt, List.map_flatMap, rowMajor, shapeProd, flatMap_one]
  simp only [List.dropWhile, List.findIdx_cons, id, Bool.not_true, cond_true, Bool.false_eq_true, ite_self, List.take_zero, List.drop_zero,
    allCoords, List.flatMap_cons, List.flatMap_nil, List.append_nil, List.map_cons, List.map_nil, flatMap_one, List.nil_append,
    List.map_map, List.map_flatMap, List.any_nil, Bool.not_false, List.any, if_false]
  apply List.flatMap_congr
  intro t ht
  have ht' := List.mem_range.1 ht
  have hm : y.data.getD t 0 ∈ y.data := by
    rw [List.getD_eq_getElem?_getD, List.getElem?_eq_getElem ht']
    exact List.getElem_mem _
  obtain ⟨h1, h2⟩ := hy _ hm
  obtain ⟨r, hr⟩ := Int.eq_ofNat_of_zero_le h1
  rw [hr] at h2 ⊢
  have hlen : r * n + n ≤ data.length := by
    rw [hl]
    have : (r + 1) * n ≤ m * n := Nat.mul_le_mul_right _ (by omega)
    have e : (r + 1) * n = r * n + n := by ring
    omega
  simp only [Int.toNat_natCast]
  rw [← map_getD_range' data (r * n) n hlen, List.range'_eq_map_range, List.map_map]
  apply List.map_congr_left
  intro i hi
  simp only [Function.comp, mergeCoords, rowMajor, shapeProd, List.nil_append]
  have e : ((r : Int) * ((n : Int) * 1) + ((i : Int) * 1 + 0)).toNat = r * n + i := by
    have : (r : Int) * ((n : Int) * 1) + ((i : Int) * 1 + 0) = ((r * n + i : Nat) : Int) := by push_cast; ring
    rw [this]; rfl
  rw [show Int.ofNat i = (i : Int) from rfl, e]
  rfl

/-- `x[i]` for a vector `x`. -/
theorem State.advancedOne (S : State full P s D adm) (hP : P s.length) {x n i : Nat} {claim : Res Claim} {z : Int}
    {const : Option (Arr Rat)} {g : (Nat → Val) → List Rat} (hx : HasArr P s x [(n : Int)] claim (.fixed z) const g)
    (hconst : ∀ a, const = some a → a.shape = [(n : Int)] ∧ a.WF ∧ ∀ A, adm A → g A = a.data)
    {t : List Int} {c : Claim} {size : SizeInfo} {const' : Option (Arr Rat)} {gi : (Nat → Val) → List Rat}
    (hi : IsIndex P s adm n i t c size const' gi) (ht : t.length ≤ 1) (hn : 0 < n) :
    ∃ s', s.add (.advanced [true]) [x, i] = .ok (s', s.length) ∧
      NextArr full P s s' D adm t claim (if dynamicShape t then .of i none none else .fixed t.prod) none
        (fun A => (gi A).map fun v => (g A).getD (toSS v).toNat 0) := by
  obtain ⟨s', e, N⟩ := S.advanced hP hx hconst (slots := [true]) (xs := [i]) (qs := [(_, _)]) (ys := fun A => [⟨t, gi A⟩])
    (idx := [some ⟨t, c.integral, c.range.lo, c.range.hi, true⟩]) (f := ⟨t, c.integral, c.range.lo, c.range.hi, true⟩)
    (.cons hi.has .nil) (fun _ _ => rfl) (by
      simp only [List.map_cons, List.map_nil, List.zip_cons_cons, List.zip_nil_right, indexers]
      rw [show Kind.arrayShape [t] = .ok t from rfl]
      simp only [Res.ok_bind, Option.getD_none]
      rw [shapeEqual_of_beq (SizeInfo.beq_self _)]
      rfl)
    ⟨rfl, .cons (by rintro _ ⟨⟩; exact ⟨hi.integral, hi.low, by exact_mod_cast hi.high⟩) .nil, rfl, by intro j hj; simp at hj, ht,
      by intro h; exact absurd h (by simp [advFront, leading, List.findIdx_cons])⟩
    (by simpa using hn) rfl rfl (by
      intro A hA
      refine ⟨.cons ⟨rfl, hi.has.wf S hA, hi.values A hA⟩ .nil, by simp⟩)
  refine ⟨s', e, ?_⟩
  have e1 : ∀ A, advSelect [true] [(n : Int)] (g A) (Adv.indexAt [⟨t, gi A⟩]) (gi A).length =
      (gi A).map fun v => (g A).getD (toSS v).toNat 0 := fun A => advSelect_one _ (g A) ⟨t, gi A⟩
  simp only [List.map_cons, List.map_nil, Option.isSome_some, sliceDims, List.append_nil, List.headD_cons, e1] at N
  exact N

/-- `x[i, j]` for a matrix `x`. -/
theorem State.advancedTwo (S : State full P s D adm) (hP : P s.length) {x m n i j : Nat} {claim : Res Claim} {z : Int}
    {const : Option (Arr Rat)} {g : (Nat → Val) → List Rat} (hx : HasArr P s x [(m : Int), (n : Int)] claim (.fixed z) const g)
    (hconst : ∀ a, const = some a → a.shape = [(m : Int), (n : Int)] ∧ a.WF ∧ ∀ A, adm A → g A = a.data)
    {t t' : List Int} {c c' : Claim} {size size' : SizeInfo} {const' const'' : Option (Arr Rat)} {gi gj : (Nat → Val) → List Rat}
    (hi : IsIndex P s adm m i t c size const' gi) (hj : IsIndex P s adm n j t' c' size' const'' gj)
    (ht : t.length ≤ 1) (ht' : t'.length = t.length) (hsize : size.beq size' = true)
    (hlen : ∀ A, adm A → (gj A).length = (gi A).length) (hm : 0 < m) (hn : 0 < n) :
    ∃ s', s.add (.advanced [true, true]) [x, i, j] = .ok (s', s.length) ∧
      NextArr full P s s' D adm t claim (if dynamicShape t then .of i none none else .fixed t.prod) none
        (fun A => (gi A).zipWith (fun u v => (g A).getD (toSS u * n + toSS v).toNat 0) (gj A)) := by
  obtain ⟨s', e, N⟩ := S.advanced hP hx hconst (slots := [true, true]) (xs := [i, j]) (qs := [(_, _), (_, _)])
    (ys := fun A => [⟨t, gi A⟩, ⟨t', gj A⟩])
    (idx := [some ⟨t, c.integral, c.range.lo, c.range.hi, true⟩, some ⟨t', c'.integral, c'.range.lo, c'.range.hi, true⟩])
    (f := ⟨t, c.integral, c.range.lo, c.range.hi, true⟩)
    (.cons hi.has (.cons hj.has .nil)) (fun _ _ => rfl) (by
      simp only [List.map_cons, List.map_nil, List.zip_cons_cons, List.zip_nil_right, indexers]
      rw [show Kind.arrayShape [t] = .ok t from rfl, show Kind.arrayShape [t'] = .ok t' from rfl]
      simp only [Res.ok_bind, Option.getD_none, Option.getD_some]
      rw [shapeEqual_of_beq (SizeInfo.beq_self _), shapeEqual_of_beq (by rw [hi.has.size, hj.has.size]; exact hsize)]
      rfl)
    ⟨rfl, .cons (by rintro _ ⟨⟩; exact ⟨hi.integral, hi.low, by exact_mod_cast hi.high⟩)
        (.cons (by rintro _ ⟨⟩; exact ⟨hj.integral, hj.low, by exact_mod_cast hj.high⟩) .nil), rfl,
      by intro k hk; simp only [List.reduceOption_cons_of_some, List.tail_cons, List.reduceOption_nil, List.mem_singleton] at hk
         subst hk; exact ⟨rfl, ht'⟩, ht,
      by intro h; exact absurd h (by simp [advFront, leading, List.findIdx_cons])⟩
    (by simpa using ⟨hm, hn⟩) rfl rfl (by
      intro A hA
      refine ⟨.cons ⟨rfl, hi.has.wf S hA, hi.values A hA⟩ (.cons ⟨rfl, hj.has.wf S hA, hj.values A hA⟩ .nil), ?_⟩
      intro y hy
      rcases List.mem_cons.1 hy with rfl | hy
      · rfl
      · obtain rfl := List.mem_singleton.1 hy
        exact hlen A hA)
  refine ⟨s', e, ?_⟩
  simp only [List.map_cons, List.map_nil, Option.isSome_some, sliceDims, List.append_nil, List.headD_cons] at N
  exact NextArr.congr N fun A hA => advSelect_two m n (g A) ⟨t, gi A⟩ ⟨t', gj A⟩ (hlen A hA)

/-- `x[i, :]` for a matrix `x`. -/
theorem State.advancedRows (S : State full P s D adm) (hP : P s.length) {x m n i : Nat} {claim : Res Claim} {z : Int}
    {const : Option (Arr Rat)} {g : (Nat → Val) → List Rat} (hx : HasArr P s x [(m : Int), (n : Int)] claim (.fixed z) const g)
    (hconst : ∀ a, const = some a → a.shape = [(m : Int), (n : Int)] ∧ a.WF ∧ ∀ A, adm A → g A = a.data)
    {k : Nat} {c : Claim} {size : SizeInfo} {const' : Option (Arr Rat)} {gi : (Nat → Val) → List Rat}
    (hi : IsIndex P s adm m i [(k : Int)] c size const' gi) (hm : 0 < m) (hn : 0 < n) :
    ∃ s', s.add (.advanced [true, false]) [x, i] = .ok (s', s.length) ∧
      NextArr full P s s' D adm [(k : Int), (n : Int)] claim (.fixed ((k : Int) * n)) none
        (fun A => (gi A).flatMap fun v => ((g A).drop ((toSS v).toNat * n)).take n) := by
  obtain ⟨s', e, N⟩ := S.advanced hP hx hconst (slots := [true, false]) (xs := [i]) (qs := [(_, _)]) (ys := fun A => [⟨[(k : Int)], gi A⟩])
    (idx := [some ⟨[(k : Int)], c.integral, c.range.lo, c.range.hi, true⟩, none])
    (f := ⟨[(k : Int)], c.integral, c.range.lo, c.range.hi, true⟩)
    (.cons hi.has .nil) (fun _ _ => rfl) (by
      simp only [List.map_cons, List.map_nil, List.zip_cons_cons, List.zip_nil_right, indexers]
      rw [show Kind.arrayShape [[(k : Int)]] = .ok [(k : Int)] from rfl]
      simp only [Res.ok_bind, Option.getD_none]
      rw [shapeEqual_of_beq (SizeInfo.beq_self _)]
      rfl)
    ⟨rfl, .cons (by rintro _ ⟨⟩; exact ⟨hi.integral, hi.low, by exact_mod_cast hi.high⟩) (.cons (by rintro _ ⟨⟩) .nil), rfl,
      by intro j hj; simp at hj, by simp,
      by intro h; exact absurd h (by simp [advFront, leading, List.findIdx_cons])⟩
    (by simpa using ⟨hm, hn⟩) rfl rfl (by
      intro A hA
      refine ⟨.cons ⟨rfl, hi.has.wf S hA, hi.values A hA⟩ .nil, by simp⟩)
  refine ⟨s', e, ?_⟩
  have hnd : dynamicShape [(k : Int), (n : Int)] = false := not_dynamic (by simp)
  simp only [List.map_cons, List.map_nil, Option.isSome_some, Option.isSome_none, sliceDims, List.append_nil, List.headD_cons,
    List.singleton_append, hnd, Bool.false_eq_true, if_false, List.prod_cons, List.prod_nil, mul_one] at N
  refine NextArr.congr N fun A hA => ?_
  have hl : (g A).length = m * n := by
    have := hx.length S hA (not_dynamic (by simp))
    simp only [List.prod_cons, List.prod_nil, mul_one] at this
    exact_mod_cast this
  exact advSelect_rows m n (g A) ⟨[(k : Int)], gi A⟩ hl fun v hv => hi.range hA hv

end Script
end Verif
