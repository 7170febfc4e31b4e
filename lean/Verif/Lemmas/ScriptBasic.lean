import Verif.Lemmas.ScriptSlices

set_option linter.unusedSectionVars false
set_option linter.unusedSimpArgs false
set_option linter.unusedVariables false

/-! Helper lemmas: basic indexing in programs that build models. -/

namespace Verif

theorem length_allCoords_nonneg : ∀ {shape : List Int}, (∀ d ∈ shape, 0 ≤ d) →
    ((allCoords shape).length : Int) = shapeProd shape
  | [], _ => rfl
  | d :: shape, h => by
    have hd : 0 ≤ d := h d List.mem_cons_self
    have ih := length_allCoords_nonneg (shape := shape) fun e he => h e (List.mem_cons_of_mem _ he)
    simp only [allCoords, List.length_flatMap, List.length_map, List.map_const', List.length_range,
      List.sum_replicate, shapeProd]
    change ((d.toNat * (allCoords shape).length : Nat) : Int) = _
    rw [Nat.cast_mul, ih]
    congr 1
    omega

theorem not_dynamic {sh : List Int} (h : ∀ d ∈ sh, 0 ≤ d) : dynamicShape sh = false := by
  cases sh with
  | nil => rfl
  | cons d sh =>
    have := h d List.mem_cons_self
    simp [dynamicShape]
    omega

theorem wf_of_count {sh : List Int} {l : List Rat} (h : ∀ d ∈ sh, 0 ≤ d) (hl : (l.length : Int) = shapeProd sh) :
    (⟨sh, l⟩ : Arr Rat).WF := by
  unfold Arr.WF Arr.dynamic
  rw [not_dynamic h]
  simpa [shapeProd_eq] using hl

/-- What the parser finds for `x[a:b]`. -/
theorem parse_slice (n : Nat) (a b : Option Int) (hn : (n : Int) ≤ ssMax) (hf : (BasicIndex.slice a b none).Fits) :
    ∃ P, basicParse [(n : Int)] [.slice a b none] = .ok P ∧ P.shape = [((sliceHi a b n - sliceLo a b n : Nat) : Int)] ∧
      P.axis0 = none ∧ P.contiguous = true ∧ P.start + shapeProd P.shape ≤ shapeProd [(n : Int)] := by
  obtain ⟨s, k, h1, h2, h3, h4, h5, h6, h7, h8⟩ := slicePositions_eq a b none n hn (by decide) hf
  have hlen : k = sliceHi a b n - sliceLo a b n := by
    have := congrArg List.length h8
    rw [slicePositions_one] at this
    simpa using this.symm
  rw [hlen] at h3 h4 h8
  have h2' : s.step = 1 := h2
  have hd : ∀ d ∈ [(n : Int)], 0 ≤ d ∧ d ≤ ssMax := by simpa using hn
  have hP : basicParse [(n : Int)] [.slice a b none] =
      .ok ⟨[((sliceHi a b n - sliceLo a b n : Nat) : Int)], [8], (s.fit n).start, none⟩ := by
    simp only [basicParse, BasicIndex.makeAll, BasicIndex.make, h1, Res.ok_bind, parseIndex]
    rw [guardThrow_true (by rfl), Res.ok_bind, not_dynamic (fun d h => (hd d h).1)]
    simp only [shapeToStrides, parseAxes]
    rw [guardThrow_true (by omega), guardThrow_true (by omega), guardUB_true (by omega)]
    simp only [Res.ok_bind, h3, h7, h2']
    congr 2
    rw [Int.mul_tdiv_cancel _ (by decide)]
    omega
  have hc : (⟨[((sliceHi a b n - sliceLo a b n : Nat) : Int)], [8], (s.fit n).start, none⟩ : Parsed).contiguous = true := by
    simp [Parsed.contiguous, isContiguous, isContiguousRev]
  exact ⟨_, hP, rfl, rfl, hc, contiguous_inside (idx := [.slice a b none]) hd ⟨by decide, trivial⟩ (by simpa using hf) hP hc (.inr rfl)⟩

/-- What the parser finds for `x[i]`. -/
theorem parse_at (n : Nat) (i : Int) (hn : (n : Int) ≤ ssMax) (hi : -(n : Int) ≤ i ∧ i < n) :
    ∃ P, basicParse [(n : Int)] [.at i] = .ok P ∧ P.shape = [] ∧
      P.axis0 = none ∧ P.contiguous = true ∧ P.start + shapeProd P.shape ≤ shapeProd [(n : Int)] := by
  have hd : ∀ d ∈ [(n : Int)], 0 ≤ d ∧ d ≤ ssMax := by simpa using hn
  have hP : basicParse [(n : Int)] [.at i] = .ok ⟨[], [], if i < 0 then i + n else i, none⟩ := by
    simp only [basicParse, BasicIndex.makeAll, BasicIndex.make, Res.ok_bind, parseIndex]
    rw [guardThrow_true (by rfl), Res.ok_bind, not_dynamic (fun d h => (hd d h).1)]
    simp only [shapeToStrides, parseAxes]
    rw [guardThrow_true (by split_ifs <;> omega)]
    simp only [Res.ok_bind]
    congr 2
    rw [Int.mul_tdiv_cancel _ (by decide)]
    omega
  refine ⟨_, hP, rfl, rfl, rfl, ?_⟩
  simp only [shapeProd]
  split_ifs <;> omega

/-- What the parser finds for `x[j, a:b]`. -/
theorem parse_row (m n : Nat) (j : Nat) (a b : Option Int) (hm : (m : Int) ≤ ssMax) (hn : (n : Int) ≤ ssMax) (hj : j < m)
    (hf : (BasicIndex.slice a b none).Fits) :
    ∃ P, basicParse [(m : Int), (n : Int)] [.at j, .slice a b none] = .ok P ∧
      P.shape = [((sliceHi a b n - sliceLo a b n : Nat) : Int)] ∧
      P.axis0 = none ∧ P.contiguous = true ∧ P.start + shapeProd P.shape ≤ shapeProd [(m : Int), (n : Int)] := by
  obtain ⟨s, k, h1, h2, h3, h4, h5, h6, h7, h8⟩ := slicePositions_eq a b none n hn (by decide) hf
  have hlen : k = sliceHi a b n - sliceLo a b n := by
    have := congrArg List.length h8
    rw [slicePositions_one] at this
    simpa using this.symm
  have h2' : s.step = 1 := h2
  have hd : ∀ d ∈ [(m : Int), (n : Int)], 0 ≤ d ∧ d ≤ ssMax := by simpa using ⟨hm, hn⟩
  have hP : basicParse [(m : Int), (n : Int)] [.at j, .slice a b none] =
      .ok ⟨[(k : Int)], [8], j * n + (s.fit n).start, none⟩ := by
    simp only [basicParse, BasicIndex.makeAll, BasicIndex.make, h1, Res.ok_bind, parseIndex]
    rw [guardThrow_true (by rfl), Res.ok_bind, not_dynamic (fun d h => (hd d h).1)]
    simp only [shapeToStrides, parseAxes]
    rw [guardThrow_true (by split_ifs <;> omega), guardThrow_true (by omega), guardThrow_true (by omega), guardUB_true (by omega)]
    simp only [Res.ok_bind, h3, h7, h2']
    rw [if_neg (by omega), show (j : Int) * (8 * (n : Int)) = (j * n : Int) * 8 by ring, Int.mul_tdiv_cancel _ (by decide),
      Int.mul_tdiv_cancel _ (by decide)]
    congr 2
    omega
  have hend : (s.fit n).start + k ≤ n := by
    by_cases hk : k = 0
    · omega
    · have hmem : ((s.fit n).start + (k - 1 : Nat) * s.step).toNat ∈ slicePositions a b none n := by
        rw [h8]
        exact List.mem_map.2 ⟨k - 1, by simp; omega, rfl⟩
      have := slicePositions_lt hmem
      rw [h2'] at this
      omega
  rw [hlen] at hP hend
  refine ⟨_, hP, rfl, rfl, by simp [Parsed.contiguous, isContiguous, isContiguousRev], ?_⟩
  simp only [shapeProd]
  have : ((j : Int) + 1) * n ≤ m * n := Int.mul_le_mul_of_nonneg_right (by omega) (by omega)
  have e : ((j : Int) + 1) * n = j * n + n := by ring
  simp only [mul_one]
  omega

theorem select_at (l : List Rat) (i : Int) (n : Nat) : basicSelect [(n : Int)] l [.at i] = [l.getD (if i < 0 then i + n else i).toNat 0] := by
  unfold basicSelect
  simp [selectCoords, rowMajor, shapeProd]
  rfl

theorem select_row (l : List Rat) (m n j : Nat) (hl : l.length = m * n) (hj : j < m) (a b : Option Int) :
    basicSelect [(m : Int), (n : Int)] l [.at j, .slice a b none] = sliceOf a b ((l.drop (j * n)).take n) := by
  have hlen : ((l.drop (j * n)).take n).length = n := by
    rw [List.length_take, List.length_drop, hl]
    have : (j + 1) * n ≤ m * n := Nat.mul_le_mul_right _ hj
    have e : (j + 1) * n = j * n + n := by ring
    omega
  rw [← map_slicePositions, hlen]
  unfold basicSelect
  simp only [selectCoords, Int.toNat_natCast, List.map_flatMap, List.map_cons, List.map_nil, List.map_map]
  rw [← List.flatMap_singleton' ((slicePositions a b none n).map _), List.flatMap_map]
  apply List.flatMap_congr
  intro p hp
  have hp' := slicePositions_lt hp
  simp only [Function.comp, rowMajor, shapeProd, List.cons.injEq, and_true]
  rw [if_neg (by omega)]
  have e : ((j : Int) * ((n : Int) * 1) + ((p : Int) * 1 + 0)).toNat = j * n + p := by
    have : (j : Int) * ((n : Int) * 1) + ((p : Int) * 1 + 0) = ((j * n + p : Nat) : Int) := by push_cast; ring
    rw [this]; rfl
  rw [e, List.getD_eq_getElem?_getD, List.getD_eq_getElem?_getD, List.getElem?_take, if_pos hp', List.getElem?_drop]
  rfl

namespace Script

variable {full : Prop} {P : Nat → Prop} {s s' s'' : Script} {A vals : Nat → Val} {D : Nat → Prop} {adm : (Nat → Val) → Prop}

/-- `x[idx]` for an array of fixed size, when the selection is contiguous. -/
theorem State.basicFixed (S : State full P s D adm) (hP : P s.length) {x : Nat} {sh : List Int} {claim : Res Claim} {size : SizeInfo}
    {const : Option (Arr Rat)} {g : (Nat → Val) → List Rat} (hx : HasArr P s x sh claim size const g) {idx : List BasicIndex} {Q : Parsed}
    (hd : ∀ d ∈ sh, 0 ≤ d ∧ d ≤ ssMax) (ho : SelectOk sh idx) (hf : ∀ i ∈ idx, i.Fits) (hQ : basicParse sh idx = .ok Q)
    (hc : Q.contiguous = true) (hin : Q.start + shapeProd Q.shape ≤ shapeProd sh) (hbig : shapeProd sh ≤ ssMax) :
    ∃ s', s.add (.basic idx) [x] = .ok (s', s.length) ∧
      NextArr full P s s' D adm Q.shape claim (.fixed Q.shape.prod) none (fun A => basicSelect sh (g A) idx) := by
  obtain ⟨C⟩ := inside_contract (α := Rat) sh idx Q hd ho hf hQ hc hin
  obtain ⟨st, start, hQ', hl, h0, h1, h2, h3⟩ := parse_fixed hd ho hf
  have hQe : Q = ⟨selectShape sh idx, st.map (8 * ·), start, none⟩ := by
    rw [hQ] at hQ'
    exact Res.ok.inj hQ'
  have hax : Q.axis0 = none := by rw [hQe]
  have hfix : dynamicShape sh = false := not_dynamic fun d h => (hd d h).1
  have hlen : ∀ A, adm A → ((g A).length : Int) = shapeProd sh := fun A hA => by
    rw [shapeProd_eq]; exact hx.length S hA hfix
  have hok : ∀ A, adm A → (liftNode (basicNode sh idx Q)).ok [[⟨sh, g A⟩]] := by
    intro A hA
    exact ⟨by simpa using (show (single [⟨sh, g A⟩]).WF from hx.wf S hA), ⟨sh, g A⟩, rfl, rfl, hx.wf S hA, by rw [hlen A hA]; exact hbig⟩
  have hnow : ∀ A, (⟨sh, g A⟩ : Arr Rat).shapeNow = sh := fun A => shapeNow_fixed fun d h => (hd d h).1
  refine S.make (t := .basic idx) (ops := [x]) (qs := [(_, _)]) (b := .basic sh idx Q) hP (.cons hx .nil) ?_ rfl
    ⟨(liftContract C).toSettled, fun _ _ => rfl, fun _ => (liftContract C).propagates⟩ hok ?_ ?_
  · show (do
      let s ← Kind.arrayShape [sh]
      let P ← basicParse s idx
      let z ← match P.axis0 with
        | some sl => SizeInfo.ofSlice x (shapeProd (s.drop 1)) (shapeProd (P.shape.drop 1)) sl
        | none => .ok (.fixed P.shape.prod)
      .ok (Built.basic s idx P, (⟨[P.shape], claim, z, none⟩ : Info))) = _
    rw [show Kind.arrayShape [sh] = .ok sh from rfl]
    simp only [Res.ok_bind, hQ, hax]
  · intro A hA
    show [(⟨Q.shape, basicSelect (⟨sh, g A⟩ : Arr Rat).shapeNow (g A) idx⟩ : Arr Rat)] = _
    rw [hnow]
  · intro A hA
    refine hasShapes_single ?_
    rw [hQe]
    refine wf_of_count h0 ?_
    show ((basicSelect sh (g A) idx).length : Int) = _
    rw [basicSelect_eq sh (g A) idx _ st start h3, List.length_map]
    exact length_allCoords_nonneg h0

/-- `x[a:b]` for an array of `n` elements. -/
theorem State.sliceFixed (S : State full P s D adm) (hP : P s.length) {x n : Nat} {claim : Res Claim} {size : SizeInfo}
    {const : Option (Arr Rat)} {g : (Nat → Val) → List Rat} (hx : HasArr P s x [(n : Int)] claim size const g) (a b : Option Int)
    (hn : (n : Int) ≤ ssMax) (hf : (BasicIndex.slice a b none).Fits) :
    ∃ s', s.add (.basic [.slice a b none]) [x] = .ok (s', s.length) ∧
      NextArr full P s s' D adm [((sliceHi a b n - sliceLo a b n : Nat) : Int)] claim
        (.fixed ((sliceHi a b n - sliceLo a b n : Nat) : Int)) none (fun A => basicSelect [(n : Int)] (g A) [.slice a b none]) := by
  obtain ⟨Q, hQ, h1, h2, h3, h4⟩ := parse_slice n a b hn hf
  obtain ⟨s', e, N⟩ := S.basicFixed hP hx (idx := [.slice a b none]) (by simpa using hn) ⟨by decide, trivial⟩ (by simpa using hf) hQ h3 h4
    (by simpa [shapeProd] using hn)
  refine ⟨s', e, ?_⟩
  rw [h1] at N
  simpa using N

/-- `x[i]` for an array of `n` elements. -/
theorem State.atFixed (S : State full P s D adm) (hP : P s.length) {x n : Nat} {claim : Res Claim} {size : SizeInfo}
    {const : Option (Arr Rat)} {g : (Nat → Val) → List Rat} (hx : HasArr P s x [(n : Int)] claim size const g) (i : Int)
    (hn : (n : Int) ≤ ssMax) (hi : -(n : Int) ≤ i ∧ i < n) :
    ∃ s', s.add (.basic [.at i]) [x] = .ok (s', s.length) ∧
      NextArr full P s s' D adm [] claim (.fixed 1) none (fun A => [(g A).getD (if i < 0 then i + n else i).toNat 0]) := by
  obtain ⟨Q, hQ, h1, h2, h3, h4⟩ := parse_at n i hn hi
  obtain ⟨s', e, N⟩ := S.basicFixed hP hx (idx := [.at i]) (by simpa using hn) ⟨hi, trivial⟩ (by
    simp only [List.mem_singleton, forall_eq, BasicIndex.Fits, IsSS]
    simp only [ssMax, ssMin] at hn ⊢
    omega) hQ h3 h4
    (by simpa [shapeProd] using hn)
  refine ⟨s', e, ?_⟩
  rw [h1] at N
  simpa [select_at] using N

/-- `x[j, a:b]` for an array of `m × n` elements. -/
theorem State.rowFixed (S : State full P s D adm) (hP : P s.length) {x m n : Nat} {claim : Res Claim} {size : SizeInfo}
    {const : Option (Arr Rat)} {g : (Nat → Val) → List Rat} (hx : HasArr P s x [(m : Int), (n : Int)] claim size const g) (j : Nat)
    (a b : Option Int) (hm : (m : Int) ≤ ssMax) (hn : (n : Int) ≤ ssMax) (hmn : (m : Int) * n ≤ ssMax) (hj : j < m)
    (hf : (BasicIndex.slice a b none).Fits) :
    ∃ s', s.add (.basic [.at j, .slice a b none]) [x] = .ok (s', s.length) ∧
      NextArr full P s s' D adm [((sliceHi a b n - sliceLo a b n : Nat) : Int)] claim
        (.fixed ((sliceHi a b n - sliceLo a b n : Nat) : Int)) none
        (fun A => basicSelect [(m : Int), (n : Int)] (g A) [.at j, .slice a b none]) := by
  obtain ⟨Q, hQ, h1, h2, h3, h4⟩ := parse_row m n j a b hm hn hj hf
  obtain ⟨s', e, N⟩ := S.basicFixed hP hx (idx := [.at j, .slice a b none]) (by simpa using ⟨hm, hn⟩)
    ⟨by omega, by decide, trivial⟩ (by
      intro i hi
      rcases List.mem_cons.1 hi with rfl | hi
      · simp only [BasicIndex.Fits, IsSS]
        simp only [ssMax, ssMin] at hm ⊢
        omega
      · obtain rfl := List.mem_singleton.1 hi
        exact hf) hQ h3 h4
    (by simpa [shapeProd] using hmn)
  refine ⟨s', e, ?_⟩
  rw [h1] at N
  simpa using N

end Script
end Verif
