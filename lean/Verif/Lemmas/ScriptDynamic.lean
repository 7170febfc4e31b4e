import Verif.Lemmas.GenerateDisjoint

set_option linter.unusedSectionVars false
set_option linter.unusedSimpArgs false
set_option linter.unusedVariables false

/-! Helper lemmas: slices of lists of variable length, disjoint lists, sums of several numbers. -/

namespace Verif

namespace Script

variable {full : Prop} {P : Nat → Prop} {s s' s'' : Script} {A vals : Nat → Val} {D : Nat → Prop} {adm : (Nat → Val) → Prop}

/-- `x[a:b]` for a list of variable length. -/
theorem State.sliceDynamic (S : State full P s D adm) (hP : P s.length) {x : Nat} {claim : Res Claim} {size : SizeInfo}
    {const : Option (Arr Rat)} {g : (Nat → Val) → List Rat} (hx : HasArr P s x [-1] claim size const g) (a b : Option Int)
    {sl : Slice} (hsl : Slice.make a b none = .ok sl) {z : SizeInfo} (hz : SizeInfo.ofSlice x 1 1 sl = .ok z)
    (hn : ∀ A, adm A → ((g A).length : Int) ≤ ssMax) (hf : (BasicIndex.slice a b none).Fits) :
    ∃ s', s.add (.basic [.slice a b none]) [x] = .ok (s', s.length) ∧
      NextArr full P s s' D adm [-1] claim z none (fun A => sliceOf a b (g A)) := by
  have hD : DynIndex [] a b none [] := ⟨by simp, by decide, trivial, by simpa using hf⟩
  obtain ⟨sl', st, start, h1, h2, h3, h4, h5, h6, h7, h8⟩ := hD.parse
  obtain rfl : sl = sl' := by rw [hsl] at h1; exact Res.ok.inj h1
  have hst : st = [] := List.length_eq_zero_iff.1 h4
  subst hst
  have hstep : sl.step = 1 := h2
  have hQ : basicParse [-1] [.slice a b none] = .ok ⟨[-1], [8], start, some sl⟩ := by
    rw [h3, hstep]
    rfl
  obtain ⟨C⟩ := dynamic_contract (α := Rat) [] a b none [] _ hD hQ (by simp [Parsed.contiguous, isContiguous, isContiguousRev])
    (by simp [selectShape]) (Or.inl rfl)
  have hok : ∀ A, adm A → (liftNode (basicNode [-1] [.slice a b none] ⟨[-1], [8], start, some sl⟩)).ok [[⟨[-1], g A⟩]] := by
    intro A hA
    exact ⟨by simpa using (show (single [⟨[-1], g A⟩]).WF from hx.wf S hA), ⟨[-1], g A⟩, rfl, rfl, hx.wf S hA, hn A hA⟩
  have hnow : ∀ A, (⟨[-1], g A⟩ : Arr Rat).shapeNow = [((g A).length : Int)] := by
    intro A
    simp [Arr.shapeNow, Arr.dynamic, dynamicShape, rowSize]
  refine S.make (t := .basic [.slice a b none]) (ops := [x]) (qs := [(_, _)]) (b := .basic [-1] [.slice a b none] ⟨[-1], [8], start, some sl⟩)
    hP (.cons hx .nil) ?_ rfl ⟨(liftContract C).toSettled, fun _ _ => rfl, fun _ => (liftContract C).propagates⟩ hok ?_ ?_
  · show (do
      let s ← Kind.arrayShape [[-1]]
      let P ← basicParse s [.slice a b none]
      let z ← match P.axis0 with
        | some sl => SizeInfo.ofSlice x (shapeProd (s.drop 1)) (shapeProd (P.shape.drop 1)) sl
        | none => .ok (.fixed P.shape.prod)
      .ok (Built.basic s [.slice a b none] P, (⟨[P.shape], claim, z, none⟩ : Info))) = _
    rw [show Kind.arrayShape [[-1]] = .ok [-1] from rfl]
    simp only [Res.ok_bind, hQ, List.drop_succ_cons, List.drop_zero, shapeProd, hz]
  · intro A hA
    show [(⟨[-1], basicSelect (⟨[-1], g A⟩ : Arr Rat).shapeNow (g A) [.slice a b none]⟩ : Arr Rat)] = _
    rw [hnow, select_one]
  · intro A hA
    refine hasShapes_single ?_
    simp [Arr.WF, Arr.dynamic, dynamicShape, rowSize]

/-- `add(x, y, ...)`. -/
theorem State.nary (S : State full P s D adm) (hP : P s.length) {ops : List Nat} {gs : List ((Nat → Val) → Rat)} (hne : ops ≠ [])
    (hops : List.Forall₂ (Computes P s) ops gs) :
    ∃ s', s.add (.kind (.nary .add)) ops = .ok (s', s.length) ∧ State full P s' D adm ∧ Ext P s s' ∧ s'.length = s.length + 1 ∧
      Computes P s' s.length fun A => (gs.map fun g => g A).sum := by
  have hqs : ∃ qs : List (Info × ((Nat → Val) → Val)), List.Forall₂ (fun p (q : Info × ((Nat → Val) → Val)) => Has P s p q.1 q.2) ops qs ∧
      List.Forall₂ (fun (q : Info × ((Nat → Val) → Val)) (g : (Nat → Val) → Rat) => q.1.shapes = [[]] ∧ q.2 = fun A => [⟨[], [g A]⟩]) qs gs := by
    clear hne
    induction hops with
    | nil => exact ⟨[], .nil, .nil⟩
    | cons h _ ih =>
      obtain ⟨c, z, k, h⟩ := h
      obtain ⟨qs, h1, h2⟩ := ih
      exact ⟨(_, _) :: qs, .cons h h1, .cons ⟨rfl, rfl⟩ h2⟩
  obtain ⟨qs, h1, h2⟩ := hqs
  have hsh : (qs.map fun q => q.1.shapes) = qs.map fun _ => [[]] := by
    clear h1 hops
    induction h2 with
    | nil => rfl
    | cons h _ ih => simp only [List.map_cons, ih, h.1]
  have hval : ∀ A, (qs.map fun q => q.2 A) = gs.map fun g => [⟨[], [g A]⟩] := by
    intro A
    clear h1 hsh hops
    induction h2 with
    | nil => rfl
    | cons h _ ih => simp only [List.map_cons, ih, h.2]
  have hm : (Kind.nary .add).make (qs.map fun q => q.1.shapes) = .ok [[]] := by
    rw [hsh]
    have hq : qs ≠ [] := by
      rintro rfl
      cases h1
      exact hne rfl
    clear hsh h1 h2 hval
    show (do
      let ss ← (qs.map fun _ => [([] : List Int)]).mapM Kind.arrayShape
      let t ← naryShape ss
      .ok [t]) = Res.ok [[]]
    have h1 : ∀ l : List (Info × ((Nat → Val) → Val)), (l.map fun _ => [([] : List Int)]).mapM Kind.arrayShape = .ok (l.map fun _ => []) := by
      intro l
      induction l with
      | nil => rfl
      | cons p ops ih =>
        rw [List.map_cons, List.mapM_cons, ih]
        rfl
    rw [h1, Res.ok_bind]
    have h2 : ∀ l : List (Info × ((Nat → Val) → Val)), (l.map fun _ => ([] : List Int)).forM (fun t => do
        guardThrow (dynamicShape t = false)
        guardThrow (([] : List Int) = t)) = Res.ok () := by
      intro l
      induction l with
      | nil => rfl
      | cons p l ih =>
        show (do
          guardThrow (dynamicShape ([] : List Int) = false)
          guardThrow (([] : List Int) = [])
          (l.map fun _ => ([] : List Int)).forM fun t => do
            guardThrow (dynamicShape t = false)
            guardThrow (([] : List Int) = t)) = Res.ok ()
        rw [ih]
        rfl
    match qs, hq with
    | p :: qs, _ =>
      have : naryShape ([] :: qs.map fun _ => []) = .ok [] := by
        unfold naryShape
        have := h2 (p :: qs)
        rw [List.map_cons] at this
        simp only [this, Res.ok_bind]
      rw [List.map_cons, this]
      rfl
  have hne' : ∀ A : Nat → Val, gs.map (fun g => g A) ≠ [] := by
    intro A hc
    have : gs = [] := by simpa using hc
    subst this
    cases hops
    exact hne rfl
  obtain ⟨s', e, N⟩ := S.kind (k := .nary .add) (ops := ops) (qs := qs) (out := [[]]) (v := fun A => [⟨[], [(gs.map fun g => g A).sum]⟩])
    hP h1 rfl rfl hm trivial (by
      intro q hq t ht
      have : q.1.shapes ∈ qs.map fun q => q.1.shapes := List.mem_map.2 ⟨q, hq, rfl⟩
      rw [hsh] at this
      obtain ⟨_, _, e⟩ := List.mem_map.1 this
      rw [← e] at ht
      rw [List.mem_singleton.1 ht]
      simp [GoodShape]) (by simp [GoodShape]) (by
      intro A hA
      rw [hval]
      show [(⟨[], naryValue (· + ·) ((gs.map fun g => [(⟨[], [g A]⟩ : Arr Rat)]).map single)⟩ : Arr Rat)] = _
      have : ((gs.map fun g => [(⟨[], [g A]⟩ : Arr Rat)]).map single) = (gs.map fun g => g A).map fun x => ⟨[], [x]⟩ := by
        rw [List.map_map, List.map_map]
        rfl
      rw [this, naryValue_numbers (hne' A)])
  refine ⟨s', e, N.state, N.ext, N.len, _, _, _, N.has⟩

/-- Lists of numbers as disjoint lists show them. -/
def listsVal (lists : List (List Nat)) : Val := lists.map fun l => ⟨[-1], l.map fun k : Nat => (k : Rat)⟩

/-- Disjoint lists as the first decision. -/
theorem State.lists (S : State full P s (fun _ => False) (fun _ => True)) (hP : P s.length) (p N : Nat) (hN : 0 < N) :
    ∃ s', s.add (.kind (.disjointLists p N)) [] = .ok (s', s.length) ∧
      Next full P s s' (· = s.length)
        (fun A => ∃ lists : List (List Nat), (lists.length = N ∧ lists.flatten.Perm (List.range p)) ∧ A s.length = listsVal lists)
        ⟨List.replicate N [-1], .ok ⟨⟨0, p - 1⟩, true⟩, .of s.length (some 0) (some p), none⟩ (fun A => A s.length) := by
  obtain ⟨s', e, N'⟩ := S.decision (k := .disjointLists p N) (out := List.replicate N [-1]) hP rfl (by
      show (do
        guardThrow (¬ (p : Int) < 0)
        guardThrow (¬ (N : Int) < 1)
        .ok (List.replicate (N : Int).toNat [-1])) = Res.ok _
      rw [guardThrow_true (by omega), Res.ok_bind, guardThrow_true (by omega), Res.ok_bind, Int.toNat_natCast]) trivial (by
      intro t ht
      rw [List.eq_of_mem_replicate ht]
      simp [GoodShape])
  refine ⟨s', e, ?_⟩
  have hsz : (Kind.disjointLists p N).sizeFrom s.length (List.replicate N [-1]) [] [] = .of s.length (some 0) (some p) := by
    obtain ⟨N, rfl⟩ : ∃ m, N = m + 1 := ⟨N - 1, by omega⟩
    unfold Kind.sizeFrom
    simp [Kind.shape1, List.replicate_succ, dynamicShape]
  have hcl : (Kind.disjointLists p N).claimFrom s.sizes [] = .ok ⟨⟨0, p - 1⟩, true⟩ := rfl
  rw [hsz, hcl] at N'
  refine N'.iff fun A => ?_
  show (∃ lists : List (List Rat), [A s.length] = [lists.map fun l => ⟨[-1], l⟩] ∧ lists.length = (N : Int).toNat ∧
    lists.flatten.Perm ((List.range (p : Int).toNat).map fun i : Nat => (i : Rat))) ↔ _
  simp only [Int.toNat_natCast, List.cons.injEq, and_true]
  constructor
  · rintro ⟨lists, e, h1, h2⟩
    have hmem : ∀ l ∈ lists, ∀ v ∈ l, ∃ k : Nat, k < p ∧ v = k := by
      intro l hl v hv
      have := h2.subset (List.mem_flatten.2 ⟨l, hl, hv⟩)
      obtain ⟨k, hk, rfl⟩ := List.mem_map.1 this
      exact ⟨k, List.mem_range.1 hk, rfl⟩
    have : ∃ ls : List (List Nat), lists = ls.map fun l => l.map fun k : Nat => (k : Rat) := by
      clear e h1 h2
      induction lists with
      | nil => exact ⟨[], rfl⟩
      | cons l lists ih =>
        obtain ⟨k, _, rfl⟩ := map_cast_of_all (hmem l (by simp))
        obtain ⟨ls, rfl⟩ := ih fun l hl => hmem l (by simp [hl])
        exact ⟨k :: ls, rfl⟩
    obtain ⟨ls, rfl⟩ := this
    refine ⟨ls, ⟨by simpa using h1, ?_⟩, by rw [e, List.map_map]; rfl⟩
    rw [← List.map_flatten] at h2
    exact (List.map_perm_map_iff (fun a b h => by exact_mod_cast h)).1 h2
  · rintro ⟨ls, ⟨h1, h2⟩, e⟩
    refine ⟨ls.map fun l => l.map fun k : Nat => (k : Rat), by rw [e, List.map_map]; rfl, by simpa using h1, ?_⟩
    rw [← List.map_flatten]
    exact h2.map _

end Script
end Verif
