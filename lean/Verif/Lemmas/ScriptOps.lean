import Verif.Lemmas.ScriptAdvanced

set_option linter.unusedSectionVars false
set_option linter.unusedSimpArgs false
set_option linter.unusedVariables false

/-! Helper lemmas: operations in programs that build models. -/

namespace Verif

theorem broadcastRev_same : ∀ l : List Int, broadcastRev l l = .ok l
  | [] => rfl
  | d :: l => by
    simp only [broadcastRev, if_true, broadcastRev_same l]
    rfl

theorem binaryShape_self {sh : List Int} (h : dynamicShape sh = false) : binaryShape sh sh = .ok sh := by
  unfold binaryShape broadcastShape
  rw [broadcastRev_same sh.reverse, Res.ok_bind, List.reverse_reverse, Res.ok_bind, guardThrow_true (by simp [h]), Res.ok_bind]

/-- Arrays of the same fixed shape are combined position by position. -/
theorem binaryValue_self {sh : List Int} {l r : List Rat} (func : Rat → Rat → Rat) (hs : dynamicShape sh = false)
    (hl : (l.length : Int) = sh.prod) (hr : (r.length : Int) = sh.prod) :
    binaryValue func ⟨sh, l⟩ ⟨sh, r⟩ = List.zipWith func l r := by
  unfold binaryValue
  by_cases h1 : sizeOne sh = true
  · rw [if_pos h1]
    have hp : sh.prod = 1 := by
      unfold sizeOne at h1
      simpa [hs] using h1
    rw [hp] at hl hr
    match l, r, hl, hr with
    | [a], [b], _, _ => rfl
  · rw [if_neg h1, if_neg h1]

namespace Script

variable {full : Prop} {P : Nat → Prop} {s s' s'' : Script} {A vals : Nat → Val} {D : Nat → Prop} {adm : (Nat → Val) → Prop}

/-- Combine two arrays of the same fixed shape. -/
theorem State.binary (S : State full P s D adm) (hP : P s.length) (op : BinaryOp) (hop : op ≠ .divide) {x y : Nat} {sh : List Int}
    {claim claim' : Res Claim} {size size' : SizeInfo} {const const' : Option (Arr Rat)} {g g' : (Nat → Val) → List Rat}
    (hx : HasArr P s x sh claim size const g) (hy : HasArr P s y sh claim' size' const' g') (hg : GoodShape sh)
    (hs : dynamicShape sh = false) :
    ∃ s', s.add (.kind (.binary op)) [x, y] = .ok (s', s.length) ∧
      NextArr full P s s' D adm sh ((Kind.binary op).claimFrom s.sizes [⟨[sh], claim, size, const⟩, ⟨[sh], claim', size', const'⟩])
        (.fixed sh.prod) none (fun A => List.zipWith op.func (g A) (g' A)) := by
  obtain ⟨s', e, N⟩ := S.kind (k := .binary op) (ops := [x, y]) (qs := [(_, _), (_, _)]) (out := [sh])
    (v := fun A => [⟨sh, List.zipWith op.func (g A) (g' A)⟩])
    hP (.cons hx (.cons hy .nil)) rfl (by cases op <;> first | rfl | exact absurd rfl hop) (by
      show (do
        let l ← Kind.arrayShape [sh]
        let r ← Kind.arrayShape [sh]
        let t ← binaryShape l r
        .ok [t]) = Res.ok [sh]
      rw [show Kind.arrayShape [sh] = .ok sh from rfl]
      simp only [Res.ok_bind, binaryShape_self hs])
    (by simp [Kind.Regular, Kind.shape1, hs]) (by simpa using hg) (by simpa using hg) (fun A hA => by
      show [(⟨sh, binaryValue op.func ⟨sh, g A⟩ ⟨sh, g' A⟩⟩ : Arr Rat)] = _
      rw [binaryValue_self _ hs (hx.length S hA hs) (hy.length S hA hs)])
  refine ⟨s', e, ?_⟩
  have hsz : (Kind.binary op).sizeFrom s.length [sh] [x, y] [⟨[sh], claim, size, const⟩, ⟨[sh], claim', size', const'⟩] = .fixed sh.prod := by
    unfold Kind.sizeFrom
    simp [Kind.shape1, hs]
  simp only [List.map_cons, List.map_nil, hsz] at N
  exact N

/-- Operations with truth values. -/
theorem State.truth (S : State full P s D adm) (hP : P s.length) (op : BinaryOp) (hop : (Kind.binary op).isTruth = true) {x y : Nat}
    {sh : List Int} {claim claim' : Res Claim} {size size' : SizeInfo} {const const' : Option (Arr Rat)} {g g' : (Nat → Val) → List Rat}
    (hx : HasArr P s x sh claim size const g) (hy : HasArr P s y sh claim' size' const' g') (hg : GoodShape sh)
    (hs : dynamicShape sh = false) :
    ∃ s', s.add (.kind (.binary op)) [x, y] = .ok (s', s.length) ∧
      NextArr full P s s' D adm sh (.ok ⟨⟨0, 1⟩, true⟩) (.fixed sh.prod) none (fun A => List.zipWith op.func (g A) (g' A)) := by
  obtain ⟨s', e, N⟩ := S.binary hP op (by rintro rfl; cases hop) hx hy hg hs
  refine ⟨s', e, ?_⟩
  have : (Kind.binary op).claimFrom s.sizes [⟨[sh], claim, size, const⟩, ⟨[sh], claim', size', const'⟩] = .ok ⟨⟨0, 1⟩, true⟩ := by
    unfold Kind.claimFrom
    rw [if_pos hop]
  rwa [this] at N

/-- `x.all()`. -/
theorem State.all (S : State full P s D adm) (hP : P s.length) {x : Nat} {sh : List Int} {claim : Res Claim} {size : SizeInfo}
    {const : Option (Arr Rat)} {g : (Nat → Val) → List Rat} (hx : HasArr P s x sh claim size const g) (hg : GoodShape sh) :
    ∃ s', s.add (.kind (.reduce .all 1)) [x] = .ok (s', s.length) ∧
      NextArr full P s s' D adm [] (.ok ⟨⟨0, 1⟩, true⟩) (.fixed 1) none (fun A => [allValue 1 (g A)]) := by
  obtain ⟨s', e, N⟩ := S.kind (k := .reduce .all 1) (ops := [x]) (qs := [(_, _)]) (out := [[]]) (v := fun A => [⟨[], [allValue 1 (g A)]⟩])
    hP (.cons hx .nil) rfl rfl rfl trivial (by simpa using hg) (by simp [GoodShape]) (fun A _ => by
      show [(⟨[], [_]⟩ : Arr Rat)] = _
      simp [single])
  exact ⟨s', e, N⟩

/-- `x.max()`. -/
theorem State.max (S : State full P s D adm) (hP : P s.length) {x : Nat} {sh : List Int} {claim : Res Claim} {size : SizeInfo}
    {const : Option (Arr Rat)} {g : (Nat → Val) → List Rat} (hx : HasArr P s x sh claim size const g) (hg : GoodShape sh)
    (hs : dynamicShape sh = false) (h1 : 1 ≤ sh.prod) :
    ∃ s' c, s.add (.kind (.fold .max none)) [x] = .ok (s', s.length) ∧
      NextArr full P s s' D adm [] c (.fixed 1) none (fun A => [foldValue Max.max none (g A)]) := by
  obtain ⟨s', e, N⟩ := S.kind (k := .fold .max none) (ops := [x]) (qs := [(_, _)]) (out := [[]])
    (v := fun A => [⟨[], [foldValue Max.max none (g A)]⟩])
    hP (.cons hx .nil) rfl rfl (by
      show (do
        let s ← Kind.arrayShape [sh]
        guardThrow ((none : Option Rat) = none → dynamicShape s = false ∧ 1 ≤ s.prod)
        .ok [[]]) = Res.ok [[]]
      rw [show Kind.arrayShape [sh] = .ok sh from rfl, Res.ok_bind, guardThrow_true (fun _ => ⟨hs, h1⟩), Res.ok_bind])
    trivial (by simpa using hg) (by simp [GoodShape]) (fun A _ => by
      show [(⟨[], [_]⟩ : Arr Rat)] = _
      simp [single])
  exact ⟨s', _, e, N⟩

/-- A successor of disjoint collections. -/
theorem State.output (S : State full P s D adm) (hP : P s.length) {x : Nat} {shs : List (List Int)} {claim : Claim} {size : SizeInfo}
    {const : Option (Arr Rat)} {v : (Nat → Val) → Val} (hx : Has P s x ⟨shs, .ok claim, size, const⟩ v) (i : Nat) {sh : List Int}
    (hi : shs[i]? = some sh) (hg : ∀ t ∈ shs, GoodShape t)
    {g : (Nat → Val) → List Rat} (hv : ∀ A, adm A → (v A).getD i ⟨[], []⟩ = ⟨sh, g A⟩) :
    ∃ s', s.add (.kind (.output i)) [x] = .ok (s', s.length) ∧
      NextArr full P s s' D adm sh (.ok claim)
        (if dynamicShape sh then .of s.length size.min size.max else .fixed sh.prod) none g := by
  have hlt : i < shs.length := (List.getElem?_eq_some_iff.1 hi).1
  have hget : shs.getD i [] = sh := by rw [List.getD_eq_getElem?_getD, hi]; rfl
  obtain ⟨s', e, N⟩ := S.kind (k := .output i) (ops := [x]) (qs := [(_, _)]) (out := [sh])
    (v := fun A => [⟨sh, g A⟩])
    hP (.cons hx .nil) rfl rfl (by
      show (do
        guardThrow (i < shs.length)
        .ok [shs.getD i []]) = Res.ok [sh]
      rw [guardThrow_true hlt, Res.ok_bind, hget])
    trivial (by simpa using hg) (by simpa using hg sh (List.mem_of_getElem? hi)) (fun A hA => by
      show [(v A).getD i ⟨[], []⟩] = _
      rw [hv A hA])
  refine ⟨s', e, ?_⟩
  have hsz : (Kind.output i).sizeFrom s.length [sh] [x] [⟨shs, .ok claim, size, const⟩] =
      if dynamicShape sh then .of s.length size.min size.max else .fixed sh.prod := by
    unfold Kind.sizeFrom
    by_cases h : dynamicShape sh = true <;> simp [Kind.shape1, h]
  have hcl : (Kind.output i).claimFrom s.sizes [⟨shs, .ok claim, size, const⟩] = .ok claim := rfl
  simp only [List.map_cons, List.map_nil, hsz, hcl] at N
  exact N

end Script
end Verif
