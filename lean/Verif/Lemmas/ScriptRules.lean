import Verif.Lemmas.ScriptWhole
import Verif.Props.AdvancedIndexing
import Verif.Props.BasicIndexingDynamic

set_option linter.unusedSectionVars false
set_option linter.unusedSimpArgs false
set_option linter.unusedVariables false

/-! Helper lemmas: what the steps of a program that builds a model do. -/

namespace Verif

/-- The contract of a symbol whose first predecessor is a constant. -/
@[reducible] def liftConstContract {N : NodeSem (Arr Rat) (List (Update Rat))} (x : Arr Rat) (C : Contract ArrRel [] N) :
    Contract ValRel [] (liftConst x N) where
  Clean := fun s xs => C.Clean s (xs.tail.map single)
  init := by
    rintro _ ⟨ys, rfl, _, h⟩
    exact C.init h
  view := fun h => by simp only [C.view h]
  diff := fun h => by simp only [C.diff h]; rfl
  propagate := by
    rintro s _ ins zs hc ⟨ys, rfl, hy, hx⟩ ⟨ys', rfl, hy', hx'⟩ hi
    obtain ⟨d, _, ins', _, rfl, e, _, hi'⟩ := hi.cons_inv
    obtain ⟨_, rfl⟩ := List.cons.inj e
    obtain ⟨s', e, hv, hd, hc', hr'⟩ := C.propagate hc hx hx' (hi'.lift fun x h => (hy x h).1)
    exact ⟨s', e, by simp only [hv, List.tail_cons], valRel_single hd, hc', hr'⟩

/-- Such a symbol when only its initialisation is considered. -/
@[reducible] def liftConstSettled {N : NodeSem (Arr Rat) (List (Update Rat))} (x : Arr Rat) (C : Settled [] N) :
    Settled [] (liftConst x N) where
  Clean := fun s xs => C.Clean s (xs.tail.map single)
  init := by
    rintro _ ⟨ys, rfl, _, h⟩
    exact C.init h
  view := fun h => by simp only [C.view h]
  diff := fun h => by simp only [C.diff h]; rfl

namespace Script

variable {full : Prop} {P : Nat → Prop} {s s' s'' : Script} {A vals : Nat → Val} {D : Nat → Prop} {adm : (Nat → Val) → Prop}

/-- What is known about symbol number `i`. -/
structure Has (P : Nat → Prop) (s : Script) (i : Nat) (info : Info) (v : (Nat → Val) → Val) : Prop where
  is : Is P s i info.shapes v
  out : (s.row i).out = info

theorem Has.mono {i : Nat} {info : Info} {v : (Nat → Val) → Val} (h : Has P s i info v) (e : Ext P s s') : Has P s' i info v :=
  ⟨h.is.mono e, by rw [e.same i h.is.lt h.is.allowed, h.out]⟩

theorem Has.size {i : Nat} {info : Info} {v : (Nat → Val) → Val} (h : Has P s i info v) : s.sizes i = info.size := by
  unfold sizes
  rw [h.out]

/-- The symbols made so far are in order; the decisions among them satisfy `D`, and `adm` says which values they accept. -/
structure State (full : Prop) (P : Nat → Prop) (s : Script) (D : Nat → Prop) (adm : (Nat → Val) → Prop) : Prop where
  good : Good full P s
  admits : ∀ A, Admits P s A ↔ adm A
  dec : ∀ i < s.length, (s.row i).decision = true → D i

theorem state_nil : State full P [] (fun _ => False) (fun _ => True) :=
  ⟨good_nil, fun A => ⟨fun _ => trivial, fun _ i hi => absurd hi (by simp)⟩, fun i hi => absurd hi (by simp)⟩

/-- A symbol has been added. -/
structure Next (full : Prop) (P : Nat → Prop) (s s' : Script) (D : Nat → Prop) (adm : (Nat → Val) → Prop)
    (info : Info) (v : (Nat → Val) → Val) : Prop where
  state : State full P s' D adm
  ext : Ext P s s'
  len : s'.length = s.length + 1
  has : Has P s' s.length info v

theorem Next.congr {info : Info} {v v' : (Nat → Val) → Val} (N : Next full P s s' D adm info v) (h : ∀ A, adm A → v A = v' A) :
    Next full P s s' D adm info v' :=
  ⟨N.state, N.ext, N.len,
    ⟨N.has.is.lt, N.has.is.allowed, N.has.is.shapes,
      fun A vals hA hr => by rw [N.has.is.value A vals hA hr, h A ((N.state.admits A).1 hA)],
      fun A hA => by rw [← h A ((N.state.admits A).1 hA)]; exact N.has.is.fits A hA⟩, N.has.out⟩

/-- A constructor that succeeds. -/
theorem State.make (S : State full P s D adm) {t : Term} {ops : List Nat} {qs : List (Info × ((Nat → Val) → Val))} {b : Built}
    {out : Info} {v : (Nat → Val) → Val} (hP : P s.length)
    (hops : List.Forall₂ (fun p (q : Info × ((Nat → Val) → Val)) => Has P s p q.1 q.2) ops qs)
    (hc : t.construct s.length s.sizes ops (qs.map Prod.fst) = .ok (b, out)) (hb : b.decision = false)
    (hk : ∃ C : Settled ([] : Dif) (b.node (qs.map Prod.fst) out),
      (∀ xs, (b.node (qs.map Prod.fst) out).ok xs → ((b.node (qs.map Prod.fst) out).f xs).map Arr.shape = out.shapes) ∧
      (full ∨ b.isPermutation = false → C.Propagates ValRel))
    (hok : ∀ A, adm A → (b.node (qs.map Prod.fst) out).ok (qs.map fun q => q.2 A))
    (hv : ∀ A, adm A → (b.node (qs.map Prod.fst) out).f (qs.map fun q => q.2 A) = v A)
    (hfit : ∀ A, adm A → HasShapes out.shapes (v A)) :
    ∃ s', s.add t ops = .ok (s', s.length) ∧ Next full P s s' D adm out v := by
  have hins : (ops.map fun p => (s.row p).out) = qs.map Prod.fst := by
    clear hc hb hk hok hv hfit
    induction hops with
    | nil => rfl
    | cons h _ ih => simp only [List.map_cons, ih, h.out]
  have hare : Are P s ops (qs.map fun q => (q.1.shapes, q.2)) := by
    clear hc hb hk hok hv hfit hins
    unfold Are
    induction hops with
    | nil => exact .nil
    | cons h _ ih => exact .cons h.is ih
  have hval : ∀ A vals, Admits P s A → Runs P s A vals → ops.map vals = qs.map fun q => q.2 A := by
    intro A vals hA hr
    have := hare.values hA hr
    rw [List.map_map] at this
    exact this
  obtain ⟨e, G'⟩ := S.good.add (t := t) (ops := ops) (b := b) (out := out) hare.lt (by rw [hins]; exact hc)
    ⟨fun h => absurd h (by simp [Row.decision, hb]), fun _ => by rw [hins]; exact hk⟩ (by
      intro A vals hA hr _
      rw [hins, hval A vals hA hr]
      exact hok A ((S.admits A).1 hA))
  have hadm : ∀ A, Admits P (s ++ [⟨b, ops, ops.map fun p => (s.row p).out, out⟩]) A ↔ Admits P s A := by
    intro A
    refine ⟨fun h => (ext_append _).admits h, fun h i hi hp hd => ?_⟩
    rcases Nat.lt_or_ge i s.length with hl | hl
    · rw [row_append hl] at hd ⊢
      exact h i hl hp hd
    · obtain rfl : i = s.length := by simp at hi; omega
      rw [row_last] at hd
      rw [show Row.decision _ = b.decision from rfl, hb] at hd
      cases hd
  refine ⟨_, e, ⟨G', fun A => (hadm A).trans (S.admits A), ?_⟩, ext_append _, by simp,
    ⟨by simp, hP, by rw [row_last], ?_, ?_⟩, by rw [row_last]⟩
  · intro i hi hd
    rcases Nat.lt_or_ge i s.length with hl | hl
    · rw [row_append hl] at hd
      exact S.dec i hl hd
    · obtain rfl : i = s.length := by simp at hi; omega
      rw [row_last] at hd
      rw [show Row.decision _ = b.decision from rfl, hb] at hd
      cases hd
  · intro A vals hA hr
    have hA' := (hadm A).1 hA
    rw [hr.last hP]
    unfold Row.operands
    rw [show Row.decision _ = b.decision from rfl, hb]
    simp only [Bool.false_eq_true, if_false]
    rw [hval A vals hA' ((ext_append _).runs hr)]
    show (Built.node _ _ _).f _ = _
    rw [hins]
    exact hv A ((S.admits A).1 hA')
  · intro A hA
    exact hfit A ((S.admits A).1 ((hadm A).1 hA))

/-- A symbol of the catalog that is not a decision. -/
theorem State.kind (S : State full P s D adm) {k : Kind} {ops : List Nat} {qs : List (Info × ((Nat → Val) → Val))}
    {out : List (List Int)} {v : (Nat → Val) → Val} (hP : P s.length)
    (hops : List.Forall₂ (fun p (q : Info × ((Nat → Val) → Val)) => Has P s p q.1 q.2) ops qs)
    (hd : k.isDecision = false) (ha : k.asks = false)
    (hm : k.make (qs.map fun q => q.1.shapes) = .ok out) (hreg : k.Regular (qs.map fun q => q.1.shapes))
    (hgin : ∀ q ∈ qs, ∀ t ∈ q.1.shapes, GoodShape t) (hgout : ∀ t ∈ out, GoodShape t)
    (hv : ∀ A, adm A → (k.node (qs.map fun q => q.1.shapes) out).f (qs.map fun q => q.2 A) = v A) :
    ∃ s', s.add (.kind k) ops = .ok (s', s.length) ∧ Next full P s s' D adm
      ⟨out, k.claimFrom s.sizes (qs.map Prod.fst), k.sizeFrom s.length out ops (qs.map Prod.fst), k.value⟩ v := by
  have hF := (kind_facts hm hreg (by
    intro p hp
    obtain ⟨q, hq, rfl⟩ := List.mem_map.1 hp
    exact hgin q hq) hgout).1 hd
  have hmap : (qs.map Prod.fst).map Info.shapes = qs.map fun q => q.1.shapes := by rw [List.map_map]; rfl
  have hc : (Term.kind k).construct s.length s.sizes ops (qs.map Prod.fst) =
      .ok (.kind k, ⟨out, k.claimFrom s.sizes (qs.map Prod.fst), k.sizeFrom s.length out ops (qs.map Prod.fst), k.value⟩) := by
    show k.construct _ _ _ _ = _
    unfold Kind.construct
    rw [ha]
    have hrc : k.rangeChecks [] := by cases k <;> trivial
    simp only [Bool.false_eq_true, if_false, Res.ok_bind, guardThrow_true hrc, hmap, hm]
  have hnode : ∀ o : Info, o.shapes = out → (Built.kind k).node (qs.map Prod.fst) o = k.node (qs.map fun q => q.1.shapes) out := by
    intro o ho
    show k.node _ _ = _
    rw [hmap, ho]
  have hfits : ∀ A, adm A → (k.node (qs.map fun q => q.1.shapes) out).ok (qs.map fun q => q.2 A) := by
    intro A hA
    refine hF.accepts _ ?_
    clear hc hm hreg hgin hv hF hmap hnode
    induction hops with
    | nil => exact .nil
    | cons h _ ih => exact .cons (h.is.fits A ((S.admits A).2 hA)) ih
  refine S.make hP hops hc hd ?_ ?_ ?_ ?_
  · have hex : ∀ N, N = k.node (qs.map fun q => q.1.shapes) out → ∃ C : Settled ([] : Dif) N,
        (∀ xs, N.ok xs → (N.f xs).map Arr.shape = out) ∧ (full ∨ (Built.kind k).isPermutation = false → C.Propagates ValRel) := by
      rintro _ rfl
      obtain ⟨C, hC⟩ := hF.contract
      exact ⟨C, fun xs h => (hF.out xs h).1, fun _ => hC⟩
    exact hex _ (hnode _ rfl)
  · intro A hA
    rw [hnode _ rfl]
    exact hfits A hA
  · intro A hA
    rw [hnode _ rfl]
    exact hv A hA
  · intro A hA
    have := hF.out _ (hfits A hA)
    rwa [hv A hA] at this

/-- The first decision. -/
theorem State.decision (S : State full P s (fun _ => False) (fun _ => True)) {k : Kind} {out : List (List Int)}
    (hP : P s.length) (hd : k.isDecision = true) (hm : k.make [] = .ok out) (hreg : k.Regular [])
    (hgout : ∀ t ∈ out, GoodShape t) :
    ∃ s', s.add (.kind k) [] = .ok (s', s.length) ∧
      Next full P s s' (· = s.length) (fun A => (k.node [] out).ok [A s.length])
        ⟨out, k.claimFrom s.sizes [], k.sizeFrom s.length out [] [], none⟩ (fun A => A s.length) := by
  have hv : k.value = none := by cases k <;> first | rfl | cases hd
  obtain ⟨⟨L⟩, hout⟩ := (kind_facts hm hreg (by simp) hgout).2 hd
  have ha : k.asks = false := by cases k <;> first | rfl | cases hd
  have hc : (Term.kind k).construct s.length s.sizes [] [] =
      .ok (.kind k, ⟨out, k.claimFrom s.sizes [], k.sizeFrom s.length out [] [], k.value⟩) := by
    show k.construct _ _ _ _ = _
    unfold Kind.construct
    rw [ha]
    have hrc : k.rangeChecks [] := by cases k <;> trivial
    simp only [Bool.false_eq_true, if_false, Res.ok_bind, guardThrow_true hrc, List.map_nil, hm]
  rw [hv] at hc
  obtain ⟨s', e, G', hext, his, _, _, _, hdec, hadm, hadm'⟩ := S.good.decision hP hd hm hreg hgout
  have hs' : s' = s ++ [⟨.kind k, [], [], ⟨out, k.claimFrom s.sizes [], k.sizeFrom s.length out [] [], none⟩⟩] := by
    have : s.add (.kind k) [] = .ok (s ++ [⟨.kind k, [], [], ⟨out, k.claimFrom s.sizes [], k.sizeFrom s.length out [] [], none⟩⟩], s.length) := by
      unfold Script.add
      rw [guardUB_true (by simp), Res.ok_bind, List.map_nil, hc, Res.ok_bind]
    rw [this] at e
    simpa using e.symm
  refine ⟨s', e, ⟨G', fun A => ⟨hadm A, fun h => hadm' A ((S.admits A).2 trivial) h⟩, ?_⟩, hext, by rw [hs']; simp, his,
    by rw [hs', row_last]⟩
  intro i hi hdi
  rcases Nat.lt_or_ge i s.length with hl | hl
  · rw [hs', row_append hl] at hdi
    exact (S.dec i hl hdi).elim
  · rw [hs'] at hi
    simp at hi
    omega

/-! ## Symbols with one output -/

/-- What is known about an array symbol: `g A` are its elements if the decisions have the values `A`. -/
abbrev HasArr (P : Nat → Prop) (s : Script) (i : Nat) (sh : List Int) (claim : Res Claim) (size : SizeInfo) (const : Option (Arr Rat))
    (g : (Nat → Val) → List Rat) : Prop := Has P s i ⟨[sh], claim, size, const⟩ fun A => [⟨sh, g A⟩]

abbrev NextArr (full : Prop) (P : Nat → Prop) (s s' : Script) (D : Nat → Prop) (adm : (Nat → Val) → Prop)
    (sh : List Int) (claim : Res Claim) (size : SizeInfo) (const : Option (Arr Rat)) (g : (Nat → Val) → List Rat) : Prop :=
  Next full P s s' D adm ⟨[sh], claim, size, const⟩ fun A => [⟨sh, g A⟩]

theorem NextArr.congr {sh : List Int} {claim : Res Claim} {size : SizeInfo} {const : Option (Arr Rat)} {g g' : (Nat → Val) → List Rat}
    (N : NextArr full P s s' D adm sh claim size const g) (h : ∀ A, adm A → g A = g' A) :
    NextArr full P s s' D adm sh claim size const g' := Next.congr N fun A hA => by rw [h A hA]

theorem HasArr.wf {i : Nat} {sh : List Int} {claim : Res Claim} {size : SizeInfo} {const : Option (Arr Rat)}
    {g : (Nat → Val) → List Rat} (h : HasArr P s i sh claim size const g) (S : State full P s D adm) (hA : adm A) :
    (⟨sh, g A⟩ : Arr Rat).WF := (h.is.fits A ((S.admits A).2 hA)).2 _ (by simp)

theorem HasArr.length {i : Nat} {sh : List Int} {claim : Res Claim} {size : SizeInfo} {const : Option (Arr Rat)}
    {g : (Nat → Val) → List Rat} (h : HasArr P s i sh claim size const g) (S : State full P s D adm) (hA : adm A)
    (hs : dynamicShape sh = false) : ((g A).length : Int) = sh.prod := by
  have := h.wf S hA
  unfold Arr.WF Arr.dynamic at this
  simpa [hs] using this

/-- `model.constant(a)`. -/
theorem State.constant (S : State full P s D adm) (hP : P s.length) (a : Arr Rat) (hw : a.WF) (hg : GoodShape a.shape)
    (hs : dynamicShape a.shape = false) :
    ∃ s', s.add (.kind (.constant a)) [] = .ok (s', s.length) ∧
      NextArr full P s s' D adm a.shape ((Kind.constant a).claim [] (.fixed 0) (.ok (.fixed 1)) []) (.fixed a.shape.prod) (some a)
        (fun _ => a.data) := by
  obtain ⟨s', e, N⟩ := S.kind (k := .constant a) (ops := []) (qs := []) (out := [a.shape]) (v := fun _ => [⟨a.shape, a.data⟩])
    hP .nil rfl rfl rfl hw (by simp) (by simpa using hg) (fun _ _ => rfl)
  refine ⟨s', e, ?_⟩
  have hsz : (Kind.constant a).sizeFrom s.length [a.shape] [] [] = .fixed a.shape.prod := by
    unfold Kind.sizeFrom
    simp [Kind.shape1, hs]
  have hcl : (Kind.constant a).claimFrom s.sizes [] = (Kind.constant a).claim [] (.fixed 0) (.ok (.fixed 1)) [] := rfl
  rw [List.map_nil, hsz, hcl] at N
  exact N

/-- The sum of an array. -/
theorem State.sum (S : State full P s D adm) (hP : P s.length) {x : Nat} {sh : List Int} {claim : Res Claim} {size : SizeInfo}
    {const : Option (Arr Rat)} {g : (Nat → Val) → List Rat} (hx : HasArr P s x sh claim size const g) (hg : GoodShape sh) :
    ∃ s' c, s.add (.kind (.reduce .sum 0)) [x] = .ok (s', s.length) ∧
      NextArr full P s s' D adm [] c (.fixed 1) none (fun A => [(g A).sum]) := by
  obtain ⟨s', e, N⟩ := S.kind (k := .reduce .sum 0) (ops := [x]) (qs := [(_, _)]) (out := [[]]) (v := fun A => [⟨[], [(g A).sum]⟩])
    hP (.cons hx .nil) rfl rfl rfl trivial (by simpa using hg) (by simp [GoodShape]) (fun A _ => by
      show [(⟨[], [_]⟩ : Arr Rat)] = _
      simp [single])
  exact ⟨s', _, e, N⟩

end Script
end Verif
