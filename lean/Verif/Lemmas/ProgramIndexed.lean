import Verif.Lemmas.ProgramUnsliced

set_option linter.unusedSectionVars false
set_option linter.unusedSimpArgs false
set_option linter.unusedVariables false

/-! Helper lemmas: the values of the symbols made by a program. -/

namespace Verif

theorem Kind.rangeChecks_of_not_asks {k : Kind} (h : k.asks = false) (cs : List Claim) : k.rangeChecks cs := by
  unfold Kind.rangeChecks
  split
  · rename_i op c
    cases op <;> trivial
  · rename_i op c d
    cases op <;> trivial
  · trivial

theorem mapM_claims {ins : List Info} {cs : List Claim} (h : ins.mapM Info.claim = .ok cs) :
    List.Forall₂ (fun i c => i.claim = .ok c) ins cs := by
  induction ins generalizing cs with
  | nil =>
    simp only [List.mapM_nil, Res.pure_eq, Res.ok.injEq] at h
    subst h
    exact .nil
  | cons i ins ih =>
    rw [List.mapM_cons] at h
    obtain ⟨c, hc, h⟩ := Res.bind_eq_ok.1 h
    obtain ⟨cs', hcs, h⟩ := Res.bind_eq_ok.1 h
    simp only [Res.pure_eq, Res.ok.injEq] at h
    subst h
    exact .cons hc (ih hcs)

namespace Script

open Symbols (lengths first_output describes_self binary_lengths)

variable {s : Script} {A vals : Nat → Val} {T : Nat → Prop}

/-- What is known of a symbol and its value. -/
structure Fact (s : Script) (T : Nat → Prop) (vals : Nat → Val) (i : Nat) : Prop where
  shapes : HasShapes (s.row i).out.shapes (vals i)
  accepts : (s.row i).decision = false → (s.row i).node.ok ((s.row i).ops.map vals)
  claim : T i → ∀ c, (s.row i).out.claim = .ok c → c.Holds (vals i)
  describes : s.Unsliced i → (s.sizes i).Describes (lengths vals) (lengths vals i)

/-- Symbols made before `i`. -/
theorem Made.chain (h : s.Made) {i : Nat} {info : Nat → SizeInfo} (hinfo : ∀ j < i, info j = s.sizes j)
    (ih : ∀ j < i, j < s.length → s.Fact T vals j) : SizeInfo.Chain info (lengths vals) (fun j => j < i ∧ s.Unsliced j) := by
  refine ⟨?_, ?_, ?_⟩
  · rintro j ⟨hj, u⟩
    rw [hinfo j hj]
    exact (ih j hj u.lt).describes u
  · rintro j ⟨hj, u⟩
    obtain ⟨b, lo, hi, e, _⟩ := u.says h
    rw [hinfo j hj, e]
    rfl
  · rintro j ⟨hj, u⟩
    obtain ⟨b, lo, hi, e, hb, ub, _⟩ := u.says h
    rw [hinfo j hj, e]
    exact ⟨b, rfl, lt_of_le_of_lt hb hj, ub⟩

theorem Made.fixed (h : s.Made) {i : Nat} (hi : i < s.length) (hr : (s.row i).Regular)
    (hd : dynamicShape (s.row i).out.shape = false) : s.sizes i = .fixed (s.row i).out.shape.prod := by
  obtain ⟨sizes, _, _, _, how⟩ := h.how hi
  unfold Row.Regular at hr
  cases how with
  | kind hb _ _ _ ho =>
    rw [ho] at hd
    unfold Script.sizes
    rw [ho]
    show Kind.sizeFrom _ _ _ _ _ = _
    unfold Kind.sizeFrom
    rw [if_neg (by intro h'; rw [show dynamicShape (Kind.shape1 _) = false from hd] at h'; cases h')]
    rfl
  | @basic x sh idx P z hb hops _ _ hP hz ho =>
    rw [hb] at hr
    obtain ⟨hcont, hr⟩ := hr
    rw [ho] at hd
    have hd : dynamicShape P.shape = false := hd
    rcases hr with ⟨h1, h2, h3⟩ | ⟨rest, a, b, c, more, rfl, rfl, hD, hpos, hrow⟩
    · obtain ⟨k1, _⟩ := indexed_fixed h1 h2 hP hcont h3
      rw [k1] at hz
      simp only [Res.ok.injEq] at hz
      unfold Script.sizes
      rw [ho, ← hz]
      rfl
    · obtain ⟨_, k2, _⟩ := indexed_dynamic hD hP hcont hpos hrow
      rw [k2] at hd
      simp [dynamicShape] at hd
  | @advanced x xs sh slots idx P z hb _ _ _ _ ho =>
    rw [ho] at hd
    have hd : dynamicShape P.shape = false := hd
    unfold Script.sizes
    rw [ho]
    show (if dynamicShape P.shape = true then _ else _) = _
    rw [hd, if_neg (by simp)]
    rfl
  | permutation hb ho =>
    unfold Script.sizes
    rw [ho]
    rfl

theorem lengths_fixed {i : Nat} (hS : s.Static i) (hF : s.Fact T vals i) (hd : dynamicShape (s.row i).out.shape = false) :
    (lengths vals i : Int) = (s.row i).out.shape.prod := by
  obtain ⟨f1, f2⟩ := first_output hS.ne hF.shapes
  have hl := f2.length_fixed (show dynamicShape (single (vals i)).shape = false by rw [f1]; exact hd)
  rw [f1] at hl
  exact hl

/-- Index arrays that can be compared. -/
theorem Measured.comparable (h : s.Made) (hr : ∀ i < s.length, (s.row i).Regular) (hfol : s.Follows A vals)
    (hrep : ∀ i < s.length, ∀ a ∈ vals i, (a.data.length : Int) ≤ ssMax ∧ ∀ x ∈ a.data, Finite x)
    {i : Nat} (hi : i < s.length) {info : Nat → SizeInfo} (hinfo : ∀ j < i, info j = s.sizes j)
    (ih : ∀ j < i, j < s.length → s.Fact T vals j) {p : Nat} (hp : p < i) (m : s.Measured p) :
    SizeInfo.Comparable info (lengths vals) (fun j => j < i ∧ s.Unsliced j) p := by
  have hpl := lt_trans hp hi
  cases m with
  | fixed hd =>
    refine .fixed ?_
    rw [hinfo p hp, h.fixed hpl (hr p hpl) hd, lengths_fixed (h.static hr p hpl) (ih p hp hpl) hd]
  | unsliced u => exact .refers ⟨hp, u⟩
  | @slice x a b P hb hops ux hroot hsay =>
    have hxp : x < p := h.before hpl x (by rw [hops]; simp)
    have hxl := lt_trans hxp hpl
    have hreg := hr p hpl
    unfold Row.Regular at hreg
    rw [hb] at hreg
    obtain ⟨hcont, hreg⟩ := hreg
    obtain ⟨sizes, _, _, hsz, how⟩ := h.how hpl
    cases how with
    | kind hb' => rw [hb] at hb'; cases hb'
    | advanced hb' => rw [hb] at hb'; cases hb'
    | permutation hb' => rw [hb] at hb'; cases hb'
    | @basic x' sh idx P' z hb' hops' _ hsh hP hz ho =>
      rw [hb] at hb'
      cases hb'
      obtain rfl : x = x' := by rw [hops] at hops'; simpa using hops'
      rcases hreg with ⟨h1, _⟩ | ⟨rest, a', b', c', more, e1, e2, hD, hpos, hrow⟩
      · exact absurd (h1 (-1) (by simp)).1 (by decide)
      · cases e1
        cases e2
        obtain ⟨⟨sl, hsl, hax⟩, hshape, hI⟩ := indexed_dynamic hD hP hcont hpos hrow
        rw [hax, hshape] at hz
        have hz : SizeInfo.ofSlice x 1 1 sl = .ok z := hz
        have hFx := ih x (lt_trans hxp hp) hxl
        obtain ⟨v, hv, hvs, hvw⟩ := (hsh ▸ hFx.shapes : HasShapes [[-1]] (vals x)).one
        have hn := (hrep x hxl v (by rw [hv]; simp)).1
        obtain ⟨M, o, hz', hlen⟩ := slice_cut hsay (hD.fits _ (by simp)) hsl hz hn
        refine .slice (a := x) (max := M) (offset := o) ⟨?_, by omega, ⟨lt_trans hxp hp, ux⟩, ?_, ?_, ?_⟩
        · rw [hinfo p hp]
          unfold Script.sizes
          rw [ho]
          exact hz'
        · rw [hinfo x (lt_trans hxp hp)]; exact hroot
        · obtain ⟨c, lo, hi', e, _, _, hlo, _⟩ := ux.says h
          rw [hinfo x (lt_trans hxp hp), e]
          exact hlo
        · have hval := hfol p hpl
          have hdec : (s.row p).decision = false := by unfold Row.decision; rw [hb]; rfl
          rw [hdec, hops] at hval
          have hnode : (s.row p).node = liftNode (basicNode [-1] [.slice a b none] P) := by unfold Row.node; rw [hb]
          rw [hnode] at hval
          rw [hI.computes] at hval
          have hl : lengths vals p = (basicSelect v.shapeNow v.data [.slice a b none]).length := by
            unfold lengths
            rw [hval]
            simp only [Bool.false_eq_true, if_false, List.map_cons, List.headD_cons, hv]
            rfl
          obtain ⟨n, hn1, hn2⟩ := rows_of_wf (rest := []) (by simp [shapeProd]) hvs hvw
          have : v.data.length = n := by simpa [shapeProd] using hn1
          rw [hl, hn2, ← this, select_one]
          unfold lengths
          rw [hlen, hv]
          rfl


theorem isIndex_of_claim {c : Claim} {y : Arr Rat} {I : Indexer} (hc : c.Holds [y]) (hs : y.shape = I.shape) (hw : y.WF)
    (h1 : I.integral = c.integral) (h2 : I.min = c.range.lo) (h3 : I.max = c.range.hi) (hint : I.integral = true) : I.Fits y := by
  refine ⟨hs, hw, fun v hv => ?_⟩
  obtain ⟨⟨k1, k2⟩, k3⟩ := hc y (by simp) v hv
  obtain ⟨n, hn⟩ := k3 (by rw [← h1]; exact hint)
  refine ⟨by rw [hn]; rfl, by rw [h2]; exact k1, by rw [h3]; exact k2⟩

theorem lengths_of_forall₂ {R : Nat → Indexer → Prop} {n : Nat} {xs : List Nat} {l : List Indexer} (h : List.Forall₂ R xs l) :
    ∀ {ys : List (Arr Rat)}, xs.map vals = ys.map (fun y => [y]) → (∀ p ∈ xs, ∀ I ∈ l, R p I → lengths vals p = n) →
    ∀ y ∈ ys, y.data.length = n := by
  induction h with
  | nil =>
    intro ys h
    cases ys with
    | nil => simp
    | cons _ _ => simp at h
  | @cons p I xs l hI _ ih =>
    intro ys h hk
    cases ys with
    | nil => simp
    | cons y ys =>
      simp only [List.map_cons, List.cons.injEq] at h
      intro z hz
      rcases List.mem_cons.1 hz with rfl | hz
      · rw [← hk p (by simp) I (by simp) hI]
        unfold lengths
        rw [h.1]
        rfl
      · exact ih h.2 (fun p hp I hI' => hk p (by simp [hp]) I (by simp [hI'])) z hz

/-- Everything about an array indexed by arrays. -/
theorem Made.advanced (h : s.Made) (hr : ∀ i < s.length, (s.row i).Regular) (hT : s.Trusted T) (hfol : s.Follows A vals)
    (hrep : ∀ i < s.length, ∀ a ∈ vals i, (a.data.length : Int) ≤ ssMax ∧ ∀ x ∈ a.data, Finite x)
    {i : Nat} (hi : i < s.length) (ih : ∀ j < i, j < s.length → s.Fact T vals j)
    {idx : List (Option Indexer)} {P : Adv} {base : Option (Arr Rat)} (hb : (s.row i).built = .advanced idx P base) :
    ∃ x xs v ys data, (s.row i).ops = x :: xs ∧ vals x = [v] ∧ xs.map vals = ys.map (fun y => [y]) ∧ AdvInputs idx ys ∧
      v.shape = P.operand ∧ (s.row i).node.ok ((s.row i).ops.map vals) ∧ (s.row i).out.shapes = [P.shape] ∧
      (s.row i).out.claim = (s.row x).out.claim ∧ vals i = [⟨P.shape, data⟩] ∧ (⟨P.shape, data⟩ : Arr Rat).WF ∧ (∀ e ∈ data, e ∈ v.data) ∧
      ((∀ o ∈ idx, o.isSome = true) → data.length = (ys.headD ⟨[], []⟩).data.length) := by
  have hreg := hr i hi
  unfold Row.Regular at hreg
  rw [hb] at hreg
  obtain ⟨hpos, hsep⟩ := hreg
  have hst := h.static hr
  obtain ⟨sizes, h1, h2, hsz, how⟩ := h.how hi
  cases how with
  | kind hb' => rw [hb] at hb'; cases hb'
  | basic hb' => rw [hb] at hb'; cases hb'
  | permutation hb' => rw [hb] at hb'; cases hb'
  | @advanced x xs sh slots idx' P' z hb' hops hsh hidx hP ho =>
    rw [hb] at hb'
    cases hb'
    rw [advParse_operand hP] at hpos
    obtain ⟨f, hacc, rfl⟩ := advParse_ok hpos hP
    have hinv := indexers_rows hidx
    have hlt : ∀ p ∈ x :: xs, p < i := by rw [← hops]; exact h1
    have hF : ∀ p ∈ x :: xs, s.Fact T vals p := fun p hp => ih p (hlt p hp) (lt_trans (hlt p hp) hi)
    have hgf : GoodShape f.shape := by
      have hf := List.mem_of_mem_head? hacc.first
      obtain ⟨q, hq, hI⟩ := forall₂_mem_right hinv hf
      exact (hst q (lt_trans (hlt q (by simp [hq])) hi)).good _ (by rw [hI.shape]; simp)
    have hbase : ∀ a, (s.row x).out.const = some a → a.shape = sh ∧ a.WF := by
      intro a ha
      obtain ⟨_, k2, k3⟩ := (hst x (lt_trans (hlt x (by simp)) hi)).const a ha
      rw [hsh] at k2
      exact ⟨by simpa using k2.symm, k3⟩
    obtain ⟨v, hv, hvs, hvw⟩ := (hsh ▸ (hF x (by simp)).shapes : HasShapes [sh] (vals x)).one
    have hconst : ∀ a, (s.row x).out.const = some a → v = a := by
      intro a ha
      have hxl := lt_trans (hlt x (by simp)) hi
      obtain ⟨k1, _, _⟩ := (hst x hxl).const a ha
      have hval := hfol x hxl
      have hnode : (s.row x).node = constantNode a := by unfold Row.node; rw [k1]
      rw [hnode] at hval
      rw [hv] at hval
      simpa using hval
    -- the index arrays
    have hys : ∃ ys : List (Arr Rat), xs.map vals = ys.map (fun y => [y]) ∧ List.Forall₂ Indexer.Fits idx.reduceOption ys := by
      have hint : ∀ I ∈ idx.reduceOption, I.integral = true := by
        intro I hI
        have := hacc.fits
        rw [List.reduceOption_mem_iff] at hI
        obtain ⟨d, _, hd⟩ := forall₂_mem_right this hI
        exact (hd I rfl).1
      have hT' : ∀ p ∈ xs, T p := fun p hp => (hT.indices i hi _ _ _ hb p (by rw [hops]; exact hp)).1
      have hF' : ∀ p ∈ xs, s.Fact T vals p := fun p hp => hF p (by simp [hp])
      clear hidx hops ho hlt hF hacc hP hb hsep h1 h2
      generalize idx.reduceOption = l at hinv hint
      generalize xs.headD 0 = q at hinv
      induction hinv with
      | nil => exact ⟨[], rfl, .nil⟩
      | @cons p I xs l hI _ ih' =>
        obtain ⟨ys, k1, k2⟩ := ih' (fun p hp => hT' p (by simp [hp])) (fun p hp => hF' p (by simp [hp])) (fun J hJ => hint J (by simp [hJ]))
        have hFp := hF' p (by simp)
        obtain ⟨y, hy, hys, hyw⟩ := (hI.shape ▸ hFp.shapes : HasShapes [I.shape] (vals p)).one
        obtain ⟨c, hc, e1, e2, e3⟩ := hI.claim
        have hcl := hFp.claim (hT' p (by simp)) c hc
        rw [hy] at hcl
        refine ⟨y :: ys, by simp [hy, k1], .cons (isIndex_of_claim hcl hys hyw e1 e2 e3 (hint I (by simp))) k2⟩
    obtain ⟨ys, hyv, hyf⟩ := hys
    have hsizes : ∀ y ∈ ys, y.data.length = (ys.headD ⟨[], []⟩).data.length := by
      have hC := h.chain hsz ih
      have hM : ∀ p ∈ xs, SizeInfo.Comparable sizes (lengths vals) (fun j => j < i ∧ s.Unsliced j) p := fun p hp =>
        (hT.indices i hi _ _ _ hb p (by rw [hops]; exact hp)).2.comparable h hr hfol hrep hi hsz ih (hlt p (by simp [hp]))
      have hag := hacc.agree
      have hfirst := hacc.first
      cases hxs : xs with
      | nil => rw [hxs] at hyv; cases ys with
        | nil => simp
        | cons _ _ => simp at hyv
      | cons p0 xs' =>
        rw [hxs] at hinv hyv hM
        cases hl : idx.reduceOption with
        | nil => rw [hl] at hfirst; cases hfirst
        | cons f' l =>
          rw [hl] at hinv hag hfirst
          cases hinv with
          | cons hI0 hinv =>
            cases ys with
            | nil => simp at hyv
            | cons y0 ys =>
              simp only [List.map_cons, List.cons.injEq] at hyv
              have hlen0 : lengths vals p0 = y0.data.length := by unfold lengths; rw [hyv.1]; rfl
              intro y hy
              rcases List.mem_cons.1 hy with rfl | hy
              · rfl
              · show y.data.length = y0.data.length
                rw [← hlen0]
                have hag' : ∀ I ∈ l, I.agrees = true := fun I hI => (hag I (by simpa using hI)).1
                have hM' : ∀ p ∈ xs', SizeInfo.Comparable sizes (lengths vals) (fun j => j < i ∧ s.Unsliced j) p :=
                  fun p hp => hM p (by simp [hp])
                have hM0 := hM p0 (by simp)
                refine lengths_of_forall₂ (hinv) hyv.2 (fun p hp I hI hR => ?_) y hy
                exact (shapeEqual_sound hC hM0 (hM' p hp) (hR.agrees (hag' I hI))).symm
    have hin : AdvInputs idx ys := ⟨hyf, hsizes⟩
    obtain ⟨_, hrow⟩ := advanced_row hacc hpos hgf hbase (fun hn => by
        rintro ⟨h1, h2, h3⟩
        exact hsep hn ⟨h1, h2, f, hacc.first, h3⟩) (s.row i).ins (s.row i).out
    obtain ⟨hok, data, hf, hw, hmem, hlen⟩ := hrow v ys hvs hvw hconst hin
    have hnode : (s.row i).node = (Built.advanced idx (advBuilt sh idx f) (s.row x).out.const).node (s.row i).ins (s.row i).out := by
      unfold Row.node; rw [hb]
    have hopv : (s.row i).ops.map vals = [v] :: ys.map fun y => [y] := by rw [hops, List.map_cons, hv, hyv]
    have hdec : (s.row i).decision = false := by unfold Row.decision; rw [hb]; rfl
    refine ⟨x, xs, v, ys, data, hops, hv, hyv, hin, hvs, ?_, by rw [ho], by rw [ho], ?_, hw, hmem, hlen⟩
    · rw [hopv, hnode]; exact hok
    · have hval := hfol i hi
      rw [hdec] at hval
      simp only [Bool.false_eq_true, if_false] at hval
      rw [hval, hopv, hnode]
      exact hf

end Script
end Verif
