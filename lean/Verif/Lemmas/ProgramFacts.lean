import Verif.Lemmas.ProgramIndexed

set_option linter.unusedSectionVars false
set_option linter.unusedSimpArgs false
set_option linter.unusedVariables false

/-! Helper lemmas: the values of the symbols made by a program. -/

namespace Verif
namespace Script

open Symbols (lengths first_output describes_self binary_lengths forall₂_shapes)

variable {s : Script} {A vals : Nat → Val} {T : Nat → Prop}

/-- Everything about an array indexed by integers and slices. -/
theorem Made.basic (h : s.Made) (hr : ∀ i < s.length, (s.row i).Regular) (hfol : s.Follows A vals)
    (hrep : ∀ i < s.length, ∀ a ∈ vals i, (a.data.length : Int) ≤ ssMax ∧ ∀ x ∈ a.data, Finite x)
    {i : Nat} (hi : i < s.length) (ih : ∀ j < i, j < s.length → s.Fact T vals j)
    {sh : List Int} {idx : List BasicIndex} {P : Parsed} (hb : (s.row i).built = .basic sh idx P) :
    ∃ x v data, (s.row i).ops = [x] ∧ vals x = [v] ∧ (s.row i).node.ok ((s.row i).ops.map vals) ∧ (s.row i).out.shapes = [P.shape] ∧
      (s.row i).out.claim = (s.row x).out.claim ∧ vals i = [⟨P.shape, data⟩] ∧ (⟨P.shape, data⟩ : Arr Rat).WF ∧
      (∀ e ∈ data, e ∈ v.data) := by
  have hreg := hr i hi
  unfold Row.Regular at hreg
  rw [hb] at hreg
  obtain ⟨hcont, hreg⟩ := hreg
  obtain ⟨sizes, h1, h2, hsz, how⟩ := h.how hi
  cases how with
  | kind hb' => rw [hb] at hb'; cases hb'
  | advanced hb' => rw [hb] at hb'; cases hb'
  | permutation hb' => rw [hb] at hb'; cases hb'
  | @basic x sh' idx' P' z hb' hops _ hsh hP hz ho =>
    rw [hb] at hb'
    cases hb'
    have hxi : x < i := h1 x (by rw [hops]; simp)
    have hxl := lt_trans hxi hi
    obtain ⟨v, hv, hvs, hvw⟩ := (hsh ▸ (ih x hxi hxl).shapes : HasShapes [sh] (vals x)).one
    have hn := (hrep x hxl v (by rw [hv]; simp)).1
    have hdec : (s.row i).decision = false := by unfold Row.decision; rw [hb]; rfl
    have hnode : (s.row i).node = liftNode (basicNode sh idx P) := by unfold Row.node; rw [hb]
    have hval := hfol i hi
    rw [hdec, hops, hnode] at hval
    simp only [Bool.false_eq_true, if_false, List.map_cons, List.map_nil, hv] at hval
    have fin : ∀ {ok : Arr Rat → Prop} {value : Arr Rat → List Rat}, Indexed ok (liftNode (basicNode sh idx P)) P.shape value → ok v →
        ∃ x v data, (s.row i).ops = [x] ∧ vals x = [v] ∧ (s.row i).node.ok ((s.row i).ops.map vals) ∧ (s.row i).out.shapes = [P.shape] ∧
          (s.row i).out.claim = (s.row x).out.claim ∧ vals i = [⟨P.shape, data⟩] ∧ (⟨P.shape, data⟩ : Arr Rat).WF ∧
          (∀ e ∈ data, e ∈ v.data) := by
      intro ok value hI hok
      refine ⟨x, v, value v, hops, hv, ?_, by rw [ho], by rw [ho], ?_, hI.wf v hok, hI.mem v hok⟩
      · rw [hops, hnode]
        simp only [List.map_cons, List.map_nil, hv]
        exact hI.accepts v hok
      · rw [hval]
        exact hI.computes [[v]]
    rcases hreg with ⟨k1, k2, k3⟩ | ⟨rest, a, b, c, more, rfl, rfl, hD, hpos, hrow⟩
    · obtain ⟨_, _, hI⟩ := indexed_fixed k1 k2 hP hcont k3
      exact fin hI ⟨hvs, hvw, hn⟩
    · obtain ⟨_, _, hI⟩ := indexed_dynamic hD hP hcont hpos hrow
      exact fin hI ⟨hvs, hvw, hn⟩

/-- The sizes that unsliced symbols report. -/
theorem Unsliced.describes (h : s.Made) (hr : ∀ i < s.length, (s.row i).Regular) (hT : s.Trusted T) (hcho : s.Chosen A) (hfol : s.Follows A vals)
    (hrep : ∀ i < s.length, ∀ a ∈ vals i, (a.data.length : Int) ≤ ssMax ∧ ∀ x ∈ a.data, Finite x)
    {i : Nat} (hi : i < s.length) (ih : ∀ j < i, j < s.length → s.Fact T vals j) (u : s.Unsliced i) :
    (s.sizes i).Describes (lengths vals) (lengths vals i) := by
  have hbef := h.before hi
  have hii := h.ins hi
  have hval := hfol i hi
  cases u with
  | @self _ k _ hb hd ha hout =>
    obtain ⟨hm, hs⟩ := h.kind hi hb
    have hd' : dynamicShape (Kind.shape1 (s.row i).out.shapes) = true := hd
    have hdec : (s.row i).decision = k.isDecision := by unfold Row.decision; rw [hb]; rfl
    have hnode : (s.row i).node = k.node ((s.row i).ins.map Info.shapes) (s.row i).out.shapes := by unfold Row.node; rw [hb]
    have hself : (SizeInfo.of i none none).Describes (lengths vals) (lengths vals i) :=
      describes_self i _ _ rfl (by simp) (by simp)
    have hacc := hcho i hi
    rw [hs] at ha ⊢
    unfold Kind.sizeFrom at ha ⊢
    rw [if_pos hd'] at ha ⊢
    rw [hnode] at hval hacc
    split
    · rename_i op l r li ri ho hins
      rw [ho, hins] at ha
      rw [ho] at hbef
      simp only at ha
      split_ifs at ha
      · simp only [SizeInfo.of, Option.some.injEq] at ha
        have := hbef l (by simp)
        omega
      · simp only [SizeInfo.of, Option.some.injEq] at ha
        have := hbef r (by simp)
        omega
    · rename_i n lo hi'
      rw [show (s.row i).decision = true from hdec] at hval
      obtain ⟨data, e, _, _, h1, h2⟩ := hacc hdec
      simp only [if_true] at hval
      have hlv : lengths vals i = data.length := by
        unfold lengths
        rw [hval, e]
        rfl
      generalize (s.row i).ins.map Info.shapes = ps at hm
      match ps, hm with
      | [], hm =>
        simp only [Kind.make] at hm
        obtain ⟨c, hc, _⟩ := Res.bind_eq_ok.1 hm
        unfold CollNode.make at hc
        obtain ⟨_, g1, hc⟩ := Res.bind_eq_ok.1 hc
        have g1 := guardThrow_eq_ok.1 g1
        have h1 : lo.toNat ≤ data.length := h1
        have h2 : data.length ≤ hi'.toNat := h2
        refine describes_self i _ _ rfl ?_ ?_
        · intro m hm; obtain rfl : lo = m := by simpa using hm
          omega
        · intro m hm; obtain rfl : hi' = m := by simpa using hm
          omega
    · rename_i P N
      rw [show (s.row i).decision = true from hdec] at hval
      obtain ⟨lists, e, hne, hperm⟩ := hacc hdec
      simp only [if_true] at hval
      obtain ⟨_, hP⟩ := h.lists hi hb
      have hlv : lengths vals i ≤ P.toNat := by
        unfold lengths
        rw [hval, e]
        cases lists with
        | nil => exact Nat.zero_le _
        | cons l lists =>
          have e := hperm.length_eq
          rw [List.length_map, List.length_range] at e
          rw [← e]
          exact (List.sublist_flatten_of_mem (l := l) (by simp)).length_le
      refine describes_self i _ _ rfl ?_ ?_
      · intro m hm; obtain rfl : 0 = m := by simpa using hm
        omega
      · intro m hm; obtain rfl : P = m := by simpa using hm
        omega
    · rename_i j p hins
      rw [hins] at hii
      obtain ⟨q, hq⟩ : ∃ q, (s.row i).ops = [q] := by
        match hops : (s.row i).ops with
        | [] => rw [hops] at hii; simp at hii
        | [q] => exact ⟨q, rfl⟩
        | _ :: _ :: _ => rw [hops] at hii; simp at hii
      obtain ⟨P, N, hlists⟩ := hout j q rfl hq
      rw [hq] at hii hbef
      obtain rfl : p = (s.row q).out := by simpa using hii
      have hql := lt_trans (hbef q (by simp)) hi
      obtain ⟨hz, hP⟩ := h.lists hql hlists
      have hz : (s.row q).out.size = _ := hz
      rw [hz]
      rw [show (s.row i).decision = false from hdec, hq] at hval
      simp only [Bool.false_eq_true, if_false, List.map_cons, List.map_nil] at hval
      have hqdec : (s.row q).decision = true := by unfold Row.decision; rw [hlists]; rfl
      have hqnode : (s.row q).node = (Kind.disjointLists P N).node ((s.row q).ins.map Info.shapes) (s.row q).out.shapes := by
        unfold Row.node; rw [hlists]
      have hqval := hfol q hql
      have hqacc := hcho q hql hqdec
      rw [hqnode] at hqval hqacc
      rw [hqdec] at hqval
      simp only [if_true] at hqval
      obtain ⟨lists, e, hne, hperm⟩ := hqacc
      have hvp : vals q = lists.map fun l => ⟨[-1], l⟩ := by rw [hqval, e]; rfl
      have hji : j < lists.length := by
        have hmj := hm
        rw [hins] at hmj
        simp only [List.map_cons, List.map_nil, Kind.make] at hmj
        obtain ⟨_, hi', _⟩ := Res.bind_eq_ok.1 hmj
        have hi' := guardThrow_eq_ok.1 hi'
        have hsh := (ih q (hbef q (by simp)) hql).shapes.1
        rw [← hsh, hvp] at hi'
        simpa using hi'
      have hlv : lengths vals i = (lists.getD j []).length := by
        unfold lengths
        rw [hval]
        show ((vals q).getD j ⟨[], []⟩).data.length = _
        rw [hvp]
        simp [List.getD_eq_getElem?_getD, hji]
      have hle : (lists.getD j []).length ≤ P.toNat := by
        have e := hperm.length_eq
        rw [List.length_map, List.length_range] at e
        rw [← e, List.getD_eq_getElem?_getD, List.getElem?_eq_getElem hji, Option.getD_some]
        exact (List.sublist_flatten_of_mem (List.getElem_mem hji)).length_le
      refine describes_self i _ _ rfl ?_ ?_
      · intro m hm; obtain rfl : 0 = m := by simpa [SizeInfo.of] using hm
        omega
      · intro m hm; obtain rfl : P = m := by simpa [SizeInfo.of] using hm
        omega
    · exact hself
  | @binary _ b op _ hb hd ha ub =>
    obtain ⟨b', lo, hi', e, _, _, _, hcase⟩ := Unsliced.says h (.binary hi hb hd ha ub)
    obtain ⟨hm, hs⟩ := h.kind hi hb
    have hd' : dynamicShape (Kind.shape1 (s.row i).out.shapes) = true := hd
    have hdec : (s.row i).decision = false := by unfold Row.decision; rw [hb]; rfl
    have hnode : (s.row i).node = (Kind.binary op).node ((s.row i).ins.map Info.shapes) (s.row i).out.shapes := by unfold Row.node; rw [hb]
    rw [hdec, hnode] at hval
    simp only [Bool.false_eq_true, if_false] at hval
    rw [hs] at ha ⊢
    unfold Kind.sizeFrom at ha ⊢
    rw [if_pos hd'] at ha ⊢
    match hops : (s.row i).ops with
    | [] => rw [hii, hops] at hm; simp [Kind.make] at hm
    | [_] => rw [hii, hops] at hm; simp [Kind.make] at hm
    | _ :: _ :: _ :: _ => rw [hii, hops] at hm; simp [Kind.make] at hm
    | [l, r] =>
      rw [hops] at hii hval hbef
      rw [hii] at hm ⊢
      have hdyn := fun hl => dynamic_operand (op := op) (ins := [(s.row l).out, (s.row r).out]) rfl hm hd' hl
      simp only [List.map_cons, List.map_nil, Kind.make] at hm hval ⊢
      obtain ⟨ls, e1, hm⟩ := Res.bind_eq_ok.1 hm
      obtain ⟨rs, e2, hm⟩ := Res.bind_eq_ok.1 hm
      obtain ⟨t, hst, hm⟩ := Res.bind_eq_ok.1 hm
      have e1 := arrayShape_ok e1
      have e2 := arrayShape_ok e2
      have hl := (ih l (hbef l (by simp)) (lt_trans (hbef l (by simp)) hi)).shapes
      have hr' := (ih r (hbef r (by simp)) (lt_trans (hbef r (by simp)) hi)).shapes
      rw [e1] at hl
      rw [e2] at hr'
      obtain ⟨x, ex, hx, _⟩ := hl.one
      obtain ⟨y, ey, hy, _⟩ := hr'.one
      have hlv : lengths vals i = (binaryValue op.func x y).length := by
        unfold lengths
        rw [hval, ex, ey]
        rfl
      obtain ⟨k1, k2⟩ := binary_lengths (op := op) hst hx hy
      by_cases hdl : dynamicShape (s.row l).out.shape = true
      · rw [if_pos hdl]
        refine describes_self l _ _ ?_ (by simp) (by simp)
        rw [hlv, k1 (by unfold Info.shape at hdl; rw [e1] at hdl; exact hdl)]
        unfold lengths; rw [ex]; rfl
      · rw [if_neg hdl]
        have hdr := hdyn hdl
        refine describes_self r _ _ ?_ (by simp) (by simp)
        rw [hlv, k2 (by unfold Info.shape at hdr; rw [e2] at hdr; exact hdr)]
        unfold lengths; rw [ey]; rfl
  | @advanced _ b idx P base _ hb hd hall ha ub =>
    obtain ⟨x, xs, v, ys, data, hops, hv, hyv, hin, _, _, hsh, _, hvi, _, _, hlen⟩ := h.advanced hr hT hfol hrep hi ih hb
    obtain ⟨x', xs', ho, _, hs, hxs⟩ := h.indexed hi hb
    rw [hops] at ho
    cases ho
    have hd' : dynamicShape P.shape = true := by
      have : dynamicShape (Kind.shape1 (s.row i).out.shapes) = true := hd
      rwa [hsh] at this
    rw [hs, if_pos hd']
    have hlen := hlen hall
    refine describes_self _ _ _ ?_ (by simp) (by simp)
    have hlv : lengths vals i = data.length := by unfold lengths; rw [hvi]; rfl
    rw [hlv, hlen]
    cases xs with
    | nil => exact absurd rfl (hxs hall)
    | cons p xs =>
      cases ys with
      | nil => simp at hyv
      | cons y ys =>
        simp only [List.map_cons, List.cons.injEq] at hyv
        unfold lengths
        simp only [List.headD_cons]
        rw [hyv.1]
        rfl


/-- The range that a symbol of the catalog declares. -/
theorem Made.claims (h : s.Made) (hr : ∀ i < s.length, (s.row i).Regular) (hT : s.Trusted T) (hcho : s.Chosen A) (hfol : s.Follows A vals)
    (hrep : ∀ i < s.length, ∀ a ∈ vals i, (a.data.length : Int) ≤ ssMax ∧ ∀ x ∈ a.data, Finite x)
    {i : Nat} (hi : i < s.length) (ih : ∀ j < i, j < s.length → s.Fact T vals j) {k : Kind} (hb : (s.row i).built = .kind k) (hTi : T i)
    {c : Claim} (hc : (s.row i).out.claim = .ok c) : c.Holds (vals i) := by
  have hval := hfol i hi
  have hst := h.static hr
  have hreg := hr i hi
  unfold Row.Regular at hreg
  rw [hb] at hreg
  obtain ⟨hreg, -⟩ := hreg
  have hdec : (s.row i).decision = k.isDecision := by unfold Row.decision; rw [hb]; rfl
  have hnode : (s.row i).node = k.node ((s.row i).ins.map Info.shapes) (s.row i).out.shapes := by unfold Row.node; rw [hb]
  obtain ⟨sizes, hbef, hii, hsz, how⟩ := h.how hi
  cases how with
  | advanced hb' => rw [hb] at hb'; cases hb'
  | basic hb' => rw [hb] at hb'; cases hb'
  | permutation hb' => rw [hb] at hb'; cases hb'
  | @kind k' asked shapes hb' hask hchk hm ho =>
    rw [hb] at hb'
    cases hb'
    have hos : (s.row i).out.shapes = shapes := by rw [ho]
    have hmk : k.make ((s.row i).ins.map Info.shapes) = .ok (s.row i).out.shapes := by rw [hos]; exact hm
    rw [ho] at hc
    have hc : k.claimFrom sizes (s.row i).ins = .ok c := hc
    unfold Kind.claimFrom at hc
    cases hd : k.isDecision with
    | true =>
      have htr : k.isTruth = false := by cases k <;> simp [Kind.isTruth, Kind.isDecision] at hd ⊢
      rw [htr, if_neg (by simp)] at hc
      obtain ⟨cs, _, hc⟩ := Res.bind_eq_ok.1 hc
      rw [hdec, hd, hnode] at hval
      simp only [if_true] at hval
      rw [hval]
      have hacc := hcho i hi (by rw [hdec, hd])
      rw [hnode] at hacc
      exact decision_claim hd hmk hacc hc
    | false =>
      rw [hdec, hd, hnode] at hval
      simp only [Bool.false_eq_true, if_false] at hval
      have hF : ∀ p ∈ (s.row i).ops, s.Fact T vals p := fun p hp => ih p (hbef p hp) (lt_trans (hbef p hp) hi)
      have hgin : ∀ p ∈ (s.row i).ins.map Info.shapes, ∀ sh ∈ p, GoodShape sh := by
        rw [hii, List.map_map]
        intro p hp sh hsh
        obtain ⟨q, hq, rfl⟩ := List.mem_map.1 hp
        exact (hst q (lt_trans (hbef q hq) hi)).good sh hsh
      have hxs : List.Forall₂ HasShapes ((s.row i).ins.map Info.shapes) ((s.row i).ops.map vals) := by
        rw [hii, List.map_map]
        exact forall₂_shapes fun p hp => (hF p hp).shapes
      have hfin : ∀ a ∈ (k.node ((s.row i).ins.map Info.shapes) (s.row i).out.shapes).f ((s.row i).ops.map vals), ∀ y ∈ a.data, Finite y := by
        rw [← hval]
        intro a ha
        exact (hrep i hi a ha).2
      have hlen0 : ∀ p < s.length, (single (vals p)).data.length ≤ 2 ^ 63 := by
        intro p hp
        cases hq : vals p with
        | nil => simp [single]
        | cons a as =>
          have := (hrep p hp a (by rw [hq]; simp)).1
          have : (a.data.length : Int) ≤ 2 ^ 63 := le_trans this (by decide)
          exact_mod_cast this
      have hlen : (s.row i).ops.map vals ≠ [] → (single (((s.row i).ops.map vals).headD [])).data.length ≤ 2 ^ 63 := by
        intro hne
        cases hops : (s.row i).ops with
        | nil => rw [hops] at hne; exact absurd rfl hne
        | cons p ps => exact hlen0 p (lt_trans (hbef p (by rw [hops]; simp)) hi)
      cases htr : k.isTruth with
      | true =>
        rw [htr, if_pos rfl] at hc
        simp only [Res.ok.injEq] at hc
        subst hc
        rw [hval]
        refine truth_claim htr hmk hreg hgin hxs ?_ hfin hlen
        intro v hv a ha
        obtain ⟨p, hp, rfl⟩ := List.mem_map.1 hv
        exact (hrep p (lt_trans (hbef p hp) hi) a ha).2
      | false =>
        rw [htr, if_neg (by simp)] at hc
        obtain ⟨cs, hcs, hc⟩ := Res.bind_eq_ok.1 hc
        obtain ⟨hTo, htame, hsize⟩ := hT.operands i hi hTi k hb htr
        have hck : k.rangeChecks cs := by
          cases has : k.asks with
          | false => exact Kind.rangeChecks_of_not_asks has cs
          | true =>
            rw [has, if_pos rfl, hcs] at hask
            simp only [Res.ok.injEq] at hask
            rw [hask]
            exact hchk
        have hins : List.Forall₂ Claim.Holds cs ((s.row i).ops.map vals) := by
          have h1 := mapM_claims hcs
          rw [hii, List.forall₂_map_left_iff] at h1
          have h2 : ∀ p ∈ (s.row i).ops, ∀ c, (s.row p).out.claim = .ok c → c.Holds (vals p) := fun p hp => (hF p hp).claim (hTo p hp)
          generalize (s.row i).ops = ops at h1 h2
          clear hcs hc htame hck
          induction h1 with
          | nil => exact .nil
          | cons h1 _ ih' => exact .cons (h2 _ (by simp) _ h1) (ih' fun p hp => h2 p (by simp [hp]))
        have hop : ((s.row i).ins.headD .absent).shape = Kind.shape1 (((s.row i).ins.map Info.shapes).headD []) := by
          cases (s.row i).ins <;> rfl
        rw [hval]
        by_cases hsz' : (∃ op init, k = .reduce op init) ∨ k = .size
        · have hs1 := hsize hsz'
          have hhead : (s.row i).ops.map vals ≠ [] → ∃ p ∈ (s.row i).ops, (s.row i).ins.headD .absent = (s.row p).out ∧
              single (((s.row i).ops.map vals).headD []) = single (vals p) := by
            intro hne
            cases hops : (s.row i).ops with
            | nil => rw [hops] at hne; exact absurd rfl hne
            | cons p ps => exact ⟨p, by simp, by rw [hii, hops]; rfl, rfl⟩
          refine kind_claim hd hmk hreg hgin hxs hins hck (htame cs hcs) hfin hop ?_ ?_ ?_ hlen hc
          · intro hne n hn
            obtain ⟨p, hp, e1, e2⟩ := hhead hne
            rw [e1] at hn
            rw [e2]
            unfold Info.known at hn
            have hpl := lt_trans (hbef p hp) hi
            rcases hs1 p hp with hfx | hun
            · rw [hfx, if_neg (by simp)] at hn
              simp only [Res.ok.injEq] at hn
              subst hn
              have := lengths_fixed (hst p hpl) (hF p hp) hfx
              show (single (vals p)).data.length = _
              unfold lengths at this
              omega
            · have hdy : dynamicShape (s.row p).out.shape = true := by cases hun <;> assumption
              rw [hdy, if_pos rfl] at hn
              obtain ⟨t, ht, hn⟩ := Res.bind_eq_ok.1 hn
              simp only [Res.ok.injEq] at hn
              subst hn
              obtain ⟨t', ht', k1, k2⟩ := C16_substitute_partial (h.chain hsz ih) (a := p) ⟨hbef p hp, hun⟩ 100
              rw [hsz p (hbef p hp)] at ht'
              have ht : (s.sizes p).substitute sizes 100 = .ok t := ht
              rw [ht] at ht'
              obtain rfl : t = t' := by simpa using ht'
              exact ⟨k1, k2⟩
          · intro hne m hm
            obtain ⟨p, hp, e1, e2⟩ := hhead hne
            rw [e1] at hm
            rw [e2]
            have hpl := lt_trans (hbef p hp) hi
            rcases hs1 p hp with hfx | hun
            · have := lengths_fixed (hst p hpl) (hF p hp) hfx
              have hz : (s.row p).out.size = _ := h.fixed hpl (hr p hpl) hfx
              rw [hz] at hm
              simp only [SizeInfo.fixed, Option.mem_def, Option.some.injEq] at hm
              unfold lengths at this
              omega
            · exact ((hF p hp).describes hun).min m hm
          · intro hne m hm
            obtain ⟨p, hp, e1, e2⟩ := hhead hne
            rw [e1] at hm
            rw [e2]
            have hpl := lt_trans (hbef p hp) hi
            rcases hs1 p hp with hfx | hun
            · have := lengths_fixed (hst p hpl) (hF p hp) hfx
              have hz : (s.row p).out.size = _ := h.fixed hpl (hr p hpl) hfx
              rw [hz] at hm
              simp only [SizeInfo.fixed, Option.mem_def, Option.some.injEq] at hm
              unfold lengths at this
              omega
            · exact ((hF p hp).describes hun).max m hm
        · rw [Kind.claim_nosize hsz' cs _ (.of 0 none none) _ (.ok (.dynamic none none))] at hc
          refine kind_claim hd hmk hreg hgin hxs hins hck (htame cs hcs) hfin hop ?_ ?_ ?_ hlen hc
          · intro _ n hn
            simp only [Res.ok.injEq] at hn
            subst hn
            exact ⟨by simp, by simp⟩
          · intro _ m hm; simp [SizeInfo.of] at hm
          · intro _ m hm; simp [SizeInfo.of] at hm

/-- Everything that is known of the symbols. -/
theorem Made.facts (h : s.Made) (hr : ∀ i < s.length, (s.row i).Regular) (hT : s.Trusted T) (hcho : s.Chosen A) (hfol : s.Follows A vals)
    (hrep : ∀ i < s.length, ∀ a ∈ vals i, (a.data.length : Int) ≤ ssMax ∧ ∀ x ∈ a.data, Finite x) :
    ∀ i < s.length, s.Fact T vals i := by
  intro i
  induction i using Nat.strong_induction_on with
  | _ i ih =>
    intro hi
    have hst := h.static hr
    have hbef := h.before hi
    have hii := h.ins hi
    have hdes := fun u => Unsliced.describes h hr hT hcho hfol hrep hi ih u
    have hval := hfol i hi
    cases hb : (s.row i).built with
    | kind k =>
      have hreg := hr i hi
      unfold Row.Regular at hreg
      rw [hb] at hreg
      obtain ⟨hreg, hgiv⟩ := hreg
      have hdec : (s.row i).decision = k.isDecision := by unfold Row.decision; rw [hb]; rfl
      have hnode : (s.row i).node = k.node ((s.row i).ins.map Info.shapes) (s.row i).out.shapes := by unfold Row.node; rw [hb]
      obtain ⟨hm, _⟩ := h.kind hi hb
      have hgin : ∀ p ∈ (s.row i).ins.map Info.shapes, ∀ sh ∈ p, GoodShape sh := by
        rw [hii, List.map_map]
        intro p hp sh hsh
        obtain ⟨q, hq, rfl⟩ := List.mem_map.1 hp
        exact (hst q (lt_trans (hbef q hq) hi)).good sh hsh
      obtain ⟨f1, f2⟩ := kind_facts hm hreg hgin (Kind.make_good hm hreg hgiv hgin)
      have hacc : (s.row i).decision = false → (s.row i).node.ok ((s.row i).ops.map vals) := by
        intro hd
        rw [hnode]
        refine (f1 (hdec ▸ hd)).accepts _ ?_
        rw [hii, List.map_map]
        exact forall₂_shapes fun p hp => (ih p (hbef p hp) (lt_trans (hbef p hp) hi)).shapes
      refine ⟨?_, hacc, fun hTi c hc => h.claims hr hT hcho hfol hrep hi ih hb hTi hc, hdes⟩
      rw [hval]
      cases hd : (s.row i).decision with
      | true =>
        have := hcho i hi hd
        rw [hnode] at this ⊢
        exact (f2 (hdec ▸ hd)).out _ this
      | false =>
        have := hacc hd
        rw [hnode] at this ⊢
        exact (f1 (hdec ▸ hd)).out _ this
    | basic sh idx P =>
      obtain ⟨x, v, data, hops, hv, hok, hsh, hcl, hvi, hw, hmem⟩ := h.basic hr hfol hrep hi ih hb
      refine ⟨?_, fun _ => hok, fun hTi c hc => ?_, hdes⟩
      · rw [hsh, hvi]
        exact ⟨rfl, by simpa using hw⟩
      · have hTx := hT.base i hi hTi (by rw [hb]; simp) x (by rw [hops]; rfl)
        have hxi := hbef x (by rw [hops]; simp)
        rw [hcl] at hc
        have := (ih x hxi (lt_trans hxi hi)).claim hTx c hc
        rw [hvi]
        rw [hv] at this
        intro a ha e he
        rw [List.mem_singleton.1 ha] at he
        exact this v (by simp) e (hmem e he)
    | advanced idx P base =>
      obtain ⟨x, xs, v, ys, data, hops, hv, hyv, hin, _, hok, hsh, hcl, hvi, hw, hmem, hlen⟩ := h.advanced hr hT hfol hrep hi ih hb
      refine ⟨?_, fun _ => hok, fun hTi c hc => ?_, hdes⟩
      · rw [hsh, hvi]
        exact ⟨rfl, by simpa using hw⟩
      · have hTx := hT.base i hi hTi (by rw [hb]; simp) x (by rw [hops]; rfl)
        have hxi := hbef x (by rw [hops]; simp)
        rw [hcl] at hc
        have := (ih x hxi (lt_trans hxi hi)).claim hTx c hc
        rw [hvi]
        rw [hv] at this
        intro a ha e he
        rw [List.mem_singleton.1 ha] at he
        exact this v (by simp) e (hmem e he)
    | permutation a =>
      have hreg := hr i hi
      unfold Row.Regular at hreg
      rw [hb] at hreg
      obtain ⟨n, hn, hbig, ha⟩ := hreg
      obtain ⟨sizes, h1, h2, hsz, how⟩ := h.how hi
      cases how with
      | kind hb' => rw [hb] at hb'; cases hb'
      | basic hb' => rw [hb] at hb'; cases hb'
      | advanced hb' => rw [hb] at hb'; cases hb'
      | @permutation a' u w sh hb' ho hops hc hsu hsw =>
        rw [hb] at hb'
        cases hb'
        have hui : u < i := h1 u (by rw [hops]; simp)
        have hwi : w < i := h1 w (by rw [hops]; simp)
        obtain ⟨k1, k2, k3⟩ := (hst u (lt_trans hui hi)).const a hc
        have hsh : sh = [(n : Int), (n : Int)] := by
          rw [hsu, ha] at k2
          simpa using k2
        have hu : vals u = [a] := by
          have := hfol u (lt_trans hui hi)
          have hnode : (s.row u).node = constantNode a := by unfold Row.node; rw [k1]
          rw [hnode] at this
          exact this
        obtain ⟨o, hov, hos, how⟩ := (hsw ▸ (ih w hwi (lt_trans hwi hi)).shapes : HasShapes [[sh.headD 0]] (vals w)).one
        have hos : o.shape = [(n : Int)] := by rw [hos, hsh]; rfl
        have hvalues : ∀ x ∈ o.data, ∃ k : Nat, x = k ∧ k < n := by
          rcases hT.orders i hi a hb w (by rw [hops]; simp) with hk | ⟨b, hk, hin⟩
          · rw [ha] at hk
            have hk : (s.row w).built = .kind (.collection n n n) := hk
            have hd : (s.row w).decision = true := by unfold Row.decision; rw [hk]; rfl
            have h1 := hcho w (lt_trans hwi hi) hd
            have h2 := hfol w (lt_trans hwi hi)
            have hnode : (s.row w).node = collectionNode (Kind.collNode n n n) := by unfold Row.node; rw [hk]
            rw [hd, if_pos rfl, hnode] at h2
            rw [hnode] at h1
            obtain ⟨data, e, _, h3, _⟩ := h1
            rw [e] at h2
            have h2 : vals w = [⟨collShape (Kind.collNode n n n), data⟩] := h2
            rw [hov] at h2
            obtain rfl : o = ⟨collShape (Kind.collNode n n n), data⟩ := by simpa using h2
            intro x hx
            obtain ⟨k, hk, rfl⟩ := h3 x hx
            exact ⟨k, rfl, by simpa [Kind.collNode] using hk⟩
          · have hnode : (s.row w).node = constantNode b := by unfold Row.node; rw [hk]
            have h2 := hfol w (lt_trans hwi hi)
            rw [hnode] at h2
            have h2 : vals w = [b] := h2
            rw [hov] at h2
            obtain rfl : o = b := by simpa using h2
            intro x hx
            obtain ⟨k, e, hk⟩ := hin x hx
            rw [ha] at hk
            have hk : (k : Int) < n := hk
            exact ⟨k, e, by omega⟩
        have hord' : IsOrder n o.data := by
          refine ⟨?_, ?_⟩
          · have := how.length_fixed (by rw [hos]; simp [dynamicShape])
            rw [hos] at this
            simpa using this
          · intro x hx
            obtain ⟨k, rfl, hk⟩ := hvalues x hx
            exact ⟨by simp, by positivity, by exact_mod_cast hk⟩
        have hord : OrderOk n [o] := ⟨o, rfl, hos, hord'⟩
        have hhead : (a.shape.headD 0).toNat = n := by rw [ha]; simp
        have hnode : (s.row i).node = liftConst a (permNode a (permValue a) (OrderOk n)) := by
          unfold Row.node
          rw [hb]
          show liftConst a (permNode a (permValue a) (OrderOk (a.shape.headD 0).toNat)) = _
          rw [hhead]
        have hdec : (s.row i).decision = false := by unfold Row.decision; rw [hb]; rfl
        have hvi : vals i = [permValue a [o]] := by
          rw [hval, hdec, hnode, hops]
          simp only [Bool.false_eq_true, if_false, List.map_cons, List.map_nil, hu, hov]
          rfl
        have hpv : permValue a [o] = ⟨[(n : Int), (n : Int)], (List.range (n * n)).map fun t => a.data.getD (permPos n o.data o.data t).toNat 0⟩ := by
          unfold permValue
          rw [ha, permSelect_square (x := a) hn]
          rfl
        refine ⟨?_, fun _ => ?_, fun hTi c hc' => ?_, hdes⟩
        · rw [hvi, ho, hsh]
          refine ⟨by rw [hpv]; rfl, ?_⟩
          intro b hb'
          rw [List.mem_singleton.1 hb', hpv]
          simp [Arr.WF, Arr.dynamic, dynamicShape]
        · rw [hnode, hops]
          simp only [List.map_cons, List.map_nil, hu, hov]
          exact ⟨[[o]], rfl, by simpa [single] using how, hord⟩
        · have hTu := hT.base i hi hTi (by rw [hb]; simp) u (by rw [hops]; rfl)
          rw [ho] at hc'
          have := (ih u hui (lt_trans hui hi)).claim hTu c hc'
          rw [hu] at this
          rw [hvi, hpv]
          intro b hb' e he
          rw [List.mem_singleton.1 hb'] at he
          obtain ⟨t, ht, rfl⟩ := List.mem_map.1 he
          refine this a (by simp) _ ?_
          have hlen : a.data.length = n * n := by
            have := k3.length_fixed (by rw [ha]; simp [dynamicShape])
            rw [ha] at this
            simp at this
            exact_mod_cast this
          have hpos : (permPos n o.data o.data t).toNat < a.data.length := by
            have := permPos_range hord' hord' (List.mem_range.1 ht)
            rw [hlen]
            have h2 := this.2
            omega
          rw [List.getD_eq_getElem?_getD, List.getElem?_eq_getElem hpos]
          exact List.getElem_mem hpos

end Script
end Verif
