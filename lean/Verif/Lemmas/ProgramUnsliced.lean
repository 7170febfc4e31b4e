import Verif.Lemmas.ProgramMade

set_option linter.unusedSectionVars false
set_option linter.unusedSimpArgs false
set_option linter.unusedVariables false

/-! Helper lemmas: the values of the symbols made by a program. -/

namespace Verif

theorem Kind.claim_nosize {k : Kind} (h1 : ¬ ((∃ op init, k = .reduce op init) ∨ k = .size)) (cs : List Claim) (i j : SizeInfo)
    (n m : Res SizeKnown) (o : List Int) : k.claim cs i n o = k.claim cs j m o := by
  cases k <;> first
    | rfl
    | exact absurd (Or.inl ⟨_, _, rfl⟩) h1
    | exact absurd (Or.inr rfl) h1
    | skip
  all_goals
    match cs with
    | [] => rfl
    | [_] => rfl
    | [_, _] => rfl
    | [_, _, _] => rfl
    | _ :: _ :: _ :: _ :: _ => rfl

/-- Comparisons and logical operations give zeros and ones. -/
theorem truth_claim {k : Kind} {ps : List (List (List Int))} {out : List (List Int)} (ht : k.isTruth = true)
    (hm : k.make ps = .ok out) (hr : k.Regular ps) (hg : ∀ p ∈ ps, ∀ s ∈ p, GoodShape s) {xs : List Val}
    (hx : List.Forall₂ HasShapes ps xs) (hxf : ∀ v ∈ xs, ∀ a ∈ v, ∀ y ∈ a.data, Finite y)
    (hfin : ∀ a ∈ (k.node ps out).f xs, ∀ y ∈ a.data, Finite y)
    (hlen : xs ≠ [] → (single (xs.headD [])).data.length ≤ 2 ^ 63) : Claim.Holds ⟨⟨0, 1⟩, true⟩ ((k.node ps out).f xs) := by
  have hd : k.isDecision = false := by cases k <;> simp [Kind.isTruth, Kind.isDecision] at ht ⊢
  have hin : List.Forall₂ Claim.Holds (xs.map fun _ => (⟨.default, false⟩ : Claim)) xs := by
    clear hx hfin hlen
    induction xs with
    | nil => exact .nil
    | cons x xs ih =>
      refine .cons (fun a ha y hy => Claim.Elem.default (hxf x (by simp) a ha y hy)) (ih fun v hv => hxf v (by simp [hv]))
  have hcount : (k.claim (xs.map fun _ => (⟨.default, false⟩ : Claim)) (.of 0 none none) (.ok (.dynamic none none))
      (Kind.shape1 (ps.headD [])) = .ok ⟨⟨0, 1⟩, true⟩) ∧ k.rangeChecks (xs.map fun _ => (⟨.default, false⟩ : Claim)) ∧
      k.Tame (xs.map fun _ => (⟨.default, false⟩ : Claim)) ps := by
    have hl := hx.length_eq
    unfold Kind.isTruth at ht
    split at ht
    all_goals first
      | (match ps, hm with
         | [_, _], hm =>
           match xs, hl with
           | [_, _], _ => exact ⟨rfl, trivial, trivial⟩)
      | (match ps, hm with
         | [_], hm =>
           match xs, hl with
           | [_], _ => exact ⟨rfl, trivial, ⟨trivial, by simp⟩⟩)
      | (match ps, hm with
         | [_], hm =>
           match xs, hl with
           | [_], _ => exact ⟨rfl, trivial, trivial⟩)
      | simp at ht
  refine kind_claim hd hm hr hg hx hin hcount.2.1 hcount.2.2 hfin rfl ?_ ?_ ?_ hlen hcount.1
  · intro _ n hn
    simp only [Res.ok.injEq] at hn
    subst hn
    exact ⟨by simp, by simp⟩
  · intro _ m hm; simp [SizeInfo.of] at hm
  · intro _ m hm; simp [SizeInfo.of] at hm


namespace Script

open Symbols (lengths first_output describes_self binary_lengths)

variable {s : Script} {A vals : Nat → Val} {T : Nat → Prop}

theorem Made.before (h : s.Made) {i : Nat} (hi : i < s.length) : ∀ p ∈ (s.row i).ops, p < i := by
  obtain ⟨_, _, h1, _⟩ := h i hi
  exact h1

theorem Made.ins (h : s.Made) {i : Nat} (hi : i < s.length) : (s.row i).ins = (s.row i).ops.map (fun p => (s.row p).out) := by
  obtain ⟨_, _, _, h2, _⟩ := h i hi
  exact h2

/-- A symbol of the catalog. -/
theorem Made.kind (h : s.Made) {i : Nat} {k : Kind} (hi : i < s.length) (hb : (s.row i).built = .kind k) :
    k.make ((s.row i).ins.map Info.shapes) = .ok (s.row i).out.shapes ∧
    s.sizes i = k.sizeFrom i (s.row i).out.shapes (s.row i).ops (s.row i).ins := by
  obtain ⟨sizes, _, _, _, how⟩ := h.how hi
  cases how with
  | kind hb' _ _ hm ho =>
    rw [hb] at hb'
    cases hb'
    unfold Script.sizes
    rw [ho]
    exact ⟨hm, rfl⟩
  | basic hb' => rw [hb] at hb'; cases hb'
  | advanced hb' => rw [hb] at hb'; cases hb'
  | permutation hb' => rw [hb] at hb'; cases hb'

/-- An indexed array. -/
theorem Made.indexed (h : s.Made) {i : Nat} {idx : List (Option Indexer)} {P : Adv} {base : Option (Arr Rat)} (hi : i < s.length)
    (hb : (s.row i).built = .advanced idx P base) :
    ∃ x xs, (s.row i).ops = x :: xs ∧ (s.row i).out.shapes = [P.shape] ∧
    s.sizes i = (if dynamicShape P.shape then .of (xs.headD 0) none none else .fixed P.shape.prod) ∧
    ((∀ o ∈ idx, o.isSome = true) → xs ≠ []) := by
  obtain ⟨sizes, _, _, _, how⟩ := h.how hi
  cases how with
  | kind hb' => rw [hb] at hb'; cases hb'
  | basic hb' => rw [hb] at hb'; cases hb'
  | @advanced x xs sh slots idx' P' z hb' ho _ hidx hP hout =>
    rw [hb] at hb'
    cases hb'
    refine ⟨x, xs, ho, by rw [hout], by unfold Script.sizes; rw [hout], ?_⟩
    rintro hall rfl
    have hinv := indexers_rows hidx
    unfold advParse at hP
    obtain ⟨_, g1, hP⟩ := Res.bind_eq_ok.1 hP
    obtain ⟨_, g2, hP⟩ := Res.bind_eq_ok.1 hP
    have g1 := guardThrow_eq_ok.1 g1
    have g2 := guardUB_eq_ok.1 g2
    cases idx with
    | nil => rw [List.length_nil] at g1; exact g2 (List.length_eq_zero_iff.1 g1.symm)
    | cons o idx =>
      cases o with
      | none => exact absurd (hall none (by simp)) (by decide)
      | some I => rw [List.reduceOption_cons_of_some] at hinv; cases hinv
  | permutation hb' => rw [hb] at hb'; cases hb'

/-- Disjoint lists. -/
theorem Made.lists (h : s.Made) {p : Nat} {P N : Int} (hp : p < s.length) (hb : (s.row p).built = .kind (.disjointLists P N)) :
    s.sizes p = .of p (some 0) (some P) ∧ 0 ≤ P := by
  obtain ⟨hm, hs⟩ := h.kind hp hb
  rw [hs]
  generalize (s.row p).ins.map Info.shapes = ps at hm
  generalize (s.row p).out.shapes = out at hm ⊢
  match ps, hm with
  | [], hm =>
    have hne := make_ne_nil hm
    simp only [Kind.make] at hm
    obtain ⟨_, g1, hm⟩ := Res.bind_eq_ok.1 hm
    have g1 := guardThrow_eq_ok.1 g1
    obtain ⟨_, g2, hm⟩ := Res.bind_eq_ok.1 hm
    have g2 := guardThrow_eq_ok.1 g2
    simp only [Res.ok.injEq] at hm
    subst hm
    refine ⟨?_, by omega⟩
    unfold Kind.sizeFrom
    rw [if_pos]
    cases hN : N.toNat with
    | zero => rw [hN] at hne; exact absurd rfl hne
    | succ n => rfl

theorem dynamic_operand {op : BinaryOp} {ins : List Info} {out : List (List Int)} {li ri : Info} (hi : ins = [li, ri])
    (hm : (Kind.binary op).make (ins.map Info.shapes) = .ok out) (hd : dynamicShape (Kind.shape1 out) = true)
    (hl : ¬ dynamicShape li.shape = true) : dynamicShape ri.shape = true := by
  subst hi
  simp only [List.map_cons, List.map_nil, Kind.make] at hm
  obtain ⟨ls, e1, hm⟩ := Res.bind_eq_ok.1 hm
  obtain ⟨rs, e2, hm⟩ := Res.bind_eq_ok.1 hm
  obtain ⟨t, hs, hm⟩ := Res.bind_eq_ok.1 hm
  simp only [Res.ok.injEq] at hm
  unfold Info.shape at hl ⊢
  rw [arrayShape_ok e1] at hl
  rw [arrayShape_ok e2]
  rw [← hm] at hd
  cases hr : dynamicShape rs with
  | true => exact hr
  | false =>
    have := binaryShape_fixed hs (by simpa [Kind.shape1] using hl) hr
    rw [show dynamicShape (Kind.shape1 [t]) = dynamicShape t from rfl, this] at hd
    cases hd

theorem Unsliced.lt {i : Nat} (u : s.Unsliced i) : i < s.length := by cases u <;> assumption

/-- What an unsliced symbol says about its size. -/
theorem Unsliced.says (h : s.Made) {i : Nat} (u : s.Unsliced i) :
    ∃ b lo hi, s.sizes i = .of b lo hi ∧ b ≤ i ∧ s.Unsliced b ∧ (∀ m ∈ lo, 0 ≤ m) ∧
      (b = i ∨ (b ∈ (s.row i).ops ∧ lo = none ∧ hi = none)) := by
  cases u with
  | @self _ k hi hb hd ha hout =>
    have u0 : s.Unsliced i := .self hi hb hd ha hout
    obtain ⟨hm, hs⟩ := h.kind hi hb
    have hd' : dynamicShape (Kind.shape1 (s.row i).out.shapes) = true := hd
    have hbef := h.before hi
    rw [hs] at ha ⊢
    unfold Kind.sizeFrom at ha ⊢
    rw [if_pos hd'] at ha ⊢
    split
    · rename_i op l r li ri ho hins
      rw [ho, hins] at ha
      rw [ho] at hbef
      simp only at ha
      split_ifs at ha
      · simp only [SizeInfo.of, Option.some.injEq] at ha
        have := hbef l (by simp)
        omega
      · simp only [SizeInfo.of, Option.some.injEq] at ha
        have := hbef r (by simp)
        omega
    · rename_i n lo hi'
      refine ⟨i, _, _, rfl, le_refl _, u0, ?_, Or.inl rfl⟩
      intro m hm'
      obtain rfl : lo = m := by simpa using hm'
      generalize (s.row i).ins.map Info.shapes = ps at hm
      match ps, hm with
      | [], hm =>
        simp only [Kind.make] at hm
        obtain ⟨c, hc, _⟩ := Res.bind_eq_ok.1 hm
        unfold CollNode.make at hc
        obtain ⟨_, g1, hc⟩ := Res.bind_eq_ok.1 hc
        have g1 := guardThrow_eq_ok.1 g1
        omega
    · refine ⟨i, _, _, rfl, le_refl _, u0, ?_, Or.inl rfl⟩
      intro m hm'
      obtain rfl : 0 = m := by simpa using hm'
      exact le_refl _
    · rename_i j p hins
      have hii := h.ins hi
      rw [hins] at hii
      obtain ⟨q, hq⟩ : ∃ q, (s.row i).ops = [q] := by
        match hops : (s.row i).ops with
        | [] => rw [hops] at hii; simp at hii
        | [q] => exact ⟨q, rfl⟩
        | _ :: _ :: _ => rw [hops] at hii; simp at hii
      obtain ⟨P, N, hlists⟩ := hout j q rfl hq
      rw [hq] at hii hbef
      obtain rfl : p = (s.row q).out := by simpa using hii
      have hql := hbef q (by simp)
      obtain ⟨hz, _⟩ := h.lists (lt_trans hql hi) hlists
      refine ⟨i, _, _, rfl, le_refl _, u0, ?_, Or.inl rfl⟩
      intro m hm'
      have hz : (s.row q).out.size = _ := hz
      rw [hz] at hm'
      obtain rfl : 0 = m := by simpa [SizeInfo.of] using hm'
      exact le_refl _
    · exact ⟨i, none, none, rfl, le_refl _, u0, by simp, Or.inl rfl⟩
  | @binary _ b op hi hb hd ha ub =>
    obtain ⟨hm, hs⟩ := h.kind hi hb
    have hd' : dynamicShape (Kind.shape1 (s.row i).out.shapes) = true := hd
    have hbef := h.before hi
    have hii := h.ins hi
    rw [hs] at ha ⊢
    unfold Kind.sizeFrom at ha ⊢
    rw [if_pos hd'] at ha ⊢
    split
    · rename_i op' l r li ri hk ho hins
      rw [ho, hins] at ha
      simp only at ha
      split_ifs at ha ⊢
      · obtain rfl : l = b := by simpa [SizeInfo.of] using ha
        exact ⟨l, none, none, rfl, (hbef l (by rw [ho]; simp)).le, ub, by simp, Or.inr ⟨by rw [ho]; simp, rfl, rfl⟩⟩
      · obtain rfl : r = b := by simpa [SizeInfo.of] using ha
        exact ⟨r, none, none, rfl, (hbef r (by rw [ho]; simp)).le, ub, by simp, Or.inr ⟨by rw [ho]; simp, rfl, rfl⟩⟩
    · rename_i hk; cases hk
    · rename_i hk; cases hk
    · rename_i hk _; cases hk
    · rename_i hno
      exfalso
      rw [hii] at hm
      match hops : (s.row i).ops with
      | [] => rw [hops] at hm; simp [Kind.make] at hm
      | [_] => rw [hops] at hm; simp [Kind.make] at hm
      | _ :: _ :: _ :: _ => rw [hops] at hm; simp [Kind.make] at hm
      | [l, r] =>
        rw [hops] at hii
        exact hno op l r _ _ rfl hops hii
  | @advanced _ b idx P base hi hb hd hall ha ub =>
    obtain ⟨x, xs, ho, hsh, hs, hxs⟩ := h.indexed hi hb
    have hd' : dynamicShape P.shape = true := by
      have : dynamicShape (Kind.shape1 (s.row i).out.shapes) = true := hd
      rwa [hsh] at this
    rw [if_pos hd'] at hs
    rw [hs] at ha ⊢
    obtain rfl : xs.headD 0 = b := by simpa [SizeInfo.of] using ha
    refine ⟨_, none, none, rfl, ?_, ub, by simp, ?_⟩
    · cases xs with
      | nil => exact Nat.zero_le _
      | cons y xs => exact (h.before hi y (by rw [ho]; simp)).le
    · cases xs with
      | nil => exact absurd rfl (hxs hall)
      | cons y xs => exact Or.inr ⟨by rw [ho]; simp, rfl, rfl⟩

end Script
end Verif
