import Verif.Lemmas.ArchiveLoad
import Mathlib.Tactic.SplitIfs

set_option linter.unusedSectionVars false
set_option linter.unusedSimpArgs false
set_option linter.unusedVariables false

/-!
# A loaded symbol declares what the saved one declared
-/

namespace Verif

open Graph PyModel

namespace SizeInfo

/-- The same size, said of other addresses. -/
def rename (f : Nat → Nat) (s : SizeInfo) : SizeInfo := { s with array := s.array.map f }

theorem rename_of (f : Nat → Nat) (a : Nat) (lo hi : Option Int) : (SizeInfo.of a lo hi).rename f = .of (f a) lo hi := rfl

theorem rename_fixed (f : Nat → Nat) (n : Int) : (SizeInfo.fixed n).rename f = .fixed n := rfl

/-- Substitution does not depend on addresses. -/
theorem substitute_rename {f : Nat → Nat} {P : Nat → Prop} (hf : ∀ i, P i → ∀ j, P j → f i = f j → i = j)
    {info info' : Nat → SizeInfo} (hi : ∀ i, P i → (info' i).rename f = info (f i))
    (hk : ∀ i, P i → ∀ a, (info' i).array = some a → P a) (depth : Nat) : ∀ {s : SizeInfo},
    (∀ a, s.array = some a → P a) →
    (s.rename f).substitute info depth = match s.substitute info' depth with
      | .ok t => .ok (t.rename f)
      | .throw => .throw
      | .ub => .ub := by
  induction depth with
  | zero => intro s hs; rfl
  | succ n ih =>
    intro s hs
    cases ha : s.array with
    | none => simp only [substitute, rename, ha, Option.map_none]
    | some a =>
      have hak := hs a ha
      have e := hi a hak
      have hc : (s.rename f).converged (info (f a)) = s.converged (info' a) := by
        rw [← e]
        unfold converged
        refine decide_eq_decide.2 ?_
        have : (Option.map f s.array = Option.map f (info' a).array) ↔ s.array = (info' a).array := by
          constructor
          · intro h
            rw [ha] at h ⊢
            cases hb : (info' a).array with
            | none => rw [hb] at h; cases h
            | some b =>
              rw [hb] at h
              simp only [Option.map_some, Option.some.injEq] at h
              rw [hf a hak b (hk a hak b hb) h]
          · intro h; rw [h]
        exact and_congr_left fun _ => this
      have hj : (s.rename f).join (info (f a)) = (s.join (info' a)).rename f := by
        rw [← e]
        unfold join
        dsimp only [rename]
        split_ifs <;> rfl
      have hr : (s.rename f).array = some (f a) := by simp [rename, ha]
      have hoff : (info (f a)).offset = (info' a).offset := by rw [← e]; rfl
      simp only [substitute, ha, hr]
      rw [hc]
      by_cases c : s.converged (info' a) = true
      · rw [if_pos c, if_pos c]
      · rw [if_neg c, if_neg c, hoff, hj]
        have hm : (s.rename f).multiplier = s.multiplier := rfl
        rw [hm]
        unfold guardUB
        by_cases g : (s.multiplier * (info' a).offset).den = 1
        · rw [if_pos g]
          simp only [Res.ok_bind]
          refine ih fun b hb => hk a hak b ?_
          have : (s.join (info' a)).array = (info' a).array := by unfold join; dsimp only; split <;> rfl
          rw [← this]; exact hb
        · rw [if_neg g]; rfl

end SizeInfo

namespace Kind

theorem claim_nil (k : Kind) (i i' : SizeInfo) (n n' : Res SizeKnown) (s s' : List Int) :
    k.claim [] i n s = k.claim [] i' n' s' := by
  cases k <;> rfl

theorem claim_info (k : Kind) (ins : List Claim) {i i' : SizeInfo} (h1 : i.min = i'.min) (h2 : i.max = i'.max)
    (n : Res SizeKnown) (s : List Int) : k.claim ins i n s = k.claim ins i' n s := by
  match ins with
  | [] => exact claim_nil _ _ _ _ _ _ _
  | [_] => cases k <;> first | rfl | simp only [claim, h1, h2]
  | [_, _] => cases k <;> rfl
  | [_, _, _] => cases k <;> rfl
  | _ :: _ :: _ :: _ :: _ => cases k <;> rfl

end Kind

namespace Draft

/-- Symbols of `d'` and `d` that correspond to each other: those of `d'` with `P`, through `f`. -/
structure Agree (P : Nat → Prop) (f : Nat → Nat) (d' d : Draft) : Prop where
  inj : ∀ i, P i → ∀ j, P j → f i = f j → i = j
  kind : ∀ i, P i → Kind.Alike (d'.S.kind i) (d.S.kind (f i))
  shapes : ∀ i, P i → d'.S.shapes i = d.S.shapes (f i)
  preds : ∀ i, P i → (d.m.g.mem (f i)).preds = (d'.m.g.mem i).preds.map f
  closed : ∀ i, P i → ∀ p ∈ (d'.m.g.mem i).preds, P p

theorem Mirror.inj {k : Nat} {d' d : Draft} (h : Mirror k d' d) (hn : d.m.g.nodes.Nodup) :
    ∀ i < k, ∀ j < k, d.at_ i = d.at_ j → i = j := by
  intro i hi j hj e
  have := h.le
  rw [at_getElem (show i < d.m.g.nodes.length by omega), at_getElem (show j < d.m.g.nodes.length by omega)] at e
  exact (List.Nodup.getElem_inj_iff hn).1 e

theorem Agree.sizeInfo {P : Nat → Prop} {f : Nat → Nat} {d' d : Draft} (h : Agree P f d' d) {i : Nat} (hi : P i) :
    (d'.S.sizeInfo d'.m.g i).rename f = d.S.sizeInfo d.m.g (f i) ∧
      ∀ a, (d'.S.sizeInfo d'.m.g i).array = some a → P a := by
  have hb := h.closed i hi
  unfold Symbols.sizeInfo
  rw [← h.shapes i hi, h.preds i hi]
  by_cases hd : dynamicShape (Kind.shape1 (d'.S.shapes i)) = true
  · rw [if_pos hd, if_pos hd]
    have hk := h.kind i hi
    generalize hp : (d'.m.g.mem i).preds = ps at hb
    generalize hK' : d'.S.kind i = K' at hk
    generalize hK : d.S.kind (f i) = K at hk
    have hdef : ∀ _ : Kind, ((SizeInfo.of i none none).rename f = SizeInfo.of (f i) none none) ∧
        ∀ a, (SizeInfo.of i none none).array = some a → P a := by
      intro _
      exact ⟨rfl, fun a ha => by simp only [SizeInfo.of, Option.some.injEq] at ha; subst ha; assumption⟩
    cases hk with
    | integer _ _ _ => exact hdef .size
    | quadratic _ _ _ _ => exact hdef .size
    | same _ =>
      cases K' with
      | binary op =>
        match ps, hb with
        | [], _ => exact hdef (.binary op)
        | [_], _ => exact hdef (.binary op)
        | _ :: _ :: _ :: _, _ => exact hdef (.binary op)
        | [l, r], hb =>
          have hl := hb l (by simp)
          have hr := hb r (by simp)
          simp only [List.map_cons, List.map_nil]
          rw [← h.shapes l hl]
          split
          · exact ⟨rfl, fun a ha => by simp only [SizeInfo.of, Option.some.injEq] at ha; subst ha; assumption⟩
          · exact ⟨rfl, fun a ha => by simp only [SizeInfo.of, Option.some.injEq] at ha; subst ha; assumption⟩
      | collection n lo hi =>
        exact ⟨rfl, fun a ha => by simp only [SizeInfo.of, Option.some.injEq] at ha; subst ha; assumption⟩
      | output j =>
        match ps, hb with
        | [], _ => exact hdef (.output j)
        | _ :: _ :: _, _ => exact hdef (.output j)
        | [p], hb =>
          have hpi := hb p (by simp)
          simp only [List.map_cons, List.map_nil]
          have hkp := h.kind p hpi
          generalize d'.S.kind p = Q' at hkp ⊢
          generalize d.S.kind (f p) = Q at hkp ⊢
          cases hkp with
          | integer _ _ _ => exact hdef .size
          | quadratic _ _ _ _ => exact hdef .size
          | same _ =>
            cases Q' with
            | disjointLists P N =>
              exact ⟨rfl, fun a ha => by simp only [SizeInfo.of, Option.some.injEq] at ha; subst ha; assumption⟩
            | _ => exact hdef (.output j)
      | _ => exact hdef (.output 0)
  · rw [if_neg hd, if_neg hd]
    exact ⟨rfl, fun a ha => by simp [SizeInfo.fixed] at ha⟩

theorem Agree.substitute {P : Nat → Prop} {f : Nat → Nat} {d' d : Draft} (h : Agree P f d' d) {i : Nat}
    (hi : P i) (depth : Nat) :
    (d.S.sizeInfo d.m.g (f i)).substitute (d.S.sizeInfo d.m.g) depth =
      match (d'.S.sizeInfo d'.m.g i).substitute (d'.S.sizeInfo d'.m.g) depth with
      | .ok t => .ok (t.rename f)
      | .throw => .throw
      | .ub => .ub := by
  rw [← (h.sizeInfo hi).1]
  exact SizeInfo.substitute_rename h.inj (fun j hj => (h.sizeInfo hj).1) (fun j hj => (h.sizeInfo hj).2) depth
    (h.sizeInfo hi).2

theorem Agree.sizeKnown {P : Nat → Prop} {f : Nat → Nat} {d' d : Draft} (h : Agree P f d' d) {i : Nat}
    (hi : P i) : d'.S.sizeKnown d'.m.g i = d.S.sizeKnown d.m.g (f i) := by
  unfold Symbols.sizeKnown
  rw [h.shapes i hi]
  split
  · rw [h.substitute hi]
    cases (d'.S.sizeInfo d'.m.g i).substitute (d'.S.sizeInfo d'.m.g) 100 <;> rfl
  · rfl

/-- Answers depend only on the operands, and on nothing else if there is enough stack. -/
theorem Agree.answer {P : Nat → Prop} {f : Nat → Nat} {d' d : Draft} (h : Agree P f d' d) {rank : Nat → Nat}
    (hrank : ∀ i, P i → ∀ p ∈ (d'.m.g.mem i).preds, rank p < rank i) (r : Nat) :
    ∀ i, P i → rank i = r → ∀ n n', r < n → r < n' → d'.S.answer d'.m.g n i = d.S.answer d.m.g n' (f i) := by
  induction r using Nat.strong_induction_on with
  | _ r ih =>
    intro i hi hr n n' hf hf'
    obtain ⟨n, rfl⟩ : ∃ m, n = m + 1 := ⟨n - 1, by omega⟩
    obtain ⟨n', rfl⟩ : ∃ m, n' = m + 1 := ⟨n' - 1, by omega⟩
    have hb := h.closed i hi
    have hc : d'.S.claimOf d'.m.g (d'.S.answer d'.m.g n) i = d.S.claimOf d.m.g (d.S.answer d.m.g n') (f i) := by
      unfold Symbols.claimOf
      rw [h.preds i hi, (h.kind i hi).claim]
      have e : (d'.m.g.mem i).preds.map (d'.S.answer d'.m.g n) =
          ((d'.m.g.mem i).preds.map f).map (d.S.answer d.m.g n') := by
        rw [List.map_map]
        refine List.map_congr_left fun p hp => ?_
        have hlt := hrank i hi p hp
        exact ih (rank p) (by omega) p (hb p hp) rfl n n' (by omega) (by omega)
      rw [e]
      generalize hp : (d'.m.g.mem i).preds = ps at hb
      cases ps with
      | nil => exact Kind.claim_nil _ _ _ _ _ _ _
      | cons p ps =>
        have hpk : P p := hb p (by simp)
        simp only [List.map_cons, List.headD_cons]
        rw [h.sizeKnown hpk, h.shapes p hpk]
        have := (h.sizeInfo hpk).1
        refine Kind.claim_info _ _ ?_ ?_ _ _
        · rw [← this]; rfl
        · rw [← this]; rfl
    simp only [Symbols.answer, hc]

theorem Mirror.agree {k : Nat} {d' d : Draft} (h : Mirror k d' d) (hn : d.m.g.nodes.Nodup) :
    Agree (· < k) d.at_ d' d :=
  ⟨h.inj hn, h.kind, h.shapes, h.preds, fun i hi p hp => by have := h.below i hi p hp; omega⟩

theorem localDecl_declared : LocalDecl Symbols.declared := by
  intro k d' d h hn i hi
  refine (h.agree hn).answer (rank := id) (fun i hi p hp => h.below i hi p hp) i i hi rfl _ _ ?_ ?_
  · rw [h.nodes]; simpa using hi
  · have := h.le; omega

/-- Sizes of states. -/
theorem Mirror.stateSize {k : Nat} {d' d : Draft} (h : Mirror k d' d) (hn : d.m.g.nodes.Nodup) {i : Nat}
    (hi : i < k) (hk : (d.S.kind (d.at_ i)).isArray = true → k = d.m.g.nodes.length ∨
      (∃ n lo hi, d.S.kind (d.at_ i) = .collection n lo hi) ∨
      dynamicShape (Kind.shape1 (d.S.shapes (d.at_ i))) = false) :
    d'.S.stateSize d'.m.g i = d.S.stateSize d.m.g (d.at_ i) := by
  unfold Symbols.stateSize
  rw [(h.kind i hi).isArray, h.shapes i hi]
  by_cases hA : (d.S.kind (d.at_ i)).isArray = false
  · rw [if_pos hA, if_pos hA]
  rw [if_neg hA, if_neg hA]
  by_cases hd : dynamicShape (Kind.shape1 (d.S.shapes (d.at_ i))) = false
  · rw [if_pos hd, if_pos hd]
  rw [if_neg hd, if_neg hd]
  have hs := (h.agree hn).sizeInfo hi
  have harr : ((d'.S.sizeInfo d'.m.g i).array ≠ some i) ↔
      (d.S.sizeInfo d.m.g (d.at_ i)).array ≠ some (d.at_ i) := by
    rw [← hs.1, not_iff_not]
    simp only [SizeInfo.rename]
    constructor
    · intro e; rw [e]; rfl
    · intro e
      cases hb : (d'.S.sizeInfo d'.m.g i).array with
      | none => rw [hb] at e; cases e
      | some b =>
        rw [hb] at e
        simp only [Option.map_some, Option.some.injEq] at e
        rw [h.inj hn b (hs.2 b hb) i hi e]
  by_cases c : (d'.S.sizeInfo d'.m.g i).array ≠ some i
  · rw [if_pos c, if_pos (harr.1 c)]
    rcases hk (by simpa using hA) with hk | ⟨n, lo, hi', hk⟩ | hk
    · rw [(h.agree hn).substitute hi, h.nodes, hk, List.length_range]
      cases (d'.S.sizeInfo d'.m.g i).substitute (d'.S.sizeInfo d'.m.g) d.m.g.nodes.length <;> rfl
    · refine absurd ?_ (harr.1 c)
      unfold Symbols.sizeInfo
      rw [if_pos (by simpa using hd), hk]
      rfl
    · exact absurd hk hd
  · rw [if_neg c, if_neg (fun x => c (harr.2 x)), ← hs.1]
    rfl

end Draft
end Verif
