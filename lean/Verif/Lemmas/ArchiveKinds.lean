import Verif.Lemmas.ArchiveBiases
import Verif.Lemmas.Orderly

set_option linter.unusedSectionVars false
set_option linter.unusedSimpArgs false
set_option linter.unusedVariables false

/-!
# What is saved about a symbol is enough to make it again
-/

namespace Verif

namespace Kind

theorem Alike.isArray {k k' : Kind} (h : Alike k k') : k.isArray = k'.isArray := by cases h <;> rfl

theorem Alike.isDecision {k k' : Kind} (h : Alike k k') : k.isDecision = k'.isDecision := by cases h <;> rfl

theorem Alike.typed {k k' : Kind} (h : Alike k k') (ks : List Kind) : k.typed ks = k'.typed ks := by cases h <;> rfl

theorem Alike.numParts {k k' : Kind} (h : Alike k k') : k.numParts = k'.numParts := by cases h <;> rfl

theorem Alike.partOf {k k' : Kind} (h : Alike k k') (cls : ClassName) :
    Draft.partOf cls k = Draft.partOf cls k' := by cases h <;> cases cls <;> rfl

theorem Alike.symm {k k' : Kind} (h : Alike k k') : Alike k' k := by
  cases h with
  | same k => exact .same k
  | integer s h1 h2 => exact .integer s h1.symm h2.symm
  | quadratic n h1 h2 h3 => exact .quadratic n h2 h1 h3.symm

/-- Whether operands have the right type. -/
theorem typed_congr (k : Kind) {ks ks' : List Kind} (h : ks.map Kind.isArray = ks'.map Kind.isArray) :
    k.typed ks = k.typed ks' := by
  have e : ∀ l : List Kind, l.all Kind.isArray = (l.map Kind.isArray).all id := by intro l; simp
  have e2 : ∀ l : List Kind, (l.all fun p => !p.isArray) = (l.map Kind.isArray).all fun b => !b := by
    intro l; simp [Function.comp_def]
  cases k <;> simp only [typed, e, e2, h]

theorem quadratic_make {n : Nat} {ops : List BiasOp} (ho : ∀ op ∈ ops, op.inRange n) (s : List Int) :
    (quadratic n ops).make [[s]] = if s = [(n : Int)] then .ok [[]] else .throw := by
  obtain ⟨q, e, hn, h⟩ := build_inv n ho
  simp only [make, arrayShape, Res.ok_bind, guardUB_true ho, e, quadraticShape, hn]
  by_cases c : s = [(n : Int)]
  · rw [guardThrow_true c, if_pos c]; rfl
  · rw [if_neg c]
    unfold guardThrow
    rw [if_neg c]; rfl

theorem Alike.make {k k' : Kind} (h : Alike k k') (ps : List (List (List Int))) : k.make ps = k'.make ps := by
  cases h with
  | same k => rfl
  | integer s h1 h2 =>
    cases ps with
    | nil => simp only [Kind.make, NumNode.make, h1, h2]
    | cons _ _ => rfl
  | quadratic n h1 h2 h3 =>
    match ps with
    | [] => rfl
    | _ :: _ :: _ => rfl
    | [[]] => rfl
    | [_ :: _ :: _] => rfl
    | [[s]] => rw [quadratic_make h1, quadratic_make h2]

theorem Alike.rangeChecks {k k' : Kind} (h : Alike k k') (ins : List Claim) :
    k.rangeChecks ins ↔ k'.rangeChecks ins := by cases h <;> rfl

theorem Alike.claim {k k' : Kind} (h : Alike k k') (ins : List Claim) (info : SizeInfo) (known : Res SizeKnown)
    (operand : List Int) : k.claim ins info known operand = k'.claim ins info known operand := by
  cases h with
  | same k => rfl
  | integer s h1 h2 => simp only [Kind.claim, h1, h2]
  | quadratic n h1 h2 h3 =>
    match ins with
    | [] => rfl
    | [_] => rfl
    | _ :: _ :: _ => rfl

theorem Alike.node {k k' : Kind} (h : Alike k k') (hd : k.isDecision = true) (ps : List (List (List Int)))
    (out : List (List Int)) : k.node ps out = k'.node ps out := by
  cases h with
  | same k => rfl
  | integer s h1 h2 => simp only [Kind.node, numNode, h1, h2]
  | quadratic n h1 h2 h3 => cases hd

theorem reshapeShape_eq {s shape t : List Int} (h : reshapeShape s shape = .ok t) : t = shape := by
  simp only [reshapeShape, Res.bind_eq_ok, Res.ok.injEq] at h
  obtain ⟨_, _, _, _, _, _, h⟩ := h
  exact h.symm

/-- The operands of the symbol in the file. -/
theorem loadKind_saved {d : Draft} {claim : Nat → Claim} {k : Kind} {isList : Bool} {parent : Kind} {preds : List Nat}
    {out : List (List Int)} (hk : ∀ j, k ≠ .output j) (hm : k.make (preds.map d.S.shapes) = .ok out)
    (hty : k.typed (preds.map d.S.kind) = true)
    (hpy : k.FromPython isList (claim (preds.headD 0)).logical) :
    ∃ k', d.loadKind claim (k.saved isList parent (shape1 out)).1 (k.saved isList parent (shape1 out)).2 preds =
      .ok k' ∧ Alike k' k := by
  have hone : ∀ {n : Nat}, preds.length = n → (preds.map d.S.shapes).length = n := by intro n h; simpa using h
  cases k with
  | output j => exact absurd rfl (hk j)
  | integer shape lo hi =>
    have hp : preds = [] := by
      match preds, hm with
      | [], _ => rfl
    subst hp
    have hs : out = [shape] := by
      simp only [make, List.map_nil, Res.bind_eq_ok, Res.ok.injEq] at hm
      exact hm.choose_spec.2.symm
    subst hs
    refine ⟨.integer shape (some (lo.getD 0)) (some (hi.getD 2000000000)), ?_, .integer shape rfl rfl⟩
    simp only [saved, Draft.loadKind, shape1, List.headD_cons]
    rw [guardThrow_true trivial, guardThrow_true (show ∀ n ∈ shape, 0 ≤ n from hpy)]; rfl
  | binaryVar shape =>
    have hp : preds = [] := by
      match preds, hm with
      | [], _ => rfl
    subst hp
    have hs : out = [shape] := by
      simp only [make, List.map_nil, Res.bind_eq_ok, Res.ok.injEq] at hm
      exact hm.choose_spec.2.symm
    subst hs
    refine ⟨.binaryVar shape, ?_, .same _⟩
    simp only [saved, Draft.loadKind, shape1, List.headD_cons]
    rw [guardThrow_true trivial, guardThrow_true (show ∀ n ∈ shape, 0 ≤ n from hpy)]; rfl
  | collection n lo hi =>
    have hp : preds = [] := by
      match preds, hm with
      | [], _ => rfl
    subst hp
    refine ⟨.collection n lo hi, ?_, .same _⟩
    cases isList with
    | true =>
      obtain ⟨rfl, rfl⟩ := hpy rfl
      simp only [saved, if_true, Draft.loadKind]
      rw [guardThrow_true trivial]; rfl
    | false =>
      simp only [saved, Bool.false_eq_true, if_false, Draft.loadKind]
      rw [guardThrow_true trivial]; rfl
  | disjointLists P N =>
    have hp : preds = [] := by
      match preds, hm with
      | [], _ => rfl
    subst hp
    exact ⟨.disjointLists P N, by simp only [saved, Draft.loadKind]; rw [guardThrow_true trivial]; rfl, .same _⟩
  | disjointBitSets P N =>
    have hp : preds = [] := by
      match preds, hm with
      | [], _ => rfl
    subst hp
    exact ⟨.disjointBitSets P N, by simp only [saved, Draft.loadKind]; rw [guardThrow_true trivial]; rfl, .same _⟩
  | constant a =>
    have hp : preds = [] := by
      match preds, hm with
      | [], _ => rfl
    subst hp
    exact ⟨.constant a, by simp only [saved, Draft.loadKind]; rw [guardThrow_true trivial]; rfl, .same _⟩
  | unary op =>
    have hp : preds.length = 1 := by
      match preds, hm with
      | [_], _ => rfl
    exact ⟨.unary op, by simp only [saved, Draft.loadKind]; rw [guardThrow_true hp]; rfl, .same _⟩
  | binary op =>
    have hp : preds.length = 2 := by
      match preds, hm with
      | [_, _], _ => rfl
    exact ⟨.binary op, by simp only [saved, Draft.loadKind]; rw [guardThrow_true hp]; rfl, .same _⟩
  | nary op => exact ⟨.nary op, rfl, .same _⟩
  | reduce op init =>
    have hp : preds.length = 1 := by
      match preds, hm with
      | [_], _ => rfl
    obtain rfl : init = defaultInit op := hpy
    exact ⟨.reduce op (defaultInit op), by simp only [saved, Draft.loadKind]; rw [guardThrow_true hp]; rfl, .same _⟩
  | fold op init =>
    have hp : preds.length = 1 := by
      match preds, hm with
      | [_], _ => rfl
    obtain rfl : init = none := hpy
    exact ⟨.fold op none, by simp only [saved, Draft.loadKind]; rw [guardThrow_true hp]; rfl, .same _⟩
  | partialSum axis init =>
    have hp : preds.length = 1 := by
      match preds, hm with
      | [_], _ => rfl
    obtain rfl : init = 0 := hpy
    refine ⟨.partialSum axis 0, ?_, .same _⟩
    simp only [saved, Draft.loadKind]
    rw [guardThrow_true hp, guardUB_true (by omega)]; rfl
  | reshape shape =>
    have hp : preds.length = 1 := by
      match preds, hm with
      | [_], _ => rfl
    have hs : shape1 out = shape := by
      match preds, hm with
      | [p], hm =>
        simp only [make, List.map_cons, List.map_nil, Res.bind_eq_ok, Res.ok.injEq] at hm
        obtain ⟨s, _, t, ht, rfl⟩ := hm
        exact reshapeShape_eq ht
    refine ⟨.reshape shape, ?_, .same _⟩
    rw [hs]
    simp only [saved, Draft.loadKind]
    rw [guardThrow_true hp, guardThrow_true (show ∀ n ∈ shape, 0 ≤ n from hpy)]; rfl
  | size =>
    have hp : preds.length = 1 := by
      match preds, hm with
      | [_], _ => rfl
    exact ⟨.size, by simp only [saved, Draft.loadKind]; rw [guardThrow_true hp]; rfl, .same _⟩
  | where_ =>
    have hp : preds.length = 3 := by
      match preds, hm with
      | [_, _, _], _ => rfl
    exact ⟨.where_, by simp only [saved, Draft.loadKind]; rw [guardThrow_true hp]; rfl, .same _⟩
  | quadratic n ops =>
    match preds, hm with
    | [p], hm =>
      have hA : (d.S.kind p).isArray = true := by simpa [typed] using hty
      simp only [make, List.map_cons, List.map_nil, Res.bind_eq_ok] at hm
      obtain ⟨s, hs, _, ho, hm⟩ := hm
      have ho := guardUB_eq_ok.1 ho
      have hsh : d.S.shapes p = [s] := by
        match h : d.S.shapes p, hs with
        | [t], hs => simp only [arrayShape, Res.ok.injEq] at hs; rw [hs]
      have hsn : s = [(n : Int)] := by
        obtain ⟨q, e, hn, h⟩ := build_inv n ho
        obtain ⟨q', e', t, ht, _⟩ := hm
        rw [e] at e'
        obtain rfl : q = q' := by simpa using e'
        simp only [quadraticShape, Res.bind_eq_ok] at ht
        obtain ⟨_, hg, _⟩ := ht
        rw [guardThrow_eq_ok.1 hg, hn]
      subst hsn
      simp only [List.headD_cons] at hpy
      refine ⟨.quadratic n (Draft.loadedBiases (claim p).logical (savedLinear n ops) (savedTerms n ops)), ?_,
        .quadratic n (loaded_inRange ho _) ho (loaded_biases ho hpy.2)⟩
      have hfit : Draft.biasesFit (shape1 (d.S.shapes ([p].headD 0))) (savedLinear n ops) (savedTerms n ops) := by
        show Draft.biasesFit (shape1 (d.S.shapes p)) _ _
        rw [hsh]
        exact biasesFit_saved ho hpy.1
      simp only [saved, Draft.loadKind]
      rw [guardThrow_true (show [p].length = 1 from rfl),
        guardThrow_true (show (d.S.kind ([p].headD 0)).isArray = true from hA), guardThrow_true hfit]
      simp only [Res.ok_bind, List.headD_cons, hsh, shape1]
      simp

end Kind

end Verif
