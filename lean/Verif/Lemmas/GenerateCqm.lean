import Verif.Lemmas.ScriptMore
import Verif.Lemmas.ArchiveKinds
import Verif.Lemmas.BiasValues
import Verif.Model.GeneratorsCqm

set_option linter.unusedSectionVars false
set_option linter.unusedSimpArgs false
set_option linter.unusedVariables false

/-! Helper lemmas: the models made from constrained quadratic models. -/

namespace Verif

namespace Script

variable {full : Prop} {P : Nat → Prop} {s s' s'' : Script} {A vals : Nat → Val} {D : Nat → Prop} {adm : (Nat → Val) → Prop}

theorem bits_of_bounds {data : List Rat} (h : ∀ v ∈ data, InBounds 0 1 v) : ∃ l : List Bool, data = l.map bitOf := by
  induction data with
  | nil => exact ⟨[], rfl⟩
  | cons v data ih =>
    obtain ⟨k, rfl, hk⟩ := h v (by simp)
    obtain ⟨l, rfl⟩ := ih fun w hw => h w (by simp [hw])
    refine ⟨decide (k = 1) :: l, ?_⟩
    rw [List.map_cons]
    congr 1
    by_cases h1 : k = 1
    · subst h1; rfl
    · obtain rfl : k = 0 := by omega
      rfl

/-- An array of bits. -/
theorem State.binaryVar (S : State full P s (fun _ => False) (fun _ => True)) (hP : P s.length) (n : Nat) :
    ∃ s', s.add (.kind (.binaryVar [(n : Int)])) [] = .ok (s', s.length) ∧
      NextArr full P s s' (· = s.length)
        (fun A => ∃ l : List Bool, l.length = n ∧ A s.length = [⟨[(n : Int)], l.map bitOf⟩])
        [(n : Int)] (.ok ⟨⟨0, 1⟩, true⟩) (.fixed n) none
        (fun A => (single (A s.length)).data) := by
  have hs : dynamicShape [(n : Int)] = false := by simp [dynamicShape]
  obtain ⟨s', e, N⟩ := S.decision (k := .binaryVar [(n : Int)]) (out := [[(n : Int)]]) hP rfl (by
      have : NumNode.make [(n : Int)].prod.toNat (some 0) (some 1) = .ok ⟨[(n : Int)].prod.toNat, 0, 1⟩ := by
        unfold NumNode.make
        simp only [Option.getD_some]
        rw [guardThrow_true (by omega), Res.ok_bind, guardThrow_true (by omega), Res.ok_bind]
        rfl
      show (do
        let _ ← NumNode.make [(n : Int)].prod.toNat (some 0) (some 1)
        .ok [[(n : Int)]]) = Res.ok [[(n : Int)]]
      rw [this, Res.ok_bind]) hs (by simp [GoodShape])
  have hadm : ∀ A : Nat → Val, (((Kind.binaryVar [(n : Int)]).node [] [[(n : Int)]]).ok [A s.length] ↔
      ∃ l : List Bool, l.length = n ∧ A s.length = [⟨[(n : Int)], l.map bitOf⟩]) := by
    intro A
    show (∃ data : List Rat, [A s.length] = [[⟨[(n : Int)], data⟩]] ∧ data.length = [(n : Int)].prod.toNat ∧ ∀ v ∈ data, InBounds 0 1 v) ↔ _
    constructor
    · rintro ⟨data, e, h1, h2⟩
      obtain ⟨l, rfl⟩ := bits_of_bounds h2
      exact ⟨l, by simpa using h1, by simpa using e⟩
    · rintro ⟨l, h1, e⟩
      refine ⟨l.map bitOf, by rw [e], by simpa using h1, ?_⟩
      intro v hv
      obtain ⟨k, hk, rfl⟩ := List.mem_map.1 hv
      cases k
      · exact ⟨0, by simp [bitOf], by omega, by omega⟩
      · exact ⟨1, by simp [bitOf], by omega, by omega⟩
  have hsz : (Kind.binaryVar [(n : Int)]).sizeFrom s.length [[(n : Int)]] [] [] = .fixed n := by
    unfold Kind.sizeFrom
    simp [Kind.shape1, hs]
  have hcl : (Kind.binaryVar [(n : Int)]).claimFrom s.sizes [] = .ok ⟨⟨0, 1⟩, true⟩ := rfl
  refine ⟨s', e, ?_⟩
  rw [hsz, hcl] at N
  refine (N.iff hadm).congr ?_
  rintro A ⟨l, hl, e⟩
  simp only [e]
  rfl

/-- A quadratic model. -/
theorem State.quadratic (S : State full P s D adm) (hP : P s.length) {x n : Nat} {claim : Res Claim} {size : SizeInfo}
    {const : Option (Arr Rat)} {g : (Nat → Val) → List Rat} (hx : HasArr P s x [(n : Int)] claim size const g)
    {ops : List BiasOp} (ho : ∀ op ∈ ops, op.inRange n) :
    ∃ s' c, s.add (.kind (.quadratic n ops)) [x] = .ok (s', s.length) ∧
      NextArr full P s s' D adm [] c (.fixed 1) none (fun A => [(biasesOf ops).value n fun i => (g A).getD i 0]) := by
  obtain ⟨s', e, N⟩ := S.kind (k := .quadratic n ops) (ops := [x]) (qs := [(_, _)]) (out := [[]])
    (v := fun A => [⟨[], [(biasesOf ops).value n fun i => (g A).getD i 0]⟩])
    hP (.cons hx .nil) rfl rfl (by
      show (Kind.quadratic n ops).make [[[(n : Int)]]] = _
      rw [Kind.quadratic_make ho, if_pos rfl])
    trivial (by simp [GoodShape]) (by simp [GoodShape]) (fun A _ => by
      show [(⟨[], [_]⟩ : Arr Rat)] = _
      simp [single])
  exact ⟨s', _, e, N⟩

end Script

open Script

variable {full : Prop} {P : Nat → Prop} {s : Script} {D : Nat → Prop} {adm : (Nat → Val) → Prop}

/-- The elements an expression uses, at its own positions. -/
theorem getD_positions (e : QuadExpr) (x : Nat → Rat) {u : Nat} (hu : u ∈ e.linear.map Prod.fst) :
    (e.linear.map fun p => x p.1).getD ((e.linear.map Prod.fst).idxOf u) 0 = x u := by
  have hlt : (e.linear.map Prod.fst).idxOf u < e.linear.length := by simpa using List.idxOf_lt_length_iff.2 hu
  rw [getD_of_lt (by simpa using hlt), List.getElem_map]
  have : (e.linear.map Prod.fst)[(e.linear.map Prod.fst).idxOf u]'(by simpa using hlt) = u := List.getElem_idxOf _
  rw [List.getElem_map] at this
  rw [this]

theorem sum_linear (l : List (Nat × Rat)) (x : Nat → Rat) (y : Nat → Rat)
    (h : ∀ i, (hi : i < l.length) → y i = x (l[i]).1) :
    ((((l.map Prod.snd).zipIdx.map fun p => BiasOp.addLinear p.2 p.1)).map (BiasOp.adds y)).sum = (l.map fun p => p.2 * x p.1).sum := by
  congr 1
  refine List.ext_getElem (by simp) fun i h1 h2 => ?_
  simp only [List.getElem_map, List.getElem_zipIdx, BiasOp.adds, Nat.zero_add]
  rw [h i (by simpa using h2)]

/-- The requests made for an expression add up to its value. -/
theorem loaded_value {n : Nat} {e : QuadExpr} (he : e.Over n) {x : Nat → Rat} (hx : ∀ i, x i * x i = x i) :
    (∀ op ∈ Draft.loadedBiases true (e.linear.map Prod.snd)
      (e.quadratic.map fun t => ((((e.linear.map Prod.fst).idxOf t.1 : Nat) : Int), (((e.linear.map Prod.fst).idxOf t.2.1 : Nat) : Int), t.2.2)),
      op.inRange e.linear.length) ∧
    (biasesOf (Draft.loadedBiases true (e.linear.map Prod.snd)
      (e.quadratic.map fun t => ((((e.linear.map Prod.fst).idxOf t.1 : Nat) : Int), (((e.linear.map Prod.fst).idxOf t.2.1 : Nat) : Int), t.2.2)))).value
        e.linear.length (fun i => (e.linear.map fun p => x p.1).getD i 0) =
      (e.linear.map fun p => p.2 * x p.1).sum + (e.quadratic.map fun t => t.2.2 * (x t.1 * x t.2.1)).sum := by
  have hpos : ∀ u ∈ e.linear.map Prod.fst, (e.linear.map Prod.fst).idxOf u < e.linear.length := fun u hu => by
    simpa using List.idxOf_lt_length_iff.2 hu
  have hr : ∀ op ∈ Draft.loadedBiases true (e.linear.map Prod.snd)
      (e.quadratic.map fun t => ((((e.linear.map Prod.fst).idxOf t.1 : Nat) : Int), (((e.linear.map Prod.fst).idxOf t.2.1 : Nat) : Int), t.2.2)),
      op.inRange e.linear.length ∧ op.Adding := by
    intro op hop
    unfold Draft.loadedBiases at hop
    rcases List.mem_append.1 hop with hop | hop
    · obtain ⟨⟨b, i⟩, hp, rfl⟩ := List.mem_map.1 hop
      have := List.snd_lt_of_mem_zipIdx hp
      exact ⟨by simpa [BiasOp.inRange] using this, trivial⟩
    · rw [List.map_map] at hop
      obtain ⟨t, ht, rfl⟩ := List.mem_map.1 hop
      obtain ⟨h1, h2⟩ := he.2 t ht
      simp only [Function.comp, Int.toNat_natCast, true_and]
      split_ifs with hc
      · exact ⟨hpos _ h1, trivial⟩
      · exact ⟨⟨hpos _ h1, hpos _ h2⟩, fun h => hc (by exact_mod_cast h)⟩
  refine ⟨fun op hop => (hr op hop).1, ?_⟩
  rw [value_biasesOf (fun op hop => (hr op hop).1) (fun op hop => (hr op hop).2)]
  unfold Draft.loadedBiases
  rw [List.map_append, List.sum_append]
  congr 1
  · refine sum_linear _ x _ fun i hi => ?_
    rw [getD_of_lt (by simpa using hi), List.getElem_map]
  · rw [List.map_map, List.map_map]
    congr 1
    refine List.map_congr_left fun t ht => ?_
    obtain ⟨h1, h2⟩ := he.2 t ht
    simp only [Function.comp, Int.toNat_natCast, true_and]
    split_ifs with hc
    · have hc : (e.linear.map Prod.fst).idxOf t.1 = (e.linear.map Prod.fst).idxOf t.2.1 := by exact_mod_cast hc
      have h3 : x t.1 = x t.2.1 := by rw [← getD_positions e x h1, ← getD_positions e x h2, hc]
      simp only [BiasOp.adds]
      rw [getD_positions e x h1, ← h3, hx]
    · simp only [BiasOp.adds]
      rw [getD_positions e x h1, getD_positions e x h2]

/-- The value of an expression becomes a symbol. -/
theorem cqm_expression (hP : ∀ i, P i) (S : State full P s D adm) {n x : Nat} (hn : 0 < n) {gx : (Nat → Val) → List Rat}
    (hx : HasArr P s x [(n : Int)] (.ok ⟨⟨0, 1⟩, true⟩) (.fixed n) none gx)
    (hb : ∀ A, adm A → ∀ i, (gx A).getD i 0 * (gx A).getD i 0 = (gx A).getD i 0) {e : QuadExpr} (he : e.Over n) :
    ∃ s' o, Generators.cqmExpression s x e = .ok (s', o) ∧ State full P s' D adm ∧ Ext P s s' ∧
      Computes P s' o (fun A => e.value fun i => (gx A).getD i 0) := by
  obtain ⟨s1, e1, N1⟩ := S.constant (hP _) ⟨[(e.linear.length : Int)], e.linear.map fun p => (p.1 : Rat)⟩
    (wf_of_vector ⟨rfl, by simp⟩) (by simp [GoodShape]) (by simp [dynamicShape])
  obtain ⟨s2, e2, N2⟩ := N1.state.constant (hP _) ⟨[(e.linear.length : Int)], e.linear.map Prod.snd⟩
    (wf_of_vector ⟨rfl, by simp⟩) (by simp [GoodShape]) (by simp [dynamicShape])
  obtain ⟨c, ec, hc1, hc2, hc3, hc4⟩ := constant_index (a := ⟨[(e.linear.length : Int)], e.linear.map fun p => (p.1 : Rat)⟩) hn
    (l := e.linear.map Prod.fst) (by simp [Function.comp_def]) (by
      intro k hk
      obtain ⟨p, hp, rfl⟩ := List.mem_map.1 hk
      exact he.1 p hp)
  rw [ec] at N1
  obtain ⟨s3, e3, N3⟩ := N2.state.advancedOne (n := n) (hP _) (hx.mono (N1.ext.trans N2.ext)) (by rintro _ ⟨⟩)
    ⟨N1.has.mono N2.ext, hc1, hc2, hc3, fun A _ => hc4⟩ (by simp) hn
  replace N3 := N3.congr (g' := fun A => e.linear.map fun p => (gx A).getD p.1 0) (by
    intro A _
    rw [List.map_map]
    refine List.map_congr_left fun p _ => ?_
    show (gx A).getD (toSS ((p.1 : Nat) : Rat)).toNat 0 = _
    rw [toSS_natCast, Int.toNat_natCast])
  -- without the offset
  have hterms : ∃ s' o, Generators.cqmTerms s2 x s.length s1.length e = .ok (s', o) ∧ State full P s' D adm ∧ Ext P s2 s' ∧
      Computes P s' o (fun A => (e.linear.map fun p => p.2 * (gx A).getD p.1 0).sum +
        (e.quadratic.map fun t => t.2.2 * ((gx A).getD t.1 0 * (gx A).getD t.2.1 0)).sum) := by
    unfold Generators.cqmTerms
    by_cases hq : e.quadratic = []
    · rw [if_pos hq]
      obtain ⟨s4, e4, N4⟩ := N3.state.binary (hP _) .multiply (by decide) (N2.has.mono N3.ext) N3.has (by simp [GoodShape])
        (by simp [dynamicShape])
      obtain ⟨s5, c5, e5, N5⟩ := N4.state.sum (hP _) N4.has (by simp [GoodShape])
      refine ⟨s5, s4.length, by simp only [e3, e4, e5, Res.ok_bind], N5.state, N3.ext.trans (N4.ext.trans N5.ext), ?_⟩
      refine ⟨_, _, _, (N5.congr fun A _ => ?_).has⟩
      congr 1
      simp only [hq, List.map_nil, List.sum_nil, add_zero]
      congr 1
      rw [List.zipWith_map, List.zipWith_self]
      rfl
    · rw [if_neg hq]
      have hts : e.quadratic.mapM (Generators.termOf e) = .ok (e.quadratic.map fun t =>
          ((((e.linear.map Prod.fst).idxOf t.1 : Nat) : Int), (((e.linear.map Prod.fst).idxOf t.2.1 : Nat) : Int), t.2.2)) := by
        refine mapM_ok _ _ _ fun t ht => ?_
        obtain ⟨h1, h2⟩ := he.2 t ht
        unfold Generators.termOf Generators.positionOf
        rw [guardThrow_true h1, Res.ok_bind, Res.ok_bind, guardThrow_true h2, Res.ok_bind, Res.ok_bind]
      have hpos : ∀ u ∈ e.linear.map Prod.fst, (e.linear.map Prod.fst).idxOf u < e.linear.length := fun u hu => by
        simpa using List.idxOf_lt_length_iff.2 hu
      have hin := (loaded_value (x := fun _ => 0) he (by simp)).1
      obtain ⟨s4, c4, e4, N4⟩ := N3.state.quadratic (hP _) N3.has hin
      have hsh : (s3.row s2.length).out.shape = [(e.linear.length : Int)] := by rw [N3.has.out]; rfl
      have hcl : (s3.row s2.length).out.claim = .ok ⟨⟨0, 1⟩, true⟩ := by rw [N3.has.out]
      refine ⟨s4, s3.length, ?_, N4.state, N3.ext.trans N4.ext, ⟨_, _, _, (N4.congr fun A hA => ?_).has⟩⟩
      · rw [hts, Res.ok_bind, e3, Res.ok_bind]
        show Generators.quadraticModel s3 s2.length _ _ = _
        unfold Generators.quadraticModel
        rw [hsh, hcl, guardThrow_true, Res.ok_bind, Res.ok_bind]
        · have : (⟨⟨0, 1⟩, true⟩ : Claim).logical = true := by decide
          rw [this]
          simpa using e4
        · obtain ⟨t, ht⟩ := List.exists_mem_of_ne_nil _ hq
          have h0 := hpos _ (he.2 t ht).1
          refine ⟨by simp [dynamicShape], rfl, by simp; omega, by simp, by simpa using hq, ?_⟩
          intro t' ht'
          obtain ⟨t, ht, rfl⟩ := List.mem_map.1 ht'
          obtain ⟨h1, h2⟩ := he.2 t ht
          have h1 := hpos _ h1
          have h2 := hpos _ h2
          simp only [List.prod_cons, List.prod_nil, mul_one]
          omega
      · congr 1
        exact (loaded_value he (hb A hA)).2
  obtain ⟨s3', o, e3', S3, x3, h3⟩ := hterms
  have hx3 := N1.ext.trans (N2.ext.trans x3)
  unfold Generators.cqmExpression
  simp only [e1, e2, e3', Res.ok_bind]
  unfold Generators.cqmOffset
  by_cases h0 : e.offset = 0
  · rw [if_pos h0]
    refine ⟨s3', o, rfl, S3, hx3, ?_⟩
    unfold QuadExpr.value
    simpa [h0] using h3
  · rw [if_neg h0]
    obtain ⟨c3, z3, k3, h3⟩ := h3
    obtain ⟨s4, e4, N4⟩ := S3.constant (hP _) (Generators.scalar e.offset) (by simp [Generators.scalar, Arr.WF, Arr.dynamic, dynamicShape])
      (by simp [Generators.scalar, GoodShape]) rfl
    obtain ⟨s5, e5, N5⟩ := N4.state.binary (hP _) .add (by decide) (h3.mono N4.ext) N4.has (by simp [Generators.scalar, GoodShape]) rfl
    refine ⟨s5, s4.length, by simp only [e4, e5, Res.ok_bind], N5.state, hx3.trans (N4.ext.trans N5.ext), ⟨_, _, _, (N5.congr fun A _ => ?_).has⟩⟩
    show [_ + e.offset] = [_]
    congr 1
    unfold QuadExpr.value
    ring

/-- A constraint becomes a symbol that says whether it holds. -/
theorem cqm_constraint (hP : ∀ i, P i) {M : Generated} (S : State full P M.rows D adm) {n x : Nat} (hn : 0 < n) {gx : (Nat → Val) → List Rat}
    (hx : HasArr P M.rows x [(n : Int)] (.ok ⟨⟨0, 1⟩, true⟩) (.fixed n) none gx)
    (hb : ∀ A, adm A → ∀ i, (gx A).getD i 0 * (gx A).getD i 0 = (gx A).getD i 0) {c : CqmConstraint} (he : c.lhs.Over n) :
    ∃ (M' : Generated) (i : Nat) (q : (Nat → Val) → Bool), Generators.cqmConstraint x M c = .ok M' ∧ State full P M'.rows D adm ∧ Ext P M.rows M'.rows ∧
      M'.objective = M.objective ∧ M'.constraints = M.constraints ++ [i] ∧
      (Computes P M'.rows i fun A => ofBool (q A)) ∧ ∀ A, q A = true ↔ c.holds fun i => (gx A).getD i 0 := by
  obtain ⟨s1, l, e1, S1, x1, l1, z1, k1, h1⟩ := cqm_expression hP S hn hx hb he
  obtain ⟨s2, e2, N2⟩ := S1.constant (hP _) (Generators.scalar c.rhs) (by simp [Generators.scalar, Arr.WF, Arr.dynamic, dynamicShape])
    (by simp [Generators.scalar, GoodShape]) rfl
  have hcmp : ∃ (s3 : Script) (q : (Nat → Val) → Bool), Generators.cqmCompare s2 c.sense l s1.length = .ok (s3, s2.length) ∧
      NextArr full P s2 s3 D adm [] (.ok ⟨⟨0, 1⟩, true⟩) (.fixed 1) none (fun A => [ofBool (q A)]) ∧
      ∀ A, q A = true ↔ c.holds fun i => (gx A).getD i 0 := by
    unfold Generators.cqmCompare CqmConstraint.holds
    cases c.sense with
    | eq =>
      obtain ⟨s3, e3, N3⟩ := N2.state.truth (hP _) .equal rfl (h1.mono N2.ext) N2.has (by simp [Generators.scalar, GoodShape]) rfl
      exact ⟨s3, fun A => decide (c.lhs.value (fun i => (gx A).getD i 0) = c.rhs), e3, N3, fun A => decide_eq_true_iff⟩
    | le =>
      obtain ⟨s3, e3, N3⟩ := N2.state.truth (hP _) .lessEqual rfl (h1.mono N2.ext) N2.has (by simp [Generators.scalar, GoodShape]) rfl
      exact ⟨s3, fun A => decide (c.lhs.value (fun i => (gx A).getD i 0) ≤ c.rhs), e3, N3, fun A => decide_eq_true_iff⟩
    | ge =>
      obtain ⟨s3, e3, N3⟩ := N2.state.truth (hP _) .lessEqual rfl N2.has (h1.mono N2.ext) (by simp [Generators.scalar, GoodShape]) rfl
      exact ⟨s3, fun A => decide (c.rhs ≤ c.lhs.value (fun i => (gx A).getD i 0)), e3, N3, fun A => decide_eq_true_iff⟩
  obtain ⟨s3, q, e3, N3, hq⟩ := hcmp
  refine ⟨⟨s3, M.objective, M.constraints ++ [s2.length]⟩, s2.length, q, ?_, N3.state, x1.trans (N2.ext.trans N3.ext), rfl, rfl,
    ⟨_, _, _, N3.has⟩, hq⟩
  unfold Generators.cqmConstraint
  simp only [e1, e2, e3, Res.ok_bind]
  exact addConstraint_ok N3.has _ _

/-- All constraints. -/
theorem cqm_loop (hP : ∀ i, P i) {n x : Nat} (hn : 0 < n) {gx : (Nat → Val) → List Rat}
    (hb : ∀ A, adm A → ∀ i, (gx A).getD i 0 * (gx A).getD i 0 = (gx A).getD i 0) :
    ∀ (cs : List CqmConstraint) (M : Generated), (∀ c ∈ cs, c.lhs.Over n) → State full P M.rows D adm →
      HasArr P M.rows x [(n : Int)] (.ok ⟨⟨0, 1⟩, true⟩) (.fixed n) none gx →
      ∃ (M' : Generated) (is : List Nat) (qs : List ((Nat → Val) → Bool)), cs.foldlM (Generators.cqmConstraint x) M = .ok M' ∧ State full P M'.rows D adm ∧ Ext P M.rows M'.rows ∧
        M'.objective = M.objective ∧ M'.constraints = M.constraints ++ is ∧
        List.Forall₂ (fun i (q : (Nat → Val) → Bool) => Computes P M'.rows i fun A => ofBool (q A)) is qs ∧
        ∀ A, (∀ q ∈ qs, q A = true) ↔ ∀ c ∈ cs, c.holds fun i => (gx A).getD i 0 := by
  intro cs
  induction cs with
  | nil =>
    intro M _ S _
    exact ⟨M, [], [], rfl, S, Ext.refl, rfl, by simp, .nil, by simp⟩
  | cons c cs ih =>
    intro M hc S hx
    obtain ⟨M1, i, q, e1, S1, x1, o1, k1, q1, v1⟩ := cqm_constraint hP S hn hx hb (hc c (by simp))
    obtain ⟨M2, is, qs, e2, S2, x2, o2, k2, q2, v2⟩ := ih M1 (fun d hd => hc d (by simp [hd])) S1 (hx.mono x1)
    refine ⟨M2, i :: is, q :: qs, ?_, S2, x1.trans x2, o2.trans o1, by rw [k2, k1]; simp, .cons (q1.mono x2) q2, ?_⟩
    · rw [List.foldlM_cons, e1]
      exact e2
    · intro A
      simp only [List.forall_mem_cons, v1, v2]

theorem getD_bits (l : List Bool) (i : Nat) : (l.map bitOf).getD i 0 = bitOf (l.getD i false) := by
  simp only [List.getD_eq_getElem?_getD, List.getElem?_map]
  cases l[i]? <;> simp [bitOf]

theorem cqm_proves {c : Cqm} (hw : c.WF) (hb : ∀ t ∈ c.vartypes, t = .binary) (hn : 0 < c.vartypes.length) :
    ∃ M, Generators.fromCqm c = .ok M ∧ Proves full (fun _ => True) M (cqmProblem c.hard) := by
  obtain ⟨s1, e1, N1⟩ := (state_nil (full := full) (P := fun _ => True)).binaryVar trivial c.vartypes.length
  have hbits : ∀ A : Nat → Val, (∃ l : List Bool, l.length = c.vartypes.length ∧ A ([] : Script).length = [⟨[(c.vartypes.length : Int)], l.map bitOf⟩]) →
      ∀ i, (single (A ([] : Script).length)).data.getD i 0 * (single (A ([] : Script).length)).data.getD i 0 =
        (single (A ([] : Script).length)).data.getD i 0 := by
    rintro A ⟨l, _, e⟩ i
    rw [e]
    show (l.map bitOf).getD i 0 * (l.map bitOf).getD i 0 = (l.map bitOf).getD i 0
    rw [getD_bits]
    cases l.getD i false <;> simp [bitOf]
  obtain ⟨s2, o, e2, S2, x2, h2⟩ := cqm_expression (fun _ => trivial) N1.state hn N1.has hbits hw.1
  obtain ⟨M, is, qs, e3, S3, x3, ho, hk, hq, hv⟩ := cqm_loop (fun _ => trivial) hn hbits c.constraints ⟨s2, some o, []⟩
    hw.2 S2 (N1.has.mono x2)
  refine ⟨M, ?_, ?_⟩
  · unfold Generators.fromCqm
    rw [guardThrow_true hb, Res.ok_bind, if_neg (by omega)]
    unfold Generators.cqmModel
    simp only [e1, e2, Res.ok_bind, minimize_ok h2 none []]
    exact e3
  · have h3 := h2.mono x3
    refine State.proves (d := ([] : Script).length) S3 S3.good.complete (fun _ h => h) ?_ ho h3.lt ?_ (qs := qs) (by rw [hk]; exact hq) ?_
    · intro A
      exact ⟨fun ⟨l, h1, h2⟩ => ⟨l, h1, h2⟩, fun ⟨l, h1, h2⟩ => ⟨l, h1, h2⟩⟩
    · intro l hl vals hr
      have := h3.front S3 (A := (cqmProblem c.hard).values l) ⟨l, hl, rfl⟩ hr
      rw [this]
      show Res.ok (c.objective.value fun i => (l.map bitOf).getD i 0) = Res.ok _
      congr 1
      show _ = c.objective.value _ + ((c.constraints.map fun k => { k with weight := none }).map _).sum
      rw [List.map_map]
      have : ((fun k : CqmConstraint => k.weight.getD 0 * k.violation fun i => bitOf (l.getD i false)) ∘
          fun k : CqmConstraint => { k with weight := none }) = fun _ => 0 := by
        funext k
        simp [Function.comp]
      rw [this]
      simp only [getD_bits, List.map_const', List.sum_replicate, nsmul_zero, add_zero]
    · intro l hl
      rw [hv]
      show (∀ k ∈ c.constraints, k.holds fun i => (l.map bitOf).getD i 0) ↔
        ∀ k ∈ c.constraints.map fun k : CqmConstraint => { k with weight := none }, k.weight = none →
          k.holds fun i => bitOf (l.getD i false)
      simp only [getD_bits, List.forall_mem_map, true_implies, forall_const]
      rfl

end Verif
