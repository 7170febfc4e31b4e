import Verif.Lemmas.ExpressionValues

set_option linter.unusedSimpArgs false
set_option linter.unusedVariables false
set_option linter.unusedTactic false

/-! Helper lemmas: how statements change the model and what they mean. -/

namespace Verif

open Graph PyModel

namespace Draft

/-- The value of a symbol fits to the symbol and to the values of its operands. -/
structure Good (d : Draft) (vals : Nat → Val) (v : Nat) : Prop where
  shapes : HasShapes (d.S.shapes v) (vals v)
  good : ∀ s ∈ d.S.shapes v, GoodShape s
  regular : (d.S.kind v).Regular (d.S.inShapes d.m.g v)
  given : (d.S.kind v).GivenShapes
  plain : (d.S.kind v).PlainWhere (d.S.inShapes d.m.g v)
  value : (d.S.kind v).isDecision = false → vals v = (d.S.sem d.m.g v).f ((d.m.g.mem v).preds.map vals)

/-- So for all symbols. -/
def Holds (d : Draft) (vals : Nat → Val) : Prop := ∀ v ∈ d.m.g.nodes, d.Good vals v

/-- A symbol shows the array `x`. -/
structure Shown (d : Draft) (vals : Nat → Val) (p : Nat) (x : Arr Rat) : Prop where
  shape : d.S.shapes p = [x.shape]
  value : vals p = [x]
  fine : x.Fine

theorem Good.shown {d : Draft} {vals : Nat → Val} {v : Nat} (h : d.Good vals v) (h1 : (d.S.shapes v).length = 1) :
    d.Shown vals v (single (vals v)) := by
  obtain ⟨s, hs⟩ := List.length_eq_one_iff.1 h1
  have hh := h.shapes
  rw [hs] at hh
  obtain ⟨a, ha, has, hw⟩ := hh.one
  refine ⟨?_, ?_, ?_, ?_⟩
  · rw [hs, ha, ← has]; rfl
  · rw [ha]; rfl
  · rw [ha]
    have := h.good s (by rw [hs]; simp)
    rw [← has] at this
    exact this
  · rw [ha]; exact hw

/-- The model `d'` is `d` with a new symbol. -/
structure Grown (d d' : Draft) (a : Nat) (k : Kind) (ops : List Nat) : Prop where
  made : d'.Made
  absent : a ∉ d.m.g.nodes
  operands : ∀ p ∈ ops, p ∈ d.m.g.nodes
  array : k.isArray = true
  nodes : d'.m.g.nodes = d.m.g.nodes ++ [a]
  kind : d'.S.kind = upd d.S.kind a k
  shapes : ∃ out, d'.S.shapes = upd d.S.shapes a out
  new : (d'.m.g.mem a).preds = ops
  old : ∀ v ∈ d.m.g.nodes, (d'.m.g.mem v).preds = (d.m.g.mem v).preds
  objective : d'.m.g.objective = d.m.g.objective
  constraints : d'.m.g.constraints = d.m.g.constraints

theorem Grown.ne {d d' : Draft} {a : Nat} {k : Kind} {ops : List Nat} (h : Grown d d' a k ops) {v : Nat} (hv : v ∈ d.m.g.nodes) :
    v ≠ a := fun e => h.absent (e ▸ hv)

theorem Grown.kind_old {d d' : Draft} {a : Nat} {k : Kind} {ops : List Nat} (h : Grown d d' a k ops) {v : Nat} (hv : v ∈ d.m.g.nodes) :
    d'.S.kind v = d.S.kind v := by rw [h.kind, upd_ne _ _ (h.ne hv)]

theorem Grown.kind_new {d d' : Draft} {a : Nat} {k : Kind} {ops : List Nat} (h : Grown d d' a k ops) : d'.S.kind a = k := by
  rw [h.kind, upd_same]

theorem Grown.shapes_old {d d' : Draft} {a : Nat} {k : Kind} {ops : List Nat} (h : Grown d d' a k ops) {v : Nat} (hv : v ∈ d.m.g.nodes) :
    d'.S.shapes v = d.S.shapes v := by
  obtain ⟨out, ho⟩ := h.shapes
  rw [ho, upd_ne _ _ (h.ne hv)]

theorem Grown.mem_new {d d' : Draft} {a : Nat} {k : Kind} {ops : List Nat} (h : Grown d d' a k ops) : a ∈ d'.m.g.nodes := by
  rw [h.nodes]; simp

theorem Grown.mem_old {d d' : Draft} {a : Nat} {k : Kind} {ops : List Nat} (h : Grown d d' a k ops) {v : Nat} (hv : v ∈ d.m.g.nodes) :
    v ∈ d'.m.g.nodes := by rw [h.nodes]; simp [hv]

theorem Grown.holds {d d' : Draft} {a : Nat} {k : Kind} {ops : List Nat} (h : Grown d d' a k ops) (hm : d.Made) {vals : Nat → Val}
    (hv : d'.Holds vals) : d.Holds vals := by
  intro v hvn
  have g := hv v (h.mem_old hvn)
  have hin : d'.S.inShapes d'.m.g v = d.S.inShapes d.m.g v := by
    unfold Symbols.inShapes
    rw [h.old v hvn]
    exact List.map_congr_left fun p hp => h.shapes_old (hm.inv.wf.predMem v hvn p hp)
  refine ⟨?_, ?_, ?_, ?_, ?_, fun hd => ?_⟩
  · rw [← h.shapes_old hvn]; exact g.shapes
  · rw [← h.shapes_old hvn]; exact g.good
  · rw [← h.kind_old hvn, ← hin]; exact g.regular
  · rw [← h.kind_old hvn]; exact g.given
  · rw [← h.kind_old hvn, ← hin]; exact g.plain
  · have := g.value (by rw [h.kind_old hvn]; exact hd)
    rw [this]
    unfold Symbols.sem
    rw [h.kind_old hvn, hin, h.shapes_old hvn, h.old v hvn]

theorem Grown.value {d d' : Draft} {a : Nat} {k : Kind} {ops : List Nat} (h : Grown d d' a k ops) {vals : Nat → Val}
    (hv : d'.Holds vals) (hk : k.isDecision = false) :
    ∃ out, k.make (ops.map d.S.shapes) = .ok out ∧ k.Regular (ops.map d.S.shapes) ∧ k.GivenShapes ∧ k.PlainWhere (ops.map d.S.shapes) ∧
      (∀ s ∈ out, GoodShape s) ∧ vals a = (k.node (ops.map d.S.shapes) out).f (ops.map vals) := by
  have g := hv a h.mem_new
  have hin : d'.S.inShapes d'.m.g a = ops.map d.S.shapes := by
    unfold Symbols.inShapes
    rw [h.new]
    exact List.map_congr_left fun p hp => h.shapes_old (h.operands p hp)
  have hmk := h.made.made a h.mem_new
  have g2 := g.regular
  have g3 := g.plain
  have g5 := g.given
  have g4 := g.value (by rw [h.kind_new]; exact hk)
  unfold Symbols.sem at g4
  rw [hin, h.kind_new] at hmk g2 g3 g4
  rw [h.new] at g4
  rw [h.kind_new] at g5
  exact ⟨_, hmk, g2, g5, g3, g.good, g4⟩

theorem oneOutput_old {d : Draft} (hm : d.Made) (ha : ∀ v ∈ d.m.g.nodes, (d.S.kind v).isArray = true) {vals : Nat → Val}
    (hv : d.Holds vals) {p : Nat} (hp : p ∈ d.m.g.nodes) : d.Shown vals p (single (vals p)) :=
  (hv p hp).shown (hm.oneOutput p hp (ha p hp))

/-! ## Constructors -/

theorem emplace_told {d d' : Draft} {claim : Nat → Claim} {a : Nat} {k : Kind} {ops : List Nat}
    (h : d.emplace claim a k ops = (d', .ok ())) :
    d'.m.g.objective = d.m.g.objective ∧ d'.m.g.constraints = d.m.g.constraints := by
  unfold emplace emplaceWith at h
  split_ifs at h
  · simp at h
  · simp at h
  · split at h
    · simp only [Prod.mk.injEq, and_true] at h
      subst h
      exact ⟨rfl, rfl⟩
    · simp at h
    · simp at h

theorem grown_construct {decl : Symbols → Graph → Nat → Claim} {d d' : Draft} {a : Nat} {k : Kind} {ops : List Nat} (hm : d.Made)
    (ha : k.isArray = true) (ho : ∀ i, k ≠ .output i) (h : d.perform decl (.construct a k ops) = (d', .ok ())) : Grown d d' a k ops := by
  obtain ⟨h1, h2, h3, _⟩ := hm.constructed h
  obtain ⟨_, h4, h5, h6, ⟨out, _, h7⟩, _⟩ := emplace_ok hm.oneOutput h
  obtain ⟨h8, h9⟩ := emplace_told h
  have hr : k.resolve d.m.g.mem ops = k := by
    unfold Kind.resolve
    split
    · exact absurd rfl (ho _)
    · rfl
  rw [hr] at h6
  exact ⟨hm.construct h, h4, h5, ha, h1, h6, ⟨out, h7⟩, h2, h3, h8, h9⟩

theorem addNode_told {d d' : Draft} {n p : Nat} (h : d.addNode n p = (d', .ok ())) :
    d'.m.g.objective = d.m.g.objective ∧ d'.m.g.constraints = d.m.g.constraints := by
  unfold addNode at h
  split at h
  · split_ifs at h
    all_goals try (simp at h; done)
    unfold onModel at h
    cases hst : d.m.step (.addOperand n p) with
    | throw => rw [hst] at h; simp at h
    | ub => rw [hst] at h; simp at h
    | ok m =>
      rw [hst] at h
      simp only [Prod.mk.injEq, and_true] at h
      subst h
      simp only [step, addPredecessor, Res.bind_eq_ok, Res.ok.injEq] at hst
      obtain ⟨g, ⟨_, _, _, _, _, _, rfl⟩, rfl⟩ := hst
      exact ⟨rfl, rfl⟩
  · simp at h

theorem imul_told {decl : Symbols → Graph → Nat → Claim} {d d' : Draft} {out x a r : Nat} (h : d.imul decl out x a = (d', .ok r)) :
    d'.m.g.objective = d.m.g.objective ∧ d'.m.g.constraints = d.m.g.constraints := by
  unfold imul at h
  split at h
  · exact addNode_told (andThen_ok h).1
  · exact emplace_told (andThen_ok h).1

theorem powLoop_told {decl : Symbols → Graph → Nat → Claim} {x a : Nat} : ∀ {n : Nat} {d d' : Draft} {out r : Nat},
    powLoop decl x a n d out = (d', .ok r) → d'.m.g.objective = d.m.g.objective ∧ d'.m.g.constraints = d.m.g.constraints
  | 0, d, d', out, r, h => by
    simp only [powLoop, Prod.mk.injEq] at h
    rw [h.1]
    exact ⟨rfl, rfl⟩
  | n + 1, d, d', out, r, h => by
    simp only [powLoop] at h
    generalize hi : d.imul decl out x a = q at h
    obtain ⟨d1, res⟩ := q
    cases res with
    | throw => simp at h
    | ub => simp at h
    | ok s =>
      obtain ⟨h1, h2⟩ := powLoop_told h
      obtain ⟨h3, h4⟩ := imul_told hi
      exact ⟨h1.trans h3, h2.trans h4⟩

/-- What `x ** n` makes. -/
theorem grown_pow {decl : Symbols → Graph → Nat → Claim} {d d' : Draft} {x a r : Nat} {n : Int} (hm : d.Made) (hx : x ∈ d.m.g.nodes)
    (h : d.pow decl x a n = (d', .ok r)) :
    (n = 1 ∧ d' = d ∧ r = x) ∨ (n = 2 ∧ r = a ∧ Grown d d' a (.unary .square) [x]) ∨
    (3 ≤ n ∧ (d.S.kind x ≠ .nary .multiply → r = a ∧ Grown d d' a (.nary .multiply) (List.replicate n.toNat x))) := by
  unfold pow at h
  split_ifs at h with h2 hp
  · obtain ⟨h, rfl⟩ := andThen_ok h
    exact .inr (.inl ⟨h2, rfl, grown_construct hm rfl (fun _ => by simp) h⟩)
  · obtain ⟨k, hk⟩ : ∃ k : Nat, n.toNat = k + 1 := ⟨n.toNat - 1, by omega⟩
    rw [hk, Nat.add_sub_cancel] at h
    cases k with
    | zero =>
      simp only [powLoop, Prod.mk.injEq, Res.ok.injEq] at h
      exact .inl ⟨by omega, h.1.symm, h.2.symm⟩
    | succ k =>
      refine .inr (.inr ⟨by omega, fun hkx => ?_⟩)
      have ht := powLoop_told h
      simp only [powLoop] at h
      generalize hi : d.imul decl x x a = q at h
      obtain ⟨d1, res⟩ := q
      cases res with
      | throw => simp at h
      | ub => simp at h
      | ok s =>
        obtain ⟨rfl, ha, p⟩ := imul_first hm hkx hi
        obtain ⟨rfl, p⟩ := p.loop ha h
        refine ⟨rfl, p.made, ha, ?_, rfl, p.nodes, p.kind, ⟨_, p.shapes⟩, ?_, p.old, ht.1, ht.2⟩
        · intro q hq
          rw [List.eq_of_mem_replicate hq]
          exact hx
        · rw [p.new, hk, Nat.add_comm 2 k]
  · simp at h

/-! ## Operands added in place -/

/-- The model `d'` is `d` with one more operand. -/
structure Extended (d d' : Draft) (n p : Nat) : Prop where
  made : d'.Made
  symbols : d'.S = d.S
  nodes : d'.m.g.nodes = d.m.g.nodes
  preds : ∀ v, (d'.m.g.mem v).preds = if v = n then (d.m.g.mem n).preds ++ [p] else (d.m.g.mem v).preds
  objective : d'.m.g.objective = d.m.g.objective
  constraints : d'.m.g.constraints = d.m.g.constraints

theorem extended_add {decl : Symbols → Graph → Nat → Claim} {d d' : Draft} {n p : Nat} (hm : d.Made)
    (h : d.perform decl (.addOperand n p) = (d', .ok ())) : Extended d d' n p := by
  obtain ⟨h1, h2, h3, _, h5⟩ := hm.added h
  obtain ⟨h6, h7⟩ := addNode_told h
  exact ⟨h1, h2, h3, h5, h6, h7⟩

/-- Undoing the addition of an operand to a symbol that is not used: the values before. -/
theorem Extended.holds {d d' : Draft} {n p : Nat} {op : NaryOp} (h : Extended d d' n p) (hm : d.Made) (hn : n ∈ d.m.g.nodes)
    (ha : ∀ v ∈ d.m.g.nodes, (d.S.kind v).isArray = true)
    (hk : d.S.kind n = .nary op) (hu : ∀ v ∈ d.m.g.nodes, n ∉ (d.m.g.mem v).preds) (hpn : p ≠ n) (hp : p ∈ d.m.g.nodes)
    {vals : Nat → Val} (hv : d'.Holds vals) :
    ∃ x, d.Holds (upd vals n [x]) ∧ numpyZip op.numpy x.present (single (vals p)).present = some (single (vals n)).present := by
  -- the operands before
  have hsh : ∀ v ∈ d.m.g.nodes, d.Shown vals v (single (vals v)) := by
    intro v hvn
    have g := hv v (by rw [h.nodes]; exact hvn)
    have := g.shown (by rw [h.symbols]; exact hm.oneOutput v hvn (ha v hvn))
    exact ⟨by rw [← this.shape, h.symbols], this.value, this.fine⟩
  have hpm : ∀ q ∈ (d.m.g.mem n).preds, q ∈ d.m.g.nodes := hm.inv.wf.predMem n hn
  set xs := (d.m.g.mem n).preds.map fun q => single (vals q) with hxs
  have hvals : (d.m.g.mem n).preds.map vals = xs.map fun x => [x] := by
    rw [hxs, List.map_map]
    exact List.map_congr_left fun q hq => (hsh q (hpm q hq)).value
  have hins : (d.m.g.mem n).preds.map d.S.shapes = xs.map fun x => [x.shape] := by
    rw [hxs, List.map_map]
    exact List.map_congr_left fun q hq => (hsh q (hpm q hq)).shape
  have hmk := hm.made n hn
  rw [hk] at hmk
  unfold Symbols.inShapes at hmk
  rw [hins] at hmk
  -- all operands after
  have hmk' := h.made.made n (by rw [h.nodes]; exact hn)
  rw [h.symbols, hk] at hmk'
  unfold Symbols.inShapes at hmk'
  rw [h.preds n, if_pos rfl, List.map_append, hins, List.map_cons, List.map_nil, (hsh p hp).shape] at hmk'
  have hfine : ∀ x ∈ xs ++ [single (vals p)], x.Fine := by
    intro x hx
    rcases List.mem_append.1 hx with hx | hx
    · obtain ⟨q, hq, rfl⟩ := List.mem_map.1 hx
      exact (hsh q (hpm q hq)).fine
    · rw [List.mem_singleton.1 hx]
      exact (hsh p hp).fine
  have hgn := hv n (by rw [h.nodes]; exact hn)
  have hval := hgn.value (by rw [h.symbols, hk]; rfl)
  unfold Symbols.sem at hval
  rw [h.symbols, hk, h.preds n, if_pos rfl, List.map_append, hvals, List.map_cons, List.map_nil, (hsh p hp).value,
    show (xs.map fun x => [x]) ++ [[single (vals p)]] = (xs ++ [single (vals p)]).map fun x => [x] by simp, nary_f] at hval
  cases hc : xs with
  | nil =>
    rw [hc] at hmk
    simp [Kind.make, naryShape] at hmk
  | cons x ys =>
    rw [hc] at hmk hmk' hval hfine hvals hins
    obtain ⟨_, ho, hd, hy⟩ := nary_call (fun z hz => hfine z (List.mem_append_left _ hz)) hmk
    rw [show ((x :: ys).map fun z => [z.shape]) ++ [[(single (vals p)).shape]] =
      ((x :: (ys ++ [single (vals p)])).map fun z => [z.shape]) by simp] at hmk'
    obtain ⟨_, _, _, hy'⟩ := nary_call (fun z hz => hfine z (by simpa using hz)) hmk'
    have hps : (single (vals p)).shape = x.shape := hy' _ (by simp)
    have hfx := hfine x (by simp)
    have fullx := hfx.full
    rw [present_fixed hd] at fullx
    have hpf := (hsh p hp).fine
    have hpd : dynamicShape (single (vals p)).shape = false := by rw [hps]; exact hd
    have fullp := hpf.full
    rw [present_fixed hpd] at fullp
    have hlen : x.data.length = (single (vals p)).data.length := by
      have h1 := fullx.2
      have h2 := fullp.2
      rw [hps] at h2
      omega
    refine ⟨⟨x.shape, naryValue op.numpy (x :: ys)⟩, ?_, ?_⟩
    · intro v hvn
      by_cases e : v = n
      · subst e
        refine ⟨?_, ?_, ?_, ?_, ?_, fun _ => ?_⟩
        · rw [upd_same, ho]
          refine ⟨rfl, fun b hb => ?_⟩
          rw [List.mem_singleton.1 hb]
          exact wf_of_length (a := x) rfl (naryValue_data_length _ _ _).symm hfx.wf
        · have := hgn.good
          rwa [h.symbols] at this
        · rw [hk]; trivial
        · rw [hk]; trivial
        · rw [hk]; trivial
        · rw [upd_same]
          have e1 : (d.m.g.mem v).preds.map (upd vals v [(⟨x.shape, naryValue op.numpy (x :: ys)⟩ : Arr Rat)]) =
              (x :: ys).map fun x => [x] := by
            rw [← hvals]
            exact List.map_congr_left fun q hq => upd_ne _ _ fun e => hu v hn (e ▸ hq)
          unfold Symbols.sem
          rw [e1, hk, nary_f, ho]
          rfl
      · have g := hv v (by rw [h.nodes]; exact hvn)
        have hpv : (d'.m.g.mem v).preds = (d.m.g.mem v).preds := by rw [h.preds, if_neg e]
        have hin : d'.S.inShapes d'.m.g v = d.S.inShapes d.m.g v := by
          unfold Symbols.inShapes
          rw [h.symbols, hpv]
        refine ⟨?_, ?_, ?_, ?_, ?_, fun hdv => ?_⟩
        · rw [upd_ne _ _ e, ← h.symbols]; exact g.shapes
        · rw [← h.symbols]; exact g.good
        · rw [← hin, ← h.symbols]; exact g.regular
        · rw [← h.symbols]; exact g.given
        · rw [← hin, ← h.symbols]; exact g.plain
        · have := g.value (by rw [h.symbols]; exact hdv)
          unfold Symbols.sem at this ⊢
          rw [hin, hpv, h.symbols] at this
          rw [upd_ne _ _ e, this]
          congr 1
          exact List.map_congr_left fun q hq => (upd_ne _ _ fun e' : q = n => hu v hvn (e' ▸ hq)).symm
    · rw [hval, present_fixed hpd]
      rw [present_fixed (x := ⟨x.shape, naryValue op.numpy (x :: ys)⟩) hd, numpyZip_same (by exact hps.symm) ?_ fullp]
      · show _ = some (⟨Kind.shape1 (d.S.shapes n), naryValue op.numpy (x :: ys ++ [single (vals p)])⟩ : Arr Rat).present
        rw [ho, naryValue_append op.numpy_comm _ _ _ hlen, present_fixed (x := ⟨_, _⟩) (by exact hd), hps]
        rfl
      · refine ⟨fullx.1, ?_⟩
        show ((naryValue op.numpy (x :: ys)).length : Int) = _
        rw [naryValue_data_length]
        exact fullx.2

end Draft
end Verif
