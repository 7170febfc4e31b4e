import Verif.Model.Power
import Verif.Props.Build

set_option linter.unusedSectionVars false
set_option linter.unusedSimpArgs false
set_option linter.unusedVariables false

/-!
# C44: powers of symbols
-/

namespace Verif

open Graph PyModel

/-- The elementwise `n`-th power. -/
def Arr.power (n : Nat) (x : Arr Rat) : Arr Rat := ⟨x.shape, x.data.map (· ^ n)⟩

theorem naryValue_replicate (X : Arr Rat) (j : Nat) :
    naryValue (· * ·) (List.replicate (j + 1) X) = X.data.map (· ^ (j + 1)) := by
  have hfold : ∀ (y z : Rat) (j : Nat), (List.replicate j X).foldl
      (fun val _ => y * val) z = y ^ j * z := by
    intro y z j
    induction j generalizing z with
    | zero => simp
    | succ j ih => rw [List.replicate_succ, List.foldl_cons, ih, pow_succ]; ring
  simp only [List.replicate_succ, naryValue]
  apply List.ext_getElem
  · simp
  · intro i h1 h2
    simp only [List.getElem_map, List.getElem_range]
    have hi : i < X.data.length := by simpa using h2
    have : ∀ z, (List.replicate j X).foldl (fun val y => y.data.getD i default * val) z
        = (List.replicate j X).foldl (fun val _ => X.data[i] * val) z := by
      intro z
      refine List.foldl_ext _ _ _ fun val y hy => ?_
      rw [(List.mem_replicate.1 hy).2]
      simp [List.getElem?_eq_getElem hi]
    rw [this, hfold]
    simp [List.getElem?_eq_getElem hi, pow_succ]

namespace Draft

/-- The model `d` with a new product of `j` times `x` at `a`. -/
structure Product (d d' : Draft) (x a j : Nat) : Prop where
  made : d'.Made
  nodes : d'.m.g.nodes = d.m.g.nodes ++ [a]
  kind : d'.S.kind = upd d.S.kind a (.nary .multiply)
  shapes : d'.S.shapes = upd d.S.shapes a [Kind.shape1 (d.S.shapes x)]
  new : (d'.m.g.mem a).preds = List.replicate j x
  old : ∀ v ∈ d.m.g.nodes, (d'.m.g.mem v).preds = (d.m.g.mem v).preds

theorem andThen_ok {r : Draft × Res Unit} {s t : Nat} {d : Draft} (h : andThen r s = (d, .ok t)) :
    r = (d, .ok ()) ∧ t = s := by
  obtain ⟨d1, res⟩ := r
  cases res with
  | ok u => simp only [andThen, Prod.mk.injEq, Res.ok.injEq] at h; exact ⟨by rw [h.1], h.2.symm⟩
  | throw => simp [andThen] at h
  | ub => simp [andThen] at h

theorem imul_other {decl : Symbols → Graph → Nat → Claim} {d : Draft} {out x a : Nat}
    (hk : d.S.kind out ≠ .nary .multiply) :
    imul decl d out x a = andThen (d.perform decl (.construct a (.nary .multiply) [out, x])) a := by
  unfold imul
  split
  · rename_i h; exact absurd h hk
  · rfl

theorem imul_product {decl : Symbols → Graph → Nat → Claim} {d : Draft} {out x a : Nat}
    (hk : d.S.kind out = .nary .multiply) :
    imul decl d out x a = andThen (d.perform decl (.addOperand out x)) out := by
  unfold imul
  rw [hk]

theorem imul_first {decl : Symbols → Graph → Nat → Claim} {d d' : Draft} (h : d.Made) {x a r : Nat}
    (hk : d.S.kind x ≠ .nary .multiply) (he : imul decl d x x a = (d', .ok r)) :
    r = a ∧ a ∉ d.m.g.nodes ∧ Product d d' x a 2 := by
  rw [imul_other hk] at he
  obtain ⟨he, rfl⟩ := andThen_ok he
  have hc := h.constructed he
  obtain ⟨_, ha, hp, hkind, ⟨out, hm, hsh⟩, _⟩ := emplace_ok h.oneOutput he
  have hres : (Kind.nary .multiply).resolve d.m.g.mem [x, x] = .nary .multiply := rfl
  rw [hres] at hkind hm hc
  have ho := (Kind.make_nary_inv hm).2.2.2
  exact ⟨rfl, ha, h.construct he, hc.1, hkind, by rw [hsh, ho]; rfl, hc.2.1, hc.2.2.1⟩

theorem Product.next {decl : Symbols → Graph → Nat → Claim} {d d1 d' : Draft} {x a r j : Nat}
    (p : Product d d1 x a j) (ha : a ∉ d.m.g.nodes) (he : imul decl d1 a x a = (d', .ok r)) :
    r = a ∧ Product d d' x a (j + 1) := by
  rw [imul_product (by rw [p.kind, upd_same])] at he
  obtain ⟨he, rfl⟩ := andThen_ok he
  obtain ⟨hm, hS, hn, hdec, hp⟩ := p.made.added he
  refine ⟨rfl, hm, by rw [hn, p.nodes], by rw [hS, p.kind], by rw [hS, p.shapes], ?_, ?_⟩
  · rw [hp, if_pos rfl, p.new, List.replicate_succ']
  · intro v hv
    rw [hp, if_neg (fun e : v = r => ha (e ▸ hv)), p.old v hv]

theorem Product.loop {decl : Symbols → Graph → Nat → Claim} {d d1 d' : Draft} {x a r j n : Nat}
    (p : Product d d1 x a j) (ha : a ∉ d.m.g.nodes) (he : powLoop decl x a n d1 a = (d', .ok r)) :
    r = a ∧ Product d d' x a (j + n) := by
  induction n generalizing d1 j with
  | zero =>
    simp only [powLoop, Prod.mk.injEq, Res.ok.injEq] at he
    exact ⟨he.2.symm, he.1 ▸ p⟩
  | succ n ih =>
    simp only [powLoop] at he
    generalize hi : imul decl d1 a x a = q at he
    obtain ⟨d2, res⟩ := q
    cases res with
    | throw => simp at he
    | ub => simp at he
    | ok s =>
      obtain ⟨rfl, p2⟩ := p.next ha hi
      have := ih p2 he
      rwa [show j + 1 + n = j + (n + 1) by omega] at this

theorem Product.value {d d' : Draft} {x a j : Nat} (p : Product d d' x a (j + 1)) (ha : a ∉ d.m.g.nodes)
    {A vals : Nat → Val} (hv : Evaluates d'.m.g (d'.S.sem d'.m.g) A vals) :
    vals a = (vals x).map (Arr.power (j + 1)) := by
  have han : a ∈ d'.m.g.nodes := by rw [p.nodes]; simp
  have hka : d'.S.kind a = .nary .multiply := by rw [p.kind, upd_same]
  have hdec : a ∉ d'.m.g.decisions := by
    rw [p.made.decisions a han, hka]; simp [Kind.isDecision]
  have hval := hv.value a han
  have hok := hv.accepted a han
  simp only [operands, if_neg hdec, p.new, List.map_replicate, Symbols.sem, hka, Kind.node] at hval hok
  obtain ⟨h1, _, h2⟩ := hok
  have h1 := h1 (vals x) (by simp)
  have h2 := h2 (single (vals x)) (by simp)
  obtain ⟨X, hX⟩ := List.length_eq_one_iff.1 h1.1
  rw [hX] at hval h2 ⊢
  rw [hval]
  simp only [List.map_cons, List.map_nil, Arr.power, List.map_replicate, single] at h2 ⊢
  simp only [List.headD_cons, naryNode, arrayNode, naryValue_replicate] at h2 ⊢
  rw [h2.1]

end Draft

/-- C44 for a symbol that is not itself a `NaryMultiply`: in any model that can be built, when `x ** n`
returns a symbol `r`, the value of `r` is the elementwise `n`-th power of the value of `x` whatever the values of
the decisions, and all symbols that were there keep their kinds, shapes and operands. -/
theorem C44_power_partial {decl : Symbols → Graph → Nat → Claim} {ops : List BuildOp} {d d' : Draft} {x a r : Nat}
    {n : Int} (hb : Draft.new.run decl ops = .ok d) (hn : Draft.NaryAccepted decl Draft.new ops)
    (hx : x ∈ d.m.g.nodes) (hk : d.S.kind x ≠ .nary .multiply) (he : d.pow decl x a n = (d', .ok r)) :
    (∀ v ∈ d.m.g.nodes, v ∈ d'.m.g.nodes ∧ d'.S.kind v = d.S.kind v ∧ d'.S.shapes v = d.S.shapes v ∧
      (d'.m.g.mem v).preds = (d.m.g.mem v).preds) ∧
    r ∈ d'.m.g.nodes ∧
    ∀ A vals, Evaluates d'.m.g (d'.S.sem d'.m.g) A vals → vals r = (vals x).map (Arr.power n.toNat) := by
  have h : d.Made := Draft.run_made Draft.made_new hn hb
  unfold Draft.pow at he
  by_cases h2 : n = 2
  · rw [if_pos h2] at he
    obtain ⟨he, rfl⟩ := Draft.andThen_ok he
    have hm := h.construct he
    obtain ⟨hnd, hpr, hpo, _⟩ := h.constructed he
    obtain ⟨_, ha, _, hkind, ⟨out, _, hsh⟩, _⟩ := Draft.emplace_ok h.oneOutput he
    have hres : (Kind.unary .square).resolve d.m.g.mem [x] = .unary .square := rfl
    rw [hres] at hkind
    have hne : ∀ v ∈ d.m.g.nodes, v ≠ r := fun v hv e => ha (e ▸ hv)
    have hrn : r ∈ d'.m.g.nodes := by rw [hnd]; simp
    refine ⟨fun v hv => ⟨by rw [hnd]; simp [hv], by rw [hkind, upd_ne _ _ (hne v hv)],
      by rw [hsh, upd_ne _ _ (hne v hv)], hpo v hv⟩, hrn, fun A vals hv => ?_⟩
    have hkr : d'.S.kind r = .unary .square := by rw [hkind, upd_same]
    have hdec : r ∉ d'.m.g.decisions := by rw [hm.decisions r hrn, hkr]; simp [Kind.isDecision]
    have hval := hv.value r hrn
    have hok := hv.accepted r hrn
    simp only [operands, if_neg hdec, hpr, List.map_cons, List.map_nil, Symbols.sem, hkr, Kind.node] at hval hok
    obtain ⟨h1, hs⟩ := hok
    have h1 := h1 (vals x) (by simp)
    obtain ⟨X, hX⟩ := List.length_eq_one_iff.1 h1.1
    rw [hX] at hval hs ⊢
    rw [hval]
    simp only [List.map_cons, List.map_nil, single, unaryNode, arrayNode, List.headD_cons, List.cons.injEq,
      and_true] at hs ⊢
    rw [Arr.power, ← hs, h2]
    refine congrArg (Arr.mk _) ?_
    refine List.map_congr_left fun y _ => ?_
    show y * y = y ^ 2
    rw [pow_two]
  · rw [if_neg h2] at he
    by_cases hpos : 0 < n
    · rw [if_pos hpos] at he
      obtain ⟨k, hkn⟩ : ∃ k : Nat, n.toNat = k + 1 := ⟨n.toNat - 1, by omega⟩
      rw [hkn, Nat.add_sub_cancel] at he
      rw [hkn]
      cases k with
      | zero =>
        simp only [Draft.powLoop, Prod.mk.injEq, Res.ok.injEq] at he
        obtain ⟨rfl, rfl⟩ := he
        refine ⟨fun v hv => ⟨hv, rfl, rfl, rfl⟩, hx, fun A vals _ => ?_⟩
        have : Arr.power (0 + 1) = id := by
          funext X; simp [Arr.power]
        rw [this, List.map_id]
      | succ k =>
        simp only [Draft.powLoop] at he
        generalize hi : Draft.imul decl d x x a = q at he
        obtain ⟨d2, res⟩ := q
        cases res with
        | throw => simp at he
        | ub => simp at he
        | ok s =>
          obtain ⟨rfl, ha, p⟩ := Draft.imul_first h hk hi
          obtain ⟨rfl, p⟩ := p.loop ha he
          have hne : ∀ v ∈ d.m.g.nodes, v ≠ r := fun v hv e => ha (e ▸ hv)
          refine ⟨fun v hv => ⟨by rw [p.nodes]; simp [hv], by rw [p.kind, upd_ne _ _ (hne v hv)],
            by rw [p.shapes, upd_ne _ _ (hne v hv)], p.old v hv⟩, by rw [p.nodes]; simp, fun A vals hv => ?_⟩
          rw [show 2 + k = k + 1 + 1 by omega] at p
          exact p.value ha hv
    · rw [if_neg hpos] at he; simp at he

/-- Exponents below one are rejected without changing anything. -/
theorem C44_nonpositive {decl : Symbols → Graph → Nat → Claim} {d : Draft} {x a : Nat} {n : Int} (hn : n ≤ 0) :
    d.pow decl x a n = (d, .throw) := by
  unfold Draft.pow
  rw [if_neg (by omega), if_neg (by omega)]

namespace Draft

theorem emplaceWith_sorted {d d' : Draft} {a : Nat} {k : Kind} {preds : List Nat} {body : List Act}
    (he : d.emplaceWith a k preds body = (d', .ok ())) : d'.m.g.sorted = d.m.g.sorted := by
  unfold emplaceWith at he
  by_cases h1 : d.m.g.sorted = true
  · rw [if_pos h1] at he; simp at he
  rw [if_neg h1] at he
  by_cases h2 : a ∈ d.m.g.nodes ∨ ∃ p ∈ preds, p ∉ d.m.g.nodes
  · rw [if_pos h2] at he; simp at he
  rw [if_neg h2] at he
  split at he
  · simp only [Prod.mk.injEq, and_true] at he; rw [← he]; rfl
  · simp at he
  · simp at he

/-- In an unlocked model an operand that fits can be added in place. -/
theorem Product.add {d d1 : Draft} {x a j : Nat} (p : Product d d1 x a (j + 1)) (hs : d1.m.g.sorted = false)
    (hx : x ∈ d.m.g.nodes) (ha : a ∉ d.m.g.nodes) (harr : (d.S.kind x).isArray = true)
    (hfix : dynamicShape (Kind.shape1 (d.S.shapes x)) = false) :
    ∃ d2, d1.addNode a x = (d2, .ok ()) ∧ d2.m.g.sorted = false := by
  have han : a ∈ d1.m.g.nodes := by rw [p.nodes]; simp
  have hxn : x ∈ d1.m.g.nodes := by rw [p.nodes]; simp [hx]
  have hxa : x ≠ a := fun e => ha (e ▸ hx)
  have hka : d1.S.kind a = .nary .multiply := by rw [p.kind, upd_same]
  have hdec : a ∉ d1.m.g.decisions := by rw [p.made.decisions a han, hka]; simp [Kind.isDecision]
  have htopo : (d1.m.g.mem a).topo = -1 := p.made.inv.wf.unsorted hs a han hdec
  have hkx : d1.S.kind x = d.S.kind x := by rw [p.kind, upd_ne _ _ hxa]
  have hsx : d1.S.shapes x = d.S.shapes x := by rw [p.shapes, upd_ne _ _ hxa]
  have hsa : d1.S.shapes a = [Kind.shape1 (d.S.shapes x)] := by rw [p.shapes, upd_same]
  have hsh : Kind.shape1 (d1.S.shapes a) = Kind.shape1 (d1.S.shapes x) := by rw [hsa, hsx]; rfl
  unfold addNode
  rw [hka]
  simp only
  rw [if_neg (by rw [hkx]; simp [han, hxn, harr]), if_neg (by omega), if_neg (by rw [hsx]; simp [hfix]),
    if_neg (by simp [hsh])]
  have hg : ∃ g, d1.m.g.addPredecessor a x = .ok g ∧ g.sorted = false := by
    unfold addPredecessor
    rw [(guardUB_eq_ok.2 ⟨han, hxn, hdec, by rw [p.new]; simp⟩ : guardUB _ = .ok ()), Res.ok_bind,
      (guardThrow_eq_ok.2 (by omega) : guardThrow _ = .ok ()), Res.ok_bind,
      (guardUB_eq_ok.2 (by omega) : guardUB _ = .ok ())]
    exact ⟨_, rfl, hs⟩
  obtain ⟨g, hg, hgs⟩ := hg
  simp only [onModel, PyModel.step, hg, Res.ok_bind]
  exact ⟨_, rfl, hgs⟩

theorem Product.run_loop {decl : Symbols → Graph → Nat → Claim} {d d1 : Draft} {x a j : Nat} (n : Nat)
    (p : Product d d1 x a (j + 1)) (hs : d1.m.g.sorted = false)
    (hx : x ∈ d.m.g.nodes) (ha : a ∉ d.m.g.nodes) (harr : (d.S.kind x).isArray = true)
    (hfix : dynamicShape (Kind.shape1 (d.S.shapes x)) = false) :
    ∃ d', powLoop decl x a n d1 a = (d', .ok a) := by
  induction n generalizing d1 j with
  | zero => exact ⟨d1, rfl⟩
  | succ n ih =>
    obtain ⟨d2, h2, hs2⟩ := p.add hs hx ha harr hfix
    have hi : imul decl d1 a x a = (d2, .ok a) := by
      rw [imul_product (by rw [p.kind, upd_same])]
      show andThen (d1.addNode a x) a = _
      rw [h2]; rfl
    obtain ⟨_, p2⟩ := p.next ha hi
    obtain ⟨d', hd'⟩ := ih p2 hs2
    exact ⟨d', by simp only [powLoop, hi]; exact hd'⟩

end Draft

/-- Positive powers of arrays are accepted in an unlocked model, for all exponents if the size of `x` is fixed
and for exponents one and two otherwise.  (`a` is the address of the new symbol.) -/
theorem C44_accepted {decl : Symbols → Graph → Nat → Claim} {ops : List BuildOp} {d : Draft} {x a : Nat} {n : Int}
    (hb : Draft.new.run decl ops = .ok d) (hn : Draft.NaryAccepted decl Draft.new ops)
    (hs : d.m.g.sorted = false) (hx : x ∈ d.m.g.nodes) (ha : a ∉ d.m.g.nodes)
    (harr : (d.S.kind x).isArray = true) (hk : d.S.kind x ≠ .nary .multiply) (hpos : 0 < n)
    (hfix : n ≤ 2 ∨ dynamicShape (Kind.shape1 (d.S.shapes x)) = false) :
    ∃ d' r, d.pow decl x a n = (d', .ok r) := by
  have h : d.Made := Draft.run_made Draft.made_new hn hb
  have h1 := h.oneOutput x hx harr
  obtain ⟨sh, hsh⟩ := List.length_eq_one_iff.1 h1
  unfold Draft.pow
  by_cases h2 : n = 2
  · rw [if_pos h2]
    have : ∃ d', d.perform decl (.construct a (.unary .square) [x]) = (d', .ok ()) := by
      simp only [Draft.perform, Draft.emplace, Draft.emplaceWith, hs, Bool.false_eq_true, if_false]
      rw [if_neg (by simp [ha, hx])]
      have hty : (Kind.unary .square).typed ([x].map d.S.kind) = true := by simp [Kind.typed, harr]
      have hres : (Kind.unary .square).resolve d.m.g.mem [x] = .unary .square := rfl
      have hmk : (Kind.unary .square).make ([x].map d.S.shapes) = .ok [sh] := by
        simp [Kind.make, hsh, Kind.arrayShape]
      have hrc : (Kind.unary .square).rangeChecks ([x].map (decl d.S d.m.g)) := by
        simp [Kind.rangeChecks, UnaryOp.accepts]
      simp only [hty, Act.run, if_true, hres, Kind.run_body (k := .unary .square) (by simp), hmk, if_pos hrc]
      exact ⟨_, rfl⟩
    obtain ⟨d', hd'⟩ := this
    rw [hd']
    exact ⟨d', a, rfl⟩
  · rw [if_neg h2, if_pos hpos]
    obtain ⟨k, hkn⟩ : ∃ k : Nat, n.toNat = k + 1 := ⟨n.toNat - 1, by omega⟩
    rw [hkn, Nat.add_sub_cancel]
    cases k with
    | zero => exact ⟨d, x, rfl⟩
    | succ k =>
      have hfix : dynamicShape (Kind.shape1 (d.S.shapes x)) = false := by
        rcases hfix with h | h
        · omega
        · exact h
      have : ∃ d', d.perform decl (.construct a (.nary .multiply) [x, x]) = (d', .ok ()) := by
        simp only [Draft.perform, Draft.emplace, Draft.emplaceWith, hs, Bool.false_eq_true, if_false]
        rw [if_neg (by simp [ha, hx])]
        have hty : (Kind.nary .multiply).typed ([x, x].map d.S.kind) = true := by simp [Kind.typed, harr]
        have hres : (Kind.nary .multiply).resolve d.m.g.mem [x, x] = .nary .multiply := rfl
        simp only [hty, Act.run, if_true, hres, Kind.body, Kind.naryBody, List.isEmpty_cons, Bool.not_false,
          List.flatMap_cons, List.flatMap_nil, List.cons_append, List.nil_append, hfix, List.headD_cons,
          decide_true, List.append_nil]
        exact ⟨_, rfl⟩
      obtain ⟨d1, hd1⟩ := this
      have hi : Draft.imul decl d x x a = (d1, .ok a) := by rw [Draft.imul_other hk, hd1]; rfl
      obtain ⟨_, _, p⟩ := Draft.imul_first h hk hi
      have hs1 : d1.m.g.sorted = false := by
        rw [Draft.emplaceWith_sorted (k := (Kind.nary .multiply).resolve d.m.g.mem [x, x]) hd1, hs]
      obtain ⟨d', hd'⟩ := p.run_loop (decl := decl) k hs1 hx ha harr hfix
      exact ⟨d', a, by simp only [Draft.powLoop, hi]; exact hd'⟩

namespace PowerExample

open BuildExample (decl)

/-- Two arrays and their product. -/
def ops : List BuildOp :=
  [.construct 0 (.integer [2] (some 0) (some 10)) [], .construct 1 (.integer [2] (some 0) (some 10)) [],
    .construct 2 (.nary .multiply) [0, 1]]

def draft : Draft := match Draft.new.run decl ops with
  | .ok d => d
  | _ => Draft.new

theorem built : Draft.new.run decl ops = .ok draft := rfl

/-- Not vacuous: `x ** 3` returns a new symbol with operands `x, x, x`. -/
example : 0 ∈ draft.m.g.nodes ∧ draft.S.kind 0 ≠ .nary .multiply ∧
    (∃ d', draft.pow decl 0 3 3 = (d', .ok 3) ∧ (d'.m.g.mem 3).preds = [0, 0, 0] ∧
      (∃ e, d'.perform decl .lock = (e, .ok ()))) := by
  refine ⟨by decide +kernel, fun h => ?_, _, rfl, rfl, _, rfl⟩
  have : draft.S.kind 0 = .integer [2] (some 0) (some 10) := rfl
  rw [this] at h
  cases h

end PowerExample

open PowerExample BuildExample in
/-- C44 fails for a symbol `m` that is a `NaryMultiply`: `m ** 3` is `m *= m` twice, so it returns `m` itself,
which has become a product of its operands and twice itself; the model, which could be locked before, has a cycle
and cannot be locked any more. -/
theorem C44_product_fails :
    ∃ (decl : Symbols → Graph → Nat → Claim) (ops : List BuildOp) (d d' e : Draft) (m a : Nat),
      Draft.new.run decl ops = .ok d ∧ d.pow decl m a 3 = (d', .ok m) ∧
      (d.m.g.mem m).preds = [0, 1] ∧ (d'.m.g.mem m).preds = [0, 1, m, m] ∧
      d.perform decl .lock = (e, .ok ()) ∧ d'.perform decl .lock = (d', .throw) :=
  ⟨decl, PowerExample.ops, PowerExample.draft, _, _, 2, 3, PowerExample.built, rfl, rfl, rfl, rfl, rfl⟩

end Verif
