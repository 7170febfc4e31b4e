import Verif.Lemmas.ArchiveKinds
import Verif.Lemmas.ArchiveText

set_option linter.unusedSectionVars false
set_option linter.unusedSimpArgs false
set_option linter.unusedVariables false

/-!
# Loading makes the symbols again, one after the other
-/

namespace Verif

open Graph PyModel

namespace Draft

/-! ## A sorted model -/

theorem at_getElem {d : Draft} {i : Nat} (hi : i < d.m.g.nodes.length) : d.at_ i = d.m.g.nodes[i] := by
  simp [at_, List.getD_eq_getElem?_getD, hi]

theorem at_mem {d : Draft} {i : Nat} (hi : i < d.m.g.nodes.length) : d.at_ i ∈ d.m.g.nodes := by
  rw [at_getElem hi]; exact List.getElem_mem hi

theorem pos_at {d : Draft} (w : d.m.g.WF) (hs : d.m.g.sorted = true) {i : Nat} (hi : i < d.m.g.nodes.length) :
    d.pos (d.at_ i) = i := by
  rw [at_getElem hi]; exact w.positions hs i hi

theorem at_pos {d : Draft} (w : d.m.g.WF) (hs : d.m.g.sorted = true) {v : Nat} (hv : v ∈ d.m.g.nodes) :
    0 ≤ d.pos v ∧ (d.pos v).toNat < d.m.g.nodes.length ∧ d.at_ (d.pos v).toNat = v := by
  obtain ⟨i, hi, rfl⟩ := List.mem_iff_getElem.1 hv
  have := w.positions hs i hi
  have e : d.pos d.m.g.nodes[i] = i := this
  rw [e]
  exact ⟨by omega, by simpa using hi, by simpa using at_getElem hi⟩

theorem at_inj {d : Draft} (w : d.m.g.WF) {i j : Nat} (hi : i < d.m.g.nodes.length) (hj : j < d.m.g.nodes.length)
    (h : d.at_ i = d.at_ j) : i = j := by
  rw [at_getElem hi, at_getElem hj] at h
  exact (List.Nodup.getElem_inj_iff w.nodup).1 h

theorem take_at {d : Draft} {k : Nat} (hk : k ≤ d.m.g.nodes.length) :
    d.m.g.nodes.take k = (List.range k).map d.at_ := by
  refine List.ext_getElem? fun i => ?_
  by_cases hi : i < k
  · rw [List.getElem?_take, if_pos hi, List.getElem?_map, List.getElem?_range hi, Option.map_some,
      at_getElem (by omega), List.getElem?_eq_getElem (by omega)]
  · rw [List.getElem?_eq_none (by simp; omega), List.getElem?_eq_none (by simp; omega)]

theorem pred_pos {d : Draft} (w : d.m.g.WF) (hs : d.m.g.sorted = true) {v : Nat} (hv : v ∈ d.m.g.nodes) {p : Nat}
    (hp : p ∈ (d.m.g.mem v).preds) : d.pos p < d.pos v := by
  have hpn := w.predMem v hv p hp
  exact (w.topological hs).edge p hpn v ((w.mem_link hpn hv).2 hp)

theorem decision_at {d : Draft} (w : d.m.g.WF) (hs : d.m.g.sorted = true) {i : Nat}
    (hi : i < d.m.g.decisions.length) : ∃ h : i < d.m.g.nodes.length, d.m.g.decisions[i] = d.at_ i := by
  have hm := w.decMem _ (List.getElem_mem hi)
  obtain ⟨_, h2, h3⟩ := at_pos w hs hm
  have e : d.pos d.m.g.decisions[i] = i := w.decTopo i hi
  rw [e] at h2 h3
  exact ⟨by simpa using h2, by simpa using h3.symm⟩

theorem decision_iff {d : Draft} (w : d.m.g.WF) (hs : d.m.g.sorted = true) {i : Nat}
    (hi : i < d.m.g.nodes.length) : d.at_ i ∈ d.m.g.decisions ↔ i < d.m.g.decisions.length := by
  constructor
  · intro h
    obtain ⟨j, hj, e⟩ := List.mem_iff_getElem.1 h
    obtain ⟨hj2, e2⟩ := decision_at w hs hj
    rw [e2] at e
    have := at_inj w hj2 hi e
    omega
  · intro h
    obtain ⟨hj2, e2⟩ := decision_at w hs h
    rw [← e2]
    exact List.getElem_mem h

theorem decisions_at {d : Draft} (w : d.m.g.WF) (hs : d.m.g.sorted = true) :
    d.m.g.decisions.length ≤ d.m.g.nodes.length ∧
      d.m.g.decisions = d.m.g.nodes.take d.m.g.decisions.length := by
  have hle : d.m.g.decisions.length ≤ d.m.g.nodes.length := by
    by_contra hc
    obtain ⟨h, _⟩ := decision_at w hs (i := d.m.g.nodes.length) (by omega)
    omega
  refine ⟨hle, ?_⟩
  rw [take_at hle]
  refine List.ext_getElem? fun i => ?_
  by_cases hi : i < d.m.g.decisions.length
  · obtain ⟨_, e⟩ := decision_at w hs hi
    rw [List.getElem?_map, List.getElem?_range hi, Option.map_some, ← e, List.getElem?_eq_getElem hi]
  · rw [List.getElem?_eq_none (by omega), List.getElem?_eq_none (by simp; omega)]

/-! ## Constructors that succeed -/

theorem emplace_make {d : Draft} {claim : Nat → Claim} {a : Nat} {k : Kind} {preds : List Nat}
    {out : List (List Int)} (hs : d.m.g.sorted = false) (ha : a ∉ d.m.g.nodes) (hp : ∀ p ∈ preds, p ∈ d.m.g.nodes)
    (ht : k.typed (preds.map d.S.kind) = true)
    (hm : (k.resolve d.m.g.mem preds).make (preds.map d.S.shapes) = .ok out)
    (hc : (k.resolve d.m.g.mem preds).rangeChecks (preds.map claim)) :
    d.emplace claim a k preds = (d.enter a (k.resolve d.m.g.mem preds) preds (Act.links a preds
      (upd d.m.g.mem a { removable := (k.resolve d.m.g.mem preds).removable })), .ok ()) := by
  unfold emplace emplaceWith
  generalize hk' : k.resolve d.m.g.mem preds = k' at *
  rw [if_neg (by simp [hs]), if_neg (by push Not; exact ⟨ha, hp⟩), ht]
  have hrun : ∀ acts mem, Act.run a (.assume true :: acts) mem = Act.run a acts mem := fun _ _ => rfl
  rw [hrun]
  by_cases hn : ∃ op, k' = .nary op
  · obtain ⟨op, rfl⟩ := hn
    obtain ⟨e1, e2, e3, e4⟩ := Kind.make_nary_inv hm
    have e : (Kind.nary op).body claim d.S.shapes preds = Kind.naryBody d.S.shapes preds := rfl
    rw [e]
    rcases Kind.run_naryBody a d.S.shapes preds (upd d.m.g.mem a { removable := (Kind.nary op).removable }) with
      ⟨r1, _⟩ | ⟨r1, _⟩ | ⟨done, p, rest, r1, _, r3, _⟩
    · rw [r1]
    · exact absurd r1 e1
    · exact absurd (e3 p (by rw [r1]; simp)) r3
  · push Not at hn
    rw [Kind.run_body hn, hm]
    simp only [hc, if_true]

/-- What a symbol declares depends only on the symbols it is computed from. -/
def LocalDecl (decl : Symbols → Graph → Nat → Claim) : Prop :=
  ∀ (k : Nat) (d' d : Draft), Mirror k d' d → d.m.g.nodes.Nodup → ∀ i < k,
    decl d'.S d'.m.g i = decl d.S d.m.g (d.at_ i)

theorem Mirror.at_ {k : Nat} {d' d : Draft} (h : Mirror k d' d) {i : Nat} (hi : i < k) : d'.at_ i = i := by
  rw [Draft.at_, h.nodes, List.getD_eq_getElem?_getD, List.getElem?_range hi]; rfl

/-- The next symbol. -/
theorem Mirror.enter {d d' : Draft} (w : d.m.g.WF) (hs : d.m.g.sorted = true) (hM : d.Made) (hM' : d'.Made) {i : Nat}
    (h : Mirror i d' d) (hi : i < d.m.g.nodes.length) {claim : Nat → Claim} {k : Kind} {preds : List Nat}
    {d'' : Draft} (he : d'.emplace claim i k preds = (d'', .ok ()))
    (hk : Kind.Alike (k.resolve d'.m.g.mem preds) (d.S.kind (d.at_ i)))
    (hp : (d.m.g.mem (d.at_ i)).preds = preds.map d.at_) (hlt : ∀ p ∈ preds, p < i) : Mirror (i + 1) d'' d := by
  obtain ⟨hn, hpa, hpo, hdec⟩ := hM'.constructed he
  obtain ⟨hu, ha, hpm, hkind, ⟨out, hm, hsh⟩, _, hst⟩ := emplace_ok hM'.oneOutput he
  have hnd : d'.m.g.nodes = List.range i := h.nodes
  refine ⟨?_, by omega, ?_, ?_, ?_, ?_, ?_⟩
  · rw [hn, hnd, List.range_succ]
  · intro j hj
    rw [hkind]
    by_cases c : j = i
    · subst c; rw [upd_same]; exact hk
    · rw [upd_ne _ _ c]; exact h.kind j (by omega)
  · intro j hj
    rw [hsh]
    by_cases c : j = i
    · subst c
      rw [upd_same]
      have h1 := hM.made _ (at_mem hi)
      rw [Symbols.inShapes, hp, List.map_map] at h1
      have h2 : preds.map d'.S.shapes = preds.map (d.S.shapes ∘ d.at_) :=
        List.map_congr_left fun p hq => h.shapes p (hlt p hq)
      rw [hk.make, h2, h1] at hm
      simpa using hm.symm
    · rw [upd_ne _ _ c]; exact h.shapes j (by omega)
  · intro j hj
    by_cases c : j = i
    · subst c; rw [hpa]; exact hp
    · rw [hpo j (by rw [hnd]; simp; omega)]; exact h.preds j (by omega)
  · intro j hj
    by_cases c : j = i
    · subst c; rw [hpa]; exact hlt
    · rw [hpo j (by rw [hnd]; simp; omega)]; exact h.below j (by omega)
  · have hiff : i < d.m.g.decisions.length ↔ (k.resolve d'.m.g.mem preds).isDecision = true := by
      rw [hk.isDecision, ← hM.decisions _ (at_mem hi), decision_iff w hs hi]
    rw [hdec]
    by_cases c : i < d.m.g.decisions.length
    · rw [if_pos (hiff.1 c), List.map_append, h.decisions, List.take_succ_eq_append_getElem c]
      obtain ⟨_, e⟩ := decision_at w hs c
      rw [e]; rfl
    · rw [if_neg (fun hx => c (hiff.2 hx)), h.decisions, List.take_of_length_le (by omega),
        List.take_of_length_le (by omega)]

theorem fromPython_any {k : Kind} (hk : ∀ n ops, k ≠ .quadratic n ops) {isList : Bool} {b b' : Bool}
    (h : k.FromPython isList b) : k.FromPython isList b' := by
  cases k <;> first
    | exact absurd rfl (hk _ _)
    | exact h

theorem Alike_output {k : Kind} {j : Nat} (h : Kind.Alike (.output j) k) : k = .output j := by
  cases h; rfl

/-- Everything that is needed of a model to be saved. -/
structure Savable (decl : Symbols → Graph → Nat → Claim) (isList : Nat → Bool) (d : Draft) : Prop where
  made : d.Made
  orderly : d.Orderly
  sorted : d.m.g.sorted = true
  python : d.FromPython decl isList
  checked : d.Checked decl

/-- The model after some symbols have been loaded. -/
structure Loading (i : Nat) (d' d : Draft) : Prop where
  made : d'.Made
  orderly : d'.Orderly
  unsorted : d'.m.g.sorted = false
  mirror : Mirror i d' d
  objective : d'.m.g.objective = none
  constraints : d'.m.g.constraints = []

/-- Class and files of a symbol. -/
def item (d : Draft) (isList : Nat → Bool) (v : Nat) : ClassName × Payload :=
  (d.S.kind v).saved (isList v) (d.S.kind ((d.m.g.mem v).preds.headD 0)) (Kind.shape1 (d.S.shapes v))

/-- The operands of a symbol in the file. -/
def operands (d : Draft) (v : Nat) : List Nat := (d.m.g.mem v).preds.map fun p => (d.pos p).toNat

theorem saved_notPart {k : Kind} (hk : ∀ j, k ≠ .output j) (isList : Bool) (parent : Kind) (shape : List Int) :
    ∀ (decl : Symbols → Graph → Nat → Claim) (d : Draft) (preds : List Nat),
      d.loadSymbol decl (k.saved isList parent shape).1 (k.saved isList parent shape).2 preds =
        (d.loadKind (decl d.S d.m.g) (k.saved isList parent shape).1 (k.saved isList parent shape).2 preds >>=
          fun k' => d.construct decl k' preds) := by
  intro decl d preds
  cases k <;> first
    | exact absurd rfl (hk _)
    | rfl
    | (simp only [Kind.saved]; cases isList <;> rfl)

theorem resolve_self {k : Kind} (hk : ∀ j, k ≠ .output j) (mem : Nat → GNode) (preds : List Nat) :
    k.resolve mem preds = k := by
  cases k <;> first
    | exact absurd rfl (hk _)
    | rfl

/-- A constructor called while loading. -/
theorem Loading.construct {decl : Symbols → Graph → Nat → Claim} (hloc : LocalDecl decl) {isList : Nat → Bool}
    {d d' : Draft} (hd : d.Savable decl isList) {i : Nat} (h : Loading i d' d) (hi : i < d.m.g.nodes.length)
    {k : Kind} (hk : Kind.Alike (k.resolve d'.m.g.mem (d.operands (d.at_ i))) (d.S.kind (d.at_ i)))
    (ht : ∀ ks, k.typed ks = (k.resolve d'.m.g.mem (d.operands (d.at_ i))).typed ks) :
    ∃ d'', d'.construct decl k (d.operands (d.at_ i)) = .ok d'' ∧ Loading (i + 1) d'' d := by
  have w := hd.made.inv.wf
  have hv := at_mem hi
  have hpos : ∀ p ∈ (d.m.g.mem (d.at_ i)).preds, (d.pos p).toNat < i ∧ d.at_ (d.pos p).toNat = p := by
    intro p hp
    have h1 := pred_pos w hd.sorted hv hp
    obtain ⟨h2, h3, h4⟩ := at_pos w hd.sorted (w.predMem _ hv p hp)
    rw [pos_at w hd.sorted hi] at h1
    exact ⟨by omega, h4⟩
  have hlt : ∀ p ∈ d.operands (d.at_ i), p < i := by
    intro p hp
    obtain ⟨q, hq, rfl⟩ := List.mem_map.1 hp
    exact (hpos q hq).1
  have hback : (d.m.g.mem (d.at_ i)).preds = (d.operands (d.at_ i)).map d.at_ := by
    rw [operands, List.map_map]
    conv_lhs => rw [← List.map_id (d.m.g.mem (d.at_ i)).preds]
    exact List.map_congr_left fun p hp => (hpos p hp).2.symm
  have hnd : d'.m.g.nodes = List.range i := h.mirror.nodes
  have hshapes : (d.operands (d.at_ i)).map d'.S.shapes = d.S.inShapes d.m.g (d.at_ i) := by
    rw [Symbols.inShapes, hback, List.map_map]
    exact List.map_congr_left fun p hp => h.mirror.shapes p (hlt p hp)
  have hclaims : (d.operands (d.at_ i)).map (decl d'.S d'.m.g) =
      (d.m.g.mem (d.at_ i)).preds.map (decl d.S d.m.g) := by
    rw [hback, List.map_map]
    exact List.map_congr_left fun p hp => hloc i d' d h.mirror w.nodup p (hlt p hp)
  have htyped : k.typed ((d.operands (d.at_ i)).map d'.S.kind) = true := by
    rw [ht, hk.typed, ← hd.orderly.typed _ hv]
    refine Kind.typed_congr _ ?_
    rw [hback, List.map_map, List.map_map, List.map_map]
    exact List.map_congr_left fun p hp => (h.mirror.kind p (hlt p hp)).isArray
  have hmake : (k.resolve d'.m.g.mem (d.operands (d.at_ i))).make ((d.operands (d.at_ i)).map d'.S.shapes) =
      .ok (d.S.shapes (d.at_ i)) := by
    rw [hk.make, hshapes]
    exact hd.made.made _ hv
  have hrange : (k.resolve d'.m.g.mem (d.operands (d.at_ i))).rangeChecks
      ((d.operands (d.at_ i)).map (decl d'.S d'.m.g)) := by
    rw [hk.rangeChecks, hclaims]
    exact hd.checked _ hv
  have he := emplace_make (claim := decl d'.S d'.m.g) (a := i) h.unsorted (by rw [hnd]; simp)
    (fun p hp => by rw [hnd]; exact List.mem_range.2 (hlt p hp)) htyped hmake hrange
  have hlen : d'.m.g.nodes.length = i := by rw [hnd]; simp
  refine ⟨_, ?_, h.made.construct he, h.orderly.construct h.made he, h.unsorted,
    h.mirror.enter w hd.sorted hd.made h.made hi he hk hback hlt, h.objective, h.constraints⟩
  unfold Draft.construct
  rw [guardThrow_true htyped, Res.ok_bind, hlen, Draft.perform, he]

/-- A whole turn of the loop. -/
theorem Loading.step {decl : Symbols → Graph → Nat → Claim} (hloc : LocalDecl decl) {isList : Nat → Bool}
    {d d' : Draft} (hd : d.Savable decl isList) {i : Nat} (h : Loading i d' d) (hi : i < d.m.g.nodes.length)
    {payload : Nat → Payload} (hpay : payload i = (d.item isList (d.at_ i)).2) :
    ∃ d'', d'.loadLine decl payload (((d.item isList (d.at_ i)).1, adjLine i (d.operands (d.at_ i))), i) = .ok d'' ∧
      Loading (i + 1) d'' d := by
  have w := hd.made.inv.wf
  have hv := at_mem hi
  have hpos : ∀ p ∈ (d.m.g.mem (d.at_ i)).preds, (d.pos p).toNat < i ∧ d.at_ (d.pos p).toNat = p := by
    intro p hp
    have h1 := pred_pos w hd.sorted hv hp
    obtain ⟨h2, h3, h4⟩ := at_pos w hd.sorted (w.predMem _ hv p hp)
    rw [pos_at w hd.sorted hi] at h1
    exact ⟨by omega, h4⟩
  have hlt : ∀ p ∈ d.operands (d.at_ i), p < i := by
    intro p hp
    obtain ⟨q, hq, rfl⟩ := List.mem_map.1 hp
    exact (hpos q hq).1
  have hback : (d.m.g.mem (d.at_ i)).preds = (d.operands (d.at_ i)).map d.at_ := by
    rw [operands, List.map_map]
    conv_lhs => rw [← List.map_id (d.m.g.mem (d.at_ i)).preds]
    exact List.map_congr_left fun p hp => (hpos p hp).2.symm
  have hnd : d'.m.g.nodes = List.range i := h.mirror.nodes
  have hops : ((d.operands (d.at_ i)).map fun p : Nat => (p : Int)).mapM (d'.loadOperand (i : Int)) =
      .ok (d.operands (d.at_ i)) := by
    have : ((d.operands (d.at_ i)).map fun p : Nat => (p : Int)).mapM (d'.loadOperand (i : Int)) =
        (d.operands (d.at_ i)).mapM fun p : Nat => d'.loadOperand (i : Int) (p : Int) := by
      rw [List.mapM_map]; rfl
    rw [this, mapM_ok _ id _ (fun p hp => ?_), List.map_id]
    have := hlt p hp
    unfold loadOperand
    rw [guardThrow_true (by omega), guardUB_true (by rw [hnd]; simpa using this)]
    simp only [Res.ok_bind, Int.toNat_natCast, id, Res.ok.injEq]
    exact h.mirror.at_ this
  have hline : d'.loadLine decl payload (((d.item isList (d.at_ i)).1, adjLine i (d.operands (d.at_ i))), i) =
      d'.loadSymbol decl (d.item isList (d.at_ i)).1 (d.item isList (d.at_ i)).2 (d.operands (d.at_ i)) := by
    unfold loadLine
    rw [parseLine_adjLine]
    simp only [orThrow, Res.ok_bind, List.headD_cons, List.tail_cons]
    rw [guardThrow_true trivial, Res.ok_bind, hops, Res.ok_bind, hpay]
  rw [hline]
  rcases output_or (d.S.kind (d.at_ i)) with ⟨j, hj⟩ | hj
  · -- a part of a disjoint decision
    have hmade := hd.made.made _ hv
    rw [hj] at hmade
    have hl := make_output hmade
    simp only [Symbols.inShapes, List.length_map] at hl
    obtain ⟨p, hp⟩ : ∃ p, (d.m.g.mem (d.at_ i)).preds = [p] := by
      match hps : (d.m.g.mem (d.at_ i)).preds, hl with
      | [q], _ => exact ⟨q, rfl⟩
    have hpn : p ∈ d.m.g.nodes := w.predMem _ hv p (by show p ∈ (d.m.g.mem (d.at_ i)).preds; rw [hp]; simp)
    obtain ⟨hq, hqp⟩ := hpos p (by rw [hp]; simp)
    have hopp : d.operands (d.at_ i) = [(d.pos p).toNat] := by rw [operands, hp]; rfl
    generalize hqe : (d.pos p).toNat = q at hq hqp hopp
    have hpA : (d.S.kind p).isArray = false := by
      have := hd.orderly.typed _ hv
      rw [hj, hp] at this
      simpa [Kind.typed] using this
    have hal := h.mirror.kind q hq
    rw [hqp] at hal
    -- its number
    have hcount : (d'.m.g.mem q).succs.length = j := by
      have hqA : (d'.S.kind q).isArray = false := by rw [hal.isArray]; exact hpA
      have hqn : q ∈ d'.m.g.nodes := by rw [hnd]; exact List.mem_range.2 hq
      rw [h.orderly.inOrder q hqn hqA, hnd]
      have e1 : ((List.range i).filter fun t => decide (q ∈ (d'.m.g.mem t).preds)) =
          (List.range i).filter ((fun x => decide (p ∈ (d.m.g.mem x).preds)) ∘ d.at_) := by
        refine List.filter_congr fun t ht => ?_
        have ht := List.mem_range.1 ht
        simp only [Function.comp, h.mirror.preds t ht, decide_eq_decide]
        constructor
        · intro hm; exact List.mem_map.2 ⟨q, hm, hqp⟩
        · intro hm
          obtain ⟨r, hr, hre⟩ := List.mem_map.1 hm
          have hrt := h.mirror.below t ht r hr
          have := at_inj w (show r < _ by omega) (show q < _ by omega) (hre.trans hqp.symm)
          exact this ▸ hr
      have e2 : (((List.range i).filter ((fun x => decide (p ∈ (d.m.g.mem x).preds)) ∘ d.at_)).map d.at_) =
          (d.m.g.nodes.take i).filter fun x => decide (p ∈ (d.m.g.mem x).preds) := by
        rw [take_at (by omega), List.filter_map]
      rw [e1, ← List.length_map (f := d.at_), e2]
      have e3 : (d.m.g.mem p).succs[((d.m.g.nodes.take i).filter fun x =>
          decide (p ∈ (d.m.g.mem x).preds)).length]? = some (d.at_ i) := by
        rw [hd.orderly.inOrder p hpn hpA]
        conv_lhs => rw [← List.take_append_drop i d.m.g.nodes]
        rw [List.filter_append, List.getElem?_append_right (by simp)]
        have hdr : d.m.g.nodes.drop i = d.at_ i :: d.m.g.nodes.drop (i + 1) := by
          rw [at_getElem hi]; exact List.drop_eq_getElem_cons hi
        have htk : (d.m.g.nodes.take i ++ d.m.g.nodes.drop i) = d.m.g.nodes := List.take_append_drop _ _
        simp only [htk, Nat.sub_self]
        rw [hdr, List.filter_cons, if_pos (by simp [hp])]
        rfl
      have := hd.orderly.numbered p hpn hpA _ _ e3
      rw [hj] at this
      simpa using this.symm
    have hjlt : j < (d.S.kind p).numParts := by
      have hsp := hd.made.made p hpn
      simp only [Symbols.inShapes, hp, List.map_cons, List.map_nil, Kind.make, Res.bind_eq_ok] at hmade
      obtain ⟨_, hg, _⟩ := hmade
      have hg := guardThrow_eq_ok.1 hg
      have hdp : (d.m.g.mem p).preds = [] :=
        w.decPreds p ((hd.made.decisions p hpn).2 (isArray_decision hpA))
      rw [Symbols.inShapes, hdp] at hsp
      cases hkp : d.S.kind p <;> rw [hkp] at hpA hsp <;> simp [Kind.isArray] at hpA
      · simp only [List.map_nil, Kind.make, Res.bind_eq_ok, Res.ok.injEq] at hsp
        obtain ⟨_, _, _, _, hsp⟩ := hsp
        rw [← hsp] at hg
        simpa [Kind.numParts] using hg
      · simp only [List.map_nil, Kind.make, Res.bind_eq_ok, Res.ok.injEq] at hsp
        obtain ⟨_, _, _, _, hsp⟩ := hsp
        rw [← hsp] at hg
        simpa [Kind.numParts] using hg
    have hres : (Kind.output 0).resolve d'.m.g.mem (d.operands (d.at_ i)) = .output j := by
      rw [hopp]; simp [Kind.resolve, hcount]
    obtain ⟨d'', hc, hL⟩ := h.construct hloc hd hi (k := .output 0) (by rw [hres, hj]; exact .same _)
      (fun ks => by rw [hres]; rfl)
    refine ⟨d'', ?_, hL⟩
    rw [hopp] at hc ⊢
    have hpart : ∀ cls, partOf cls (d.S.kind p) = true →
        d'.loadPart decl cls (j : Int) [q] = d'.construct decl (.output 0) [q] := by
      intro cls hcls
      unfold loadPart
      rw [guardThrow_true (by rfl), Res.ok_bind,
        guardThrow_true (show partOf cls (d'.S.kind ([q].headD 0)) = true from (hal.partOf cls).trans hcls), Res.ok_bind,
        guardThrow_true (show 0 ≤ (j : Int) ∧ (j : Int) < (d'.S.kind ([q].headD 0)).numParts from
          ⟨by omega, by rw [show ([q].headD 0) = q from rfl, hal.numParts]; omega⟩), Res.ok_bind,
        guardThrow_true (show (j : Int) ≤ (d'.m.g.mem ([q].headD 0)).succs.length from
          (by rw [show ([q].headD 0) = q from rfl, hcount])), Res.ok_bind,
        if_pos (by rw [show ([q].headD 0) = q from rfl, hcount])]
    rw [item, hp, hj]
    simp only [List.headD_cons, Kind.saved]
    cases hkp : d.S.kind p <;> rw [hkp] at hpA hpart <;> simp [Kind.isArray] at hpA
    · exact (hpart .disjointList rfl).trans hc
    · exact (hpart .disjointBitSet rfl).trans hc
  · have hmake : (d.S.kind (d.at_ i)).make ((d.operands (d.at_ i)).map d'.S.shapes) = .ok (d.S.shapes (d.at_ i)) := by
      rw [← hd.made.made _ hv, Symbols.inShapes, hback, List.map_map]
      congr 1
      exact List.map_congr_left fun p hp => h.mirror.shapes p (hlt p hp)
    have htyped : (d.S.kind (d.at_ i)).typed ((d.operands (d.at_ i)).map d'.S.kind) = true := by
      rw [← hd.orderly.typed _ hv]
      refine Kind.typed_congr _ ?_
      rw [hback, List.map_map, List.map_map, List.map_map]
      exact List.map_congr_left fun p hp => (h.mirror.kind p (hlt p hp)).isArray
    have hpy : (d.S.kind (d.at_ i)).FromPython (isList (d.at_ i))
        (decl d'.S d'.m.g ((d.operands (d.at_ i)).headD 0)).logical := by
      by_cases hq : ∃ n ops, d.S.kind (d.at_ i) = .quadratic n ops
      · have := hd.python _ hv
        obtain ⟨n, ops, hq⟩ := hq
        rw [hq] at hmake
        match hop : d.operands (d.at_ i), hmake with
        | [q], _ =>
          rw [hback, hop] at this
          simp only [List.map_cons, List.headD_cons] at this ⊢
          rw [hloc i d' d h.mirror w.nodup q (hlt q (by rw [hop]; simp))]
          exact this
      · push Not at hq
        exact fromPython_any hq (hd.python _ hv)
    obtain ⟨k', hk', hal⟩ := Kind.loadKind_saved (parent := d.S.kind ((d.m.g.mem (d.at_ i)).preds.headD 0)) hj hmake
      htyped hpy
    have hk'j : ∀ j, k' ≠ .output j := fun j hc => by
      rw [hc] at hal
      exact hj j (Alike_output hal)
    have hres := resolve_self hk'j d'.m.g.mem (d.operands (d.at_ i))
    obtain ⟨d'', hc, hL⟩ := h.construct hloc hd hi (k := k') (by rw [hres]; exact hal) (fun ks => by rw [hres])
    refine ⟨d'', ?_, hL⟩
    rw [item, saved_notPart hj, hk', Res.ok_bind, hc]

end Draft
end Verif
