import Verif.Lemmas.ProgramFileLoad

set_option linter.unusedSimpArgs false
set_option linter.unusedVariables false

/-! Helper lemmas: one line of the file of a program. -/

namespace Verif

open Graph PyModel Draft

namespace Script

theorem loadCatalog_notPart {k : Kind} (hk : ∀ j, k ≠ .output j) (isList : Bool) (parent : Kind) (shape : List Int) (s : Script)
    (preds : List Nat) : s.loadCatalog (k.saved isList parent shape).1 (k.saved isList parent shape).2 preds =
      (s.askLogical (k.saved isList parent shape).1 preds >>= fun c =>
        Draft.loadKind ⟨PyModel.new, s.symbols⟩ (fun _ => c) (k.saved isList parent shape).1 (k.saved isList parent shape).2 preds >>= fun k' =>
          s.construct k' preds) := by
  cases k <;> first
    | exact absurd rfl (hk _)
    | rfl
    | (simp only [Kind.saved]; cases isList <;> rfl)

theorem askLogical_other {k : Kind} (hk : ∀ n ops, k ≠ .quadratic n ops) (isList : Bool) (parent : Kind) (shape : List Int) (s : Script)
    (preds : List Nat) : s.askLogical (k.saved isList parent shape).1 preds = .ok ⟨.default, false⟩ := by
  cases k <;> first
    | exact absurd rfl (hk _ _)
    | rfl
    | (simp only [Kind.saved]; cases isList <;> rfl)
    | (simp only [Kind.saved]; cases parent <;> rfl)

variable {M : Generated} {m : PyModel} {isList : Nat → Bool}

/-- A symbol made from a disjoint decision is a part of it. -/
theorem Source.part (h : Source M m isList) {v p : Nat} (hv : v < M.rows.length) (hp : p ∈ (M.rows.row v).ops)
    (ha : (M.rows.row p).built.asKind.isArray = false) : ∃ j, (M.rows.row v).built = .kind (.output j) ∧ (M.rows.row v).ops = [p] := by
  have hpy := h.python v hv
  unfold Row.FromPython at hpy
  obtain ⟨_, h1, h2, _, how⟩ := h.made.how hv
  cases how with
  | kind e _ _ e3 _ =>
    rw [e] at hpy
    rename_i k _ _ _ _ _
    rcases output_or k with ⟨j, rfl⟩ | hj
    · refine ⟨j, e, ?_⟩
      have := make_output e3
      rw [h2] at this
      simp only [List.length_map] at this
      obtain ⟨q, hq⟩ := List.length_eq_one_iff.1 this
      rw [hq] at hp ⊢
      simp at hp
      rw [hp]
    · have := typed_array hj hpy.1 _ (List.mem_map_of_mem (f := fun p => (M.rows.row p).built.asKind) hp)
      rw [ha] at this
      cases this
  | basic e =>
    rw [e] at hpy
    have := (hpy.2 p hp).1
    rw [ha] at this
    cases this
  | advanced e =>
    rw [e] at hpy
    have := hpy p hp
    rw [ha] at this
    cases this
  | permutation e _ e1 e2 =>
    rename_i x u w sh _ _
    rw [e, e1] at hpy
    rw [e1] at hp h1
    simp only [List.mem_cons, List.not_mem_nil, or_false] at hp
    rcases hp with rfl | rfl
    · obtain ⟨_, _, _, _, how⟩ := h.made.how (lt_trans (h1 p (by simp)) hv)
      exfalso
      cases how with
      | kind f _ _ _ f1 =>
        rw [f1] at e2
        rw [f] at ha
        rename_i k _ _ _ _ _
        cases k <;> simp [Kind.value, Built.asKind, Kind.isArray] at e2 ha
      | basic f _ _ => rw [f] at ha; cases ha
      | advanced f => rw [f] at ha; cases ha
      | permutation f => rw [f] at ha; cases ha
    · exfalso
      have hpy : M.rows.isFullList p = true := hpy
      unfold Script.isFullList at hpy
      generalize (M.rows.row p).built.asKind = k at hpy ha
      cases k <;> simp [Kind.isArray] at ha hpy

/-- Decisions have no operands. -/
theorem Made.alone {s : Script} (h : s.Made) {v : Nat} (hv : v < s.length) (hd : (s.row v).decision = true) : (s.row v).ops = [] := by
  obtain ⟨_, h1, h2, _, how⟩ := h.how hv
  cases how with
  | kind e _ _ e3 _ =>
    rename_i k _ _ _ _ _
    have hd : (s.row v).built.decision = true := hd
    rw [e] at hd
    have hd : k.isDecision = true := hd
    rw [h2] at e3
    cases ho : (s.row v).ops with
    | nil => rfl
    | cons a l =>
      rw [ho] at e3
      cases k <;> simp [Kind.isDecision] at hd <;> simp [Kind.make] at e3
  | basic e =>
    have hd : (s.row v).built.decision = true := hd
    rw [e] at hd; cases hd
  | advanced e =>
    have hd : (s.row v).built.decision = true := hd
    rw [e] at hd; cases hd
  | permutation e =>
    have hd : (s.row v).built.decision = true := hd
    rw [e] at hd; cases hd

theorem disjoint_decision {s : Script} {p : Nat} (ha : (s.row p).built.asKind.isArray = false) : (s.row p).decision = true := by
  unfold Row.decision
  cases hb : (s.row p).built with
  | kind k => rw [hb] at ha; exact isArray_decision ha
  | basic _ _ _ => rw [hb] at ha; cases ha
  | advanced _ _ _ => rw [hb] at ha; cases ha
  | permutation _ => rw [hb] at ha; cases ha

theorem take_rows {s : Script} {n : Nat} (h : n ≤ s.length) : s.take n = (List.range n).map s.row := by
  refine List.ext_getElem? fun i => ?_
  by_cases hi : i < n
  · rw [List.getElem?_take, if_pos hi, List.getElem?_map, List.getElem?_range hi, Option.map_some, Script.row, List.getD_eq_getElem?_getD,
      List.getElem?_eq_getElem (by omega)]
    rfl
  · rw [List.getElem?_eq_none (by simp; omega), List.getElem?_eq_none (by simp; omega)]

theorem prefix_length {A B A' B' : List Nat} {v : Nat} (h : A ++ v :: B = A' ++ v :: B') (h1 : v ∉ A) (h2 : v ∉ A') : A.length = A'.length := by
  have := congrArg (List.idxOf v) h
  rw [List.idxOf_append_of_notMem h1, List.idxOf_append_of_notMem h2] at this
  simpa using this

/-- The parts come in the order in which they were made. -/
theorem Loading.parts {L : Script} {i : Nat} (h : Source M m isList) (hL : Loading M m i L) (hi : i < M.rows.length) {q : Nat} (hq : q < i)
    (ha : (M.rows.row ((M.draft m).at_ q)).built.asKind.isArray = false)
    (hv : (M.draft m).at_ q ∈ (M.rows.row ((M.draft m).at_ i)).ops) :
    (L.countP fun r => q ∈ r.ops) = (M.rows.take ((M.draft m).at_ i)).countP fun r => (M.draft m).at_ q ∈ r.ops := by
  have w : (M.draft m).m.g.WF := h.whole.inv.wf
  have hlen : (M.draft m).m.g.nodes.length = M.rows.length := h.count
  have hvl := h.at_lt hi
  let Q : Nat → Bool := fun x => decide ((M.draft m).at_ q ∈ (M.rows.row x).ops)
  have hst : m.g.nodes.filter Q = (List.range M.rows.length).filter Q := by
    apply h.whole.stable
    intro x hx hQ
    obtain ⟨j, h1, h2⟩ := h.part hx (by simpa [Q] using hQ) ha
    refine ⟨by unfold Row.decision; rw [h1]; rfl, ?_⟩
    rw [h2]
    intro p hp
    simp only [List.mem_singleton] at hp
    rw [hp]
    exact disjoint_decision ha
  have hQv : Q ((M.draft m).at_ i) = true := by simpa [Q] using hv
  have e1 : (L.countP fun r => q ∈ r.ops) = ((m.g.nodes.take i).filter Q).length := by
    have hl : L = (List.range i).map L.row := by
      rw [← hL.length, ← take_rows (le_refl _), List.take_length]
    have ht : m.g.nodes.take i = (List.range i).map (M.draft m).at_ := take_at (d := M.draft m) (by omega)
    rw [ht, ← List.countP_eq_length_filter, List.countP_map]
    conv_lhs => rw [hl]
    rw [List.countP_map]
    refine List.countP_congr fun t ht => ?_
    have ht := List.mem_range.1 ht
    have ho := (hL.loads t ht).same.ops
    simp only [Function.comp, Q, decide_eq_true_eq]
    rw [← ho]
    constructor
    · intro hm; exact List.mem_map_of_mem hm
    · intro hm
      obtain ⟨r, hr, hre⟩ := List.mem_map.1 hm
      have hrt := hL.made.before (by rw [hL.length]; exact ht) r hr
      have := at_inj w (show r < _ by omega) (show q < _ by omega) hre
      exact this ▸ hr
  have e2 : ((M.rows.take ((M.draft m).at_ i)).countP fun r => (M.draft m).at_ q ∈ r.ops) = ((List.range ((M.draft m).at_ i)).filter Q).length := by
    rw [take_rows hvl.le, List.countP_map, ← List.countP_eq_length_filter]
    rfl
  rw [e1, e2]
  have hn : m.g.nodes = m.g.nodes.take i ++ (M.draft m).at_ i :: m.g.nodes.drop (i + 1) := by
    have hi' : i < m.g.nodes.length := by rw [h.count]; exact hi
    have e : (M.draft m).at_ i = m.g.nodes[i] := at_getElem (d := M.draft m) hi'
    rw [e, ← List.drop_eq_getElem_cons, List.take_append_drop]
  have hr : List.range M.rows.length = List.range ((M.draft m).at_ i) ++ (M.draft m).at_ i ::
      (List.range (M.rows.length - (M.draft m).at_ i - 1)).map fun x => (M.draft m).at_ i + 1 + x := by
    obtain ⟨c, hc⟩ : ∃ c, M.rows.length = (M.draft m).at_ i + 1 + c := ⟨M.rows.length - (M.draft m).at_ i - 1, by omega⟩
    have hc' : M.rows.length - (M.draft m).at_ i - 1 = c := by omega
    rw [hc', hc, List.range_add, List.range_succ, List.append_assoc]
    simp
  rw [hn, hr, List.filter_append, List.filter_append, List.filter_cons, List.filter_cons, if_pos hQv, if_pos hQv] at hst
  refine prefix_length hst ?_ ?_
  · intro hm
    have hm := (List.mem_filter.1 hm).1
    have := w.nodup
    have : (m.g.nodes.take i ++ (M.draft m).at_ i :: m.g.nodes.drop (i + 1)).Nodup := hn ▸ this
    exact (List.nodup_append.1 this).2.2 _ hm _ List.mem_cons_self rfl
  · intro hm
    have hm := (List.mem_filter.1 hm).1
    simp at hm

/-- A symbol of the catalog. -/
theorem Loading.catalog {L : Script} {i : Nat} (h : Source M m isList) (hL : Loading M m i L) (hi : i < M.rows.length) {k : Kind}
    (hb : (M.rows.row ((M.draft m).at_ i)).built = .kind k) :
    ∃ L', L.loadCatalog (k.saved (isList ((M.draft m).at_ i)) (M.rows.row ((M.rows.row ((M.draft m).at_ i)).ops.headD 0)).built.asKind
        (M.rows.row ((M.draft m).at_ i)).out.shape).1
      (k.saved (isList ((M.draft m).at_ i)) (M.rows.row ((M.rows.row ((M.draft m).at_ i)).ops.headD 0)).built.asKind
        (M.rows.row ((M.draft m).at_ i)).out.shape).2 ((M.draft m).operands ((M.draft m).at_ i)) = .ok L' ∧ Loading M m (i + 1) L' := by
  have hvl := h.at_lt hi
  obtain ⟨h1, h2, h3⟩ := h.operands hi
  have hpy := h.python _ hvl
  unfold Row.FromPython at hpy
  rw [hb] at hpy
  obtain ⟨hty, hnum, _, logical, hfp, hlog⟩ := hpy
  obtain ⟨shapes, hmk, hout⟩ : ∃ shapes, k.make ((M.rows.row ((M.draft m).at_ i)).ins.map Info.shapes) = .ok shapes ∧
      (M.rows.row ((M.draft m).at_ i)).out.shapes = shapes := by
    obtain ⟨_, _, _, _, how⟩ := h.made.how hvl
    cases how with
    | kind e _ _ e1 e2 => rw [hb] at e; cases e; exact ⟨_, e1, by rw [e2]⟩
    | basic e => rw [hb] at e; cases e
    | advanced e => rw [hb] at e; cases e
    | permutation e => rw [hb] at e; cases e
  have hins : (M.rows.row ((M.draft m).at_ i)).ins = (M.rows.row ((M.draft m).at_ i)).ops.map fun p => (M.rows.row p).out := by
    obtain ⟨_, _, e, _⟩ := h.made.how hvl
    exact e
  rcases output_or k with ⟨j, rfl⟩ | hj
  · -- a part of a disjoint decision
    have hl := make_output hmk
    rw [hins] at hl
    simp only [List.length_map] at hl
    obtain ⟨p, hp⟩ := List.length_eq_one_iff.1 hl
    have hpl : p < M.rows.length := lt_trans (h.made.before hvl p (by rw [hp]; simp)) hvl
    obtain ⟨q, hq⟩ : ∃ q, (M.draft m).operands ((M.draft m).at_ i) = [q] := by rw [h3, hp]; exact ⟨_, rfl⟩
    have hqp : (M.draft m).at_ q = p := by rw [hq, hp] at h2; simpa using h2
    have hqi := (h1 q (by rw [hq]; simp)).1
    have hpA : (M.rows.row p).built.asKind.isArray = false := by
      rw [hp] at hty
      simpa [Kind.typed] using hty
    have hal := (hL.loads q hqi).kind
    rw [hqp] at hal
    have hcount : (L.countP fun r => q ∈ r.ops) = j := by
      have := hnum j rfl
      rw [hL.parts h hi hqi (by rw [hqp]; exact hpA) (by rw [hqp, hp]; simp), this, hp, hqp]
      rfl
    obtain ⟨kp, hkp⟩ : ∃ kp, (M.rows.row p).built = .kind kp := by
      cases hbp : (M.rows.row p).built with
      | kind k => exact ⟨k, rfl⟩
      | basic _ _ _ => rw [hbp] at hpA; cases hpA
      | advanced _ _ _ => rw [hbp] at hpA; cases hpA
      | permutation _ => rw [hbp] at hpA; cases hpA
    have hpk : (M.rows.row p).built.asKind = kp := by rw [hkp]; rfl
    rw [hpk] at hpA hal
    have hjlt : j < kp.numParts := by
      have hpo := h.made.alone hpl (disjoint_decision (by rw [hpk]; exact hpA))
      obtain ⟨_, _, e0, _, how⟩ := h.made.how hpl
      rw [hpo] at e0
      cases how with
      | kind e _ _ e1 e2 =>
        rw [hkp] at e
        cases e
        rw [e0] at e1
        rw [hins, hp] at hmk
        simp only [List.map_cons, List.map_nil, Kind.make, Res.bind_eq_ok] at hmk
        obtain ⟨_, hg, _⟩ := hmk
        have hg := guardThrow_eq_ok.1 hg
        rw [e2] at hg
        cases kp <;> simp [Kind.isArray] at hpA
        · simp only [List.map_nil, Kind.make, Res.bind_eq_ok, Res.ok.injEq] at e1
          obtain ⟨_, _, _, _, e1⟩ := e1
          rw [← e1] at hg
          simpa [Kind.numParts] using hg
        · simp only [List.map_nil, Kind.make, Res.bind_eq_ok, Res.ok.injEq] at e1
          obtain ⟨_, _, _, _, e1⟩ := e1
          rw [← e1] at hg
          simpa [Kind.numParts] using hg
      | basic e => rw [hkp] at e; cases e
      | advanced e => rw [hkp] at e; cases e
      | permutation e => rw [hkp] at e; cases e
    obtain ⟨L', hc, hL'⟩ := hL.construct h hi hb (.same _)
    refine ⟨L', ?_, hL'⟩
    rw [hq] at hc ⊢
    have hpart : ∀ cls, partOf cls kp = true → L.loadPart cls (j : Int) [q] = L.construct (.output j) [q] := by
      intro cls hcls
      unfold Script.loadPart
      have g1 : partOf cls (L.row ([q].headD 0)).built.asKind = true := (hal.partOf cls).trans hcls
      have g2 : 0 ≤ (j : Int) ∧ (j : Int) < (L.row ([q].headD 0)).built.asKind.numParts := by
        refine ⟨by omega, ?_⟩
        have : (L.row ([q].headD 0)).built.asKind.numParts = kp.numParts := hal.numParts
        omega
      have g3 : (j : Int) = ((L.countP fun r => decide ([q].headD 0 ∈ r.ops) : Nat) : Int) := by
        have : (L.countP fun r => decide ([q].headD 0 ∈ r.ops)) = j := hcount
        rw [this]
      rw [guardThrow_true (by rfl), Res.ok_bind, guardThrow_true g1, Res.ok_bind, guardThrow_true g2, Res.ok_bind,
        guardThrow_true (le_of_eq g3), Res.ok_bind, if_pos g3]
      simp
    rw [hp]
    simp only [List.headD_cons, Kind.saved, hpk]
    cases kp <;> simp [Kind.isArray] at hpA
    · exact (hpart .disjointList rfl).trans hc
    · exact (hpart .disjointBitSet rfl).trans hc
  · rw [loadCatalog_notPart hj]
    have hshapes : ((M.draft m).operands ((M.draft m).at_ i)).map L.symbols.shapes =
        (M.rows.row ((M.draft m).at_ i)).ins.map Info.shapes := by
      rw [hins, ← h2, List.map_map, List.map_map]
      exact List.map_congr_left fun p hp => (hL.loads p (h1 p hp).1).same.shapes
    have htyped : k.typed (((M.draft m).operands ((M.draft m).at_ i)).map L.symbols.kind) = true := by
      rw [← hty, ← h2]
      refine Kind.typed_congr _ ?_
      rw [List.map_map, List.map_map, List.map_map]
      exact List.map_congr_left fun p hp => (hL.loads p (h1 p hp).1).kind.isArray
    obtain ⟨c, hc, hpy⟩ : ∃ c, L.askLogical (k.saved (isList ((M.draft m).at_ i))
        (M.rows.row ((M.rows.row ((M.draft m).at_ i)).ops.headD 0)).built.asKind (M.rows.row ((M.draft m).at_ i)).out.shape).1
          ((M.draft m).operands ((M.draft m).at_ i)) = .ok c ∧ k.FromPython (isList ((M.draft m).at_ i)) c.logical := by
      by_cases hq : ∃ n ops, k = .quadratic n ops
      · obtain ⟨c, hc, hcl⟩ := hlog hq
        refine ⟨c, ?_, by rw [hcl]; exact hfp⟩
        obtain ⟨n, ops, rfl⟩ := hq
        rw [hins] at hmk
        match ho : (M.rows.row ((M.draft m).at_ i)).ops, hmk with
        | [], hmk => simp [Kind.make] at hmk
        | x :: l, hmk =>
          rw [ho] at h2 hc
          cases ho' : (M.draft m).operands ((M.draft m).at_ i) with
          | nil => rw [ho'] at h2; cases h2
          | cons y l' =>
            rw [ho'] at h2
            simp only [List.map_cons, List.cons.injEq] at h2
            show (L.row y).out.claim = .ok c
            rw [(hL.loads y (h1 y (by rw [ho']; simp)).1).same.claim, h2.1]
            exact hc
      · push Not at hq
        exact ⟨_, askLogical_other hq _ _ _ _ _, fromPython_any hq hfp⟩
    obtain ⟨k', hk', hal⟩ := Kind.loadKind_saved (d := ⟨PyModel.new, L.symbols⟩) (claim := fun _ => c)
      (parent := (M.rows.row ((M.rows.row ((M.draft m).at_ i)).ops.headD 0)).built.asKind) hj (by rw [hshapes]; exact hmk)
      htyped hpy
    obtain ⟨L', e1, e2⟩ := hL.construct h hi hb hal
    refine ⟨L', ?_, e2⟩
    rw [hc, Res.ok_bind]
    have hsh : (M.rows.row ((M.draft m).at_ i)).out.shape = Kind.shape1 shapes := by rw [← hout]; rfl
    rw [hsh, hk', Res.ok_bind, e1]

/-- The class and the files of a symbol, and one turn of the loop. -/
theorem Loading.step {L : Script} {i : Nat} (h : Source M m isList) (hL : Loading M m i L) (hi : i < M.rows.length) :
    ∃ item L', M.itemOf m isList ((M.draft m).at_ i) = .ok item ∧ (∀ files : Nat → SymbolFiles, files i = item.2 →
      Script.loadLine files L ((item.1, adjLine i ((M.draft m).operands ((M.draft m).at_ i))), i) = .ok L') ∧ Loading M m (i + 1) L' := by
  obtain ⟨h1, h2, h3⟩ := h.operands hi
  have hops : (((M.draft m).operands ((M.draft m).at_ i)).map fun p : Nat => (p : Int)).mapM (L.loadOperand (i : Int)) =
      .ok ((M.draft m).operands ((M.draft m).at_ i)) := by
    have : (((M.draft m).operands ((M.draft m).at_ i)).map fun p : Nat => (p : Int)).mapM (L.loadOperand (i : Int)) =
        ((M.draft m).operands ((M.draft m).at_ i)).mapM fun p : Nat => L.loadOperand (i : Int) (p : Int) := by
      rw [List.mapM_map]; rfl
    rw [this, mapM_ok _ id _ (fun p hp => ?_), List.map_id]
    have := (h1 p hp).1
    unfold Script.loadOperand
    rw [guardThrow_true (by omega), guardUB_true (by rw [hL.length]; simpa using this)]
    simp only [Res.ok_bind, Int.toNat_natCast, id]
  have hline : ∀ (files : Nat → SymbolFiles) (ty : TypeName),
      Script.loadLine files L ((ty, adjLine i ((M.draft m).operands ((M.draft m).at_ i))), i) =
        L.loadSymbol ty (files i) ((M.draft m).operands ((M.draft m).at_ i)) := by
    intro files ty
    unfold Script.loadLine
    rw [parseLine_adjLine]
    simp only [orThrow, Res.ok_bind, List.headD_cons, List.tail_cons]
    rw [guardThrow_true trivial, Res.ok_bind, hops, Res.ok_bind]
  unfold Generated.itemOf
  cases hb : (M.rows.row ((M.draft m).at_ i)).built with
  | kind k =>
    obtain ⟨L', e1, e2⟩ := hL.catalog h hi hb
    refine ⟨_, L', rfl, fun files hf => ?_, e2⟩
    rw [hline, hf]
    exact e1
  | basic sh idx P =>
    obtain ⟨out, L', e0, e1, e2⟩ := hL.basic h hi hb
    dsimp only
    rw [e0]
    refine ⟨_, L', rfl, fun files hf => ?_, e2⟩
    rw [hline, hf]
    exact e1
  | advanced idx P base =>
    obtain ⟨L', e1, e2⟩ := hL.advanced h hi hb
    refine ⟨_, L', rfl, fun files hf => ?_, e2⟩
    rw [hline, hf]
    exact e1
  | permutation x =>
    obtain ⟨L', e1, e2⟩ := hL.permutation h hi hb (.catalog .nothing)
    refine ⟨_, L', rfl, fun files hf => ?_, e2⟩
    rw [hline, hf]
    exact e1

end Script

end Verif
