import Verif.Model.Build
import Verif.Props.Whole

set_option linter.unusedSectionVars false
set_option linter.unusedSimpArgs false
set_option linter.unusedVariables false
set_option linter.unnecessarySeqFocus false

/-!
# Building models: what constructors do and leave behind
-/

namespace Verif

open Graph

namespace Act

/-- Several calls of `add_predecessor`. -/
def links (a : Nat) (ps : List Nat) (mem : Nat → GNode) : Nat → GNode :=
  ps.foldl (fun m p => linkOne m a p) mem

theorem links_eq {a : Nat} {ps : List Nat} (ha : a ∉ ps) (mem : Nat → GNode) (v : Nat) :
    links a ps mem v = if v = a then { mem a with preds := (mem a).preds ++ ps }
      else { mem v with succs := (mem v).succs ++ List.replicate (ps.count v) a } := by
  induction ps generalizing mem with
  | nil => by_cases h : v = a <;> simp [links, h]
  | cons p ps ih =>
    simp only [List.mem_cons, not_or] at ha
    have : links a (p :: ps) mem = links a ps (linkOne mem a p) := rfl
    rw [this, ih ha.2]
    by_cases h : v = a
    · subst h
      simp [linkOne, upd_ne _ _ ha.1]
    · simp only [if_neg h]
      by_cases hp : v = p
      · subst hp
        simp [linkOne, upd_ne _ _ h, List.replicate_succ]
      · simp [linkOne, upd_ne _ _ h, upd_ne _ _ hp, List.count_cons_of_ne (Ne.symm hp)]

theorem run_links (a : Nat) (ps : List Nat) (mem : Nat → GNode) :
    run a (ps.map .link) mem = (links a ps mem, .ok ()) := by
  induction ps generalizing mem with
  | nil => rfl
  | cons p ps ih => simp only [List.map_cons, run, ih]; rfl

/-- Operands checked and entered one after the other. -/
theorem run_each (a : Nat) (checks : Nat → List Bool) (ps : List Nat) (mem : Nat → GNode) :
    (run a (ps.flatMap fun p => (checks p).map .require ++ [.link p]) mem = (links a ps mem, .ok ()) ∧
      ∀ p ∈ ps, ∀ b ∈ checks p, b = true) ∨
    ∃ done p rest, ps = done ++ p :: rest ∧ (∀ q ∈ done, ∀ b ∈ checks q, b = true) ∧
      (∃ b ∈ checks p, b = false) ∧
      run a (ps.flatMap fun p => (checks p).map .require ++ [.link p]) mem = (links a done mem, .throw) := by
  have hreq : ∀ (bs : List Bool) (acts : List Act) (mem : Nat → GNode),
      ((∀ b ∈ bs, b = true) ∧ run a (bs.map .require ++ acts) mem = run a acts mem) ∨
      ((∃ b ∈ bs, b = false) ∧ run a (bs.map .require ++ acts) mem = (mem, .throw)) := by
    intro bs acts mem
    induction bs with
    | nil => left; simp
    | cons b bs ih =>
      cases b with
      | false => right; simp [run]
      | true =>
        rcases ih with ⟨h1, h2⟩ | ⟨h1, h2⟩
        · left; exact ⟨by simpa using h1, by simpa [run] using h2⟩
        · right; exact ⟨by simpa using h1, by simpa [run] using h2⟩
  induction ps generalizing mem with
  | nil => left; simp [run, links]
  | cons p ps ih =>
    rcases hreq (checks p) (.link p :: (ps.flatMap fun p => (checks p).map .require ++ [.link p])) mem with
      ⟨h1, h2⟩ | ⟨h1, h2⟩
    · have e : run a ((p :: ps).flatMap fun p => (checks p).map .require ++ [.link p]) mem =
          run a (ps.flatMap fun p => (checks p).map .require ++ [.link p]) (linkOne mem a p) := by
        simp only [List.flatMap_cons, List.append_assoc, List.cons_append, List.nil_append]
        rw [h2]; rfl
      rcases ih (linkOne mem a p) with ⟨k1, k2⟩ | ⟨done, q, rest, k1, k2, k3, k4⟩
      · left
        refine ⟨by rw [e, k1]; rfl, ?_⟩
        intro q hq
        rcases List.mem_cons.1 hq with rfl | hq
        · exact h1
        · exact k2 q hq
      · right
        refine ⟨p :: done, q, rest, by rw [k1]; rfl, ?_, k3, by rw [e, k4]; rfl⟩
        intro r hr
        rcases List.mem_cons.1 hr with rfl | hr
        · exact h1
        · exact k2 r hr
    · right
      refine ⟨[], p, ps, rfl, by simp, h1, ?_⟩
      simp only [List.flatMap_cons, List.append_assoc, List.cons_append, List.nil_append]
      rw [h2]; rfl

end Act

namespace Kind

/-- The checks of one operand of an n-ary symbol. -/
def naryChecks (shapes : Nat → List (List Int)) (first : Nat) (p : Nat) : List Bool :=
  [!dynamicShape (shape1 (shapes p)), decide (shape1 (shapes first) = shape1 (shapes p))]

theorem naryBody_eq (shapes : Nat → List (List Int)) (preds : List Nat) :
    naryBody shapes preds = .require (!preds.isEmpty) ::
      preds.flatMap fun p => (naryChecks shapes (preds.headD 0) p).map .require ++ [.link p] := rfl

/-- An operand an n-ary symbol of the given shape accepts. -/
def NaryFits (shapes : Nat → List (List Int)) (first p : Nat) : Prop :=
  dynamicShape (shape1 (shapes p)) = false ∧ shape1 (shapes p) = shape1 (shapes first)

theorem naryChecks_iff (shapes : Nat → List (List Int)) (first p : Nat) :
    (∀ b ∈ naryChecks shapes first p, b = true) ↔ NaryFits shapes first p := by
  simp only [naryChecks, NaryFits, List.mem_cons, List.not_mem_nil, or_false, forall_eq_or_imp, forall_eq,
    Bool.not_eq_true', decide_eq_true_eq]
  exact and_congr_right fun _ => eq_comm

/-- The n-ary constructor. -/
theorem run_naryBody (a : Nat) (shapes : Nat → List (List Int)) (preds : List Nat) (mem : Nat → GNode) :
    (Act.run a (naryBody shapes preds) mem = (Act.links a preds mem, .ok ()) ∧ preds ≠ [] ∧
      ∀ p ∈ preds, NaryFits shapes (preds.headD 0) p) ∨
    (preds = [] ∧ Act.run a (naryBody shapes preds) mem = (mem, .throw)) ∨
    ∃ done p rest, preds = done ++ p :: rest ∧ (∀ q ∈ done, NaryFits shapes (preds.headD 0) q) ∧
      ¬ NaryFits shapes (preds.headD 0) p ∧
      Act.run a (naryBody shapes preds) mem = (Act.links a done mem, .throw) := by
  cases preds with
  | nil => right; left; exact ⟨rfl, rfl⟩
  | cons q preds =>
    rw [naryBody_eq]
    have e : ∀ acts, Act.run a (.require (!(q :: preds).isEmpty) :: acts) mem = Act.run a acts mem := fun _ => rfl
    rw [e]
    rcases Act.run_each a (naryChecks shapes ((q :: preds).headD 0)) (q :: preds) mem with
      ⟨k1, k2⟩ | ⟨done, p, rest, k1, k2, k3, k4⟩
    · left
      exact ⟨k1, by simp, fun p hp => (naryChecks_iff shapes _ p).1 (k2 p hp)⟩
    · right; right
      refine ⟨done, p, rest, k1, fun r hr => (naryChecks_iff shapes _ r).1 (k2 r hr), fun hc => ?_, k4⟩
      obtain ⟨b, hb, hf⟩ := k3
      have := (naryChecks_iff shapes _ p).2 hc b hb
      simp [hf] at this

/-- All other constructors. -/
theorem run_body {k : Kind} (hk : ∀ op, k ≠ .nary op) (a : Nat) (claim : Nat → Claim)
    (shapes : Nat → List (List Int)) (preds : List Nat) (mem : Nat → GNode) :
    Act.run a (k.body claim shapes preds) mem =
      match k.make (preds.map shapes) with
      | .ok _ => if k.rangeChecks (preds.map claim) then (Act.links a preds mem, .ok ()) else (mem, .throw)
      | .throw => (mem, .throw)
      | .ub => (mem, .ub) := by
  have e : k.body claim shapes preds = .assume (decide (k.make (preds.map shapes) ≠ .ub)) ::
      .require (decide (k.make (preds.map shapes) ≠ .throw)) ::
      .require (decide (k.rangeChecks (preds.map claim))) :: preds.map .link := by
    cases k <;> first | rfl | exact absurd rfl (hk _)
  rw [e]
  cases hm : k.make (preds.map shapes) with
  | ub => simp [Act.run]
  | throw => simp [Act.run]
  | ok out => simp [Act.run, Act.run_links]

/-- The n-ary constructors accept the same operands as `make`. -/
theorem make_nary {op : NaryOp} {shapes : Nat → List (List Int)} {preds : List Nat}
    (hone : ∀ p ∈ preds, (shapes p).length = 1) (hne : preds ≠ [])
    (hfit : ∀ p ∈ preds, NaryFits shapes (preds.headD 0) p) :
    (nary op).make (preds.map shapes) = .ok [shape1 (shapes (preds.headD 0))] := by
  have h1 : ∀ l : List Nat, (∀ p ∈ l, (shapes p).length = 1) →
      (l.map shapes).mapM arrayShape = .ok (l.map fun p => shape1 (shapes p)) := by
    intro l hl
    induction l with
    | nil => rfl
    | cons p l ih =>
      have hp := hl p (by simp)
      rw [List.map_cons, List.mapM_cons, ih fun q hq => hl q (List.mem_cons_of_mem _ hq)]
      match h : shapes p, hp with
      | [s], _ => simp [arrayShape, shape1, h]
  have h2 : ∀ (s : List Int) (l : List (List Int)), (∀ t ∈ l, dynamicShape t = false ∧ t = s) →
      (l.forM fun t => do guardThrow (dynamicShape t = false); guardThrow (s = t)) = Res.ok () := by
    intro s l hl
    induction l with
    | nil => rfl
    | cons t l ih =>
      have ht := hl t (by simp)
      have hih := ih fun u hu => hl u (List.mem_cons_of_mem _ hu)
      simp only [List.forM] at hih ⊢
      rw [(guardThrow_eq_ok.2 ht.1 : guardThrow _ = .ok ()),
        (guardThrow_eq_ok.2 ht.2.symm : guardThrow _ = .ok ())]
      exact hih
  cases preds with
  | nil => exact absurd rfl hne
  | cons p preds =>
    simp only [make]
    rw [h1 _ hone]
    simp only [Res.ok_bind, List.map_cons, naryShape, List.headD_cons]
    have := h2 (shape1 (shapes p)) ((p :: preds).map fun p => shape1 (shapes p)) (by
      intro t ht
      obtain ⟨q, hq, rfl⟩ := List.mem_map.1 ht
      exact hfit q hq)
    simp only [List.map_cons] at this
    rw [this]
    rfl

end Kind

namespace Kind

/-- The operation of the graph that enters a symbol. -/
def op (k : Kind) (a : Nat) (preds : List Nat) : ModelOp :=
  if k.isDecision then .decision a else .node a preds k.removable

theorem decision_preds {k : Kind} (hk : k.isDecision = true) {ps : List (List (List Int))} {out : List (List Int)}
    (h : k.make ps = .ok out) : ps = [] := by
  cases k <;> simp [isDecision] at hk <;> (cases ps <;> simp [make] at h ⊢)

theorem resolve_decision (k : Kind) (mem : Nat → GNode) (preds : List Nat) :
    (k.resolve mem preds).isDecision = k.isDecision := by
  unfold resolve; split <;> rfl

theorem resolve_nary {k : Kind} {mem : Nat → GNode} {preds : List Nat} {op : NaryOp} :
    k.resolve mem preds = .nary op ↔ k = .nary op := by
  unfold resolve; split <;> simp

theorem resolve_isArray (k : Kind) (mem : Nat → GNode) (preds : List Nat) :
    (k.resolve mem preds).isArray = k.isArray := by
  unfold resolve; split <;> rfl

/-- Array symbols have one output. -/
theorem make_array {k : Kind} (hk : k.isArray = true) {ps : List (List (List Int))} {out : List (List Int)}
    (h : k.make ps = .ok out) : out.length = 1 := by
  cases k <;> simp [isArray] at hk <;>
    (simp only [make] at h; (try split at h) <;> simp_all [Res.bind_eq_ok] <;>
      first
      | (subst h; rfl)
      | (obtain ⟨_, _, h⟩ := h; subst h; rfl)
      | (obtain ⟨_, _, _, _, h⟩ := h; subst h; rfl)
      | (obtain ⟨_, _, _, _, _, _, h⟩ := h; subst h; rfl)
      | (obtain ⟨_, _, _, _, _, _, _, _, h⟩ := h; subst h; rfl)
      | (obtain ⟨_, _, _, h⟩ := h; subst h; rfl)
      | (obtain ⟨_, h⟩ := h; subst h; rfl)
      | (obtain ⟨_, _, _, _, _, _, _, h⟩ := h; subst h; rfl)
      | (obtain ⟨_, _, _, _, _, h⟩ := h; subst h; rfl))

end Kind

namespace Draft

/-- Array symbols of the model have one output. -/
def OneOutput (d : Draft) : Prop :=
  ∀ p ∈ d.m.g.nodes, (d.S.kind p).isArray = true → (d.S.shapes p).length = 1

theorem upd_upd {β : Type} (f : Nat → β) (a : Nat) (x y : β) : upd (upd f a x) a y = upd f a y := by
  funext v
  by_cases h : v = a
  · subst h; simp
  · simp [upd_ne _ _ h]

theorem upd_self {β : Type} (f : Nat → β) (a : Nat) : upd f a (f a) = f := by
  funext v
  by_cases h : v = a
  · subst h; simp
  · simp [upd_ne _ _ h]

/-- Entering a symbol whose constructor has run to the end is the operation of the graph. -/
theorem enter_step {d : Draft} {a : Nat} {k : Kind} {preds : List Nat} (hs : d.m.g.sorted = false)
    (ha : a ∉ d.m.g.nodes) (hp : ∀ p ∈ preds, p ∈ d.m.g.nodes) (hdec : k.isDecision = true → preds = []) :
    d.m.step (k.op a preds) =
      .ok (d.enter a k preds (Act.links a preds (upd d.m.g.mem a { removable := k.removable }))).m := by
  have hap : a ∉ preds := fun h => ha (hp a h)
  cases hk : k.isDecision with
  | true =>
    have := hdec hk
    subst this
    have hr : k.removable = false := by
      cases k <;> simp [Kind.isDecision] at hk <;> rfl
    simp only [Kind.op, hk, if_true, PyModel.step, emplaceDecision]
    rw [(guardThrow_eq_ok.2 hs : guardThrow _ = .ok ()), (guardUB_eq_ok.2 ha : guardUB _ = .ok ())]
    simp only [Res.ok_bind, enter, hk, if_true, Act.links, List.foldl_nil, upd_upd, upd_same, hr]
  | false =>
    simp only [Kind.op, hk, PyModel.step, emplaceNode]
    simp only [Bool.false_eq_true, if_false]
    rw [(guardThrow_eq_ok.2 hs : guardThrow _ = .ok ()),
      (guardUB_eq_ok.2 ⟨ha, hp⟩ : guardUB _ = .ok ())]
    simp only [Res.ok_bind, enter, hk, Bool.false_eq_true, if_false]
    have : linkSuccs (upd d.m.g.mem a { preds := preds, removable := k.removable }) a preds =
        Act.links a preds (upd d.m.g.mem a { removable := k.removable }) := by
      funext v
      rw [linkSuccs_eq, Act.links_eq hap]
      by_cases h : v = a
      · subst h
        simp [List.count_eq_zero.2 hap]
      · simp [h, upd_ne _ _ h]
    rw [this]

/-- What a constructor that succeeds does. -/
theorem emplace_ok {d d' : Draft} {claim : Nat → Claim} {a : Nat} {k : Kind} {preds : List Nat}
    (h1 : d.OneOutput) (h : d.emplace claim a k preds = (d', .ok ())) :
    d.m.g.sorted = false ∧ a ∉ d.m.g.nodes ∧ (∀ p ∈ preds, p ∈ d.m.g.nodes) ∧
    d'.S.kind = upd d.S.kind a (k.resolve d.m.g.mem preds) ∧
    (∃ out, (k.resolve d.m.g.mem preds).make (preds.map d.S.shapes) = .ok out ∧
      d'.S.shapes = upd d.S.shapes a out) ∧
    (k.resolve d.m.g.mem preds).rangeChecks (preds.map claim) ∧
    d.m.step ((k.resolve d.m.g.mem preds).op a preds) = .ok d'.m := by
  unfold emplace emplaceWith at h
  generalize hk' : k.resolve d.m.g.mem preds = k' at h ⊢
  by_cases hs : d.m.g.sorted = true
  · rw [if_pos hs] at h; simp at h
  rw [if_neg hs] at h
  have hs' : d.m.g.sorted = false := by simpa using hs
  by_cases hb : a ∈ d.m.g.nodes ∨ ∃ p ∈ preds, p ∉ d.m.g.nodes
  · rw [if_pos hb] at h; simp at h
  rw [if_neg hb] at h
  push Not at hb
  cases ht : k.typed (preds.map d.S.kind) with
  | false => simp [ht, Act.run] at h
  | true =>
    have hrun : ∀ acts mem, Act.run a (.assume true :: acts) mem = Act.run a acts mem := fun _ _ => rfl
    rw [ht, hrun] at h
    have key : ∃ out, k'.make (preds.map d.S.shapes) = .ok out ∧ k'.rangeChecks (preds.map claim) ∧
        d' = d.enter a k' preds (Act.links a preds (upd d.m.g.mem a { removable := k'.removable })) := by
      by_cases hn : ∃ op, k' = .nary op
      · obtain ⟨op, rfl⟩ := hn
        have hkn := Kind.resolve_nary.1 hk'
        subst hkn
        have hone : ∀ p ∈ preds, (d.S.shapes p).length = 1 := by
          intro p hp
          refine h1 p (hb.2 p hp) ?_
          simp only [Kind.typed, List.all_map, List.all_eq_true] at ht
          exact ht p hp
        have e : (Kind.nary op).body claim d.S.shapes preds = Kind.naryBody d.S.shapes preds := rfl
        rw [e] at h
        rcases Kind.run_naryBody a d.S.shapes preds (upd d.m.g.mem a { removable := (Kind.nary op).removable }) with
          ⟨e1, e2, e3⟩ | ⟨_, e1⟩ | ⟨done, p, rest, _, _, _, e1⟩
        · rw [e1] at h
          simp only [Prod.mk.injEq, and_true] at h
          exact ⟨_, Kind.make_nary hone e2 e3, trivial, h.symm⟩
        · rw [e1] at h; simp at h
        · rw [e1] at h; simp at h
      · push Not at hn
        rw [Kind.run_body hn] at h
        cases hm : k'.make (preds.map d.S.shapes) with
        | ub => rw [hm] at h; simp at h
        | throw => rw [hm] at h; simp at h
        | ok out =>
          rw [hm] at h
          by_cases hc : k'.rangeChecks (preds.map claim)
          · simp only [hc, if_true, Prod.mk.injEq, and_true] at h
            exact ⟨out, rfl, hc, h.symm⟩
          · simp [hc] at h
    obtain ⟨out, hm, hc, rfl⟩ := key
    refine ⟨hs', hb.1, hb.2, rfl, ⟨out, hm, ?_⟩, hc, ?_⟩
    · simp [enter, Kind.shapesOf, hm]
    · refine enter_step hs' hb.1 hb.2 fun hd => ?_
      have := Kind.decision_preds hd hm
      simpa using this

/-- What a rejected constructor leaves: nothing, except that an n-ary symbol may have been entered with some of
its operands. -/
theorem emplace_throw {d d' : Draft} {claim : Nat → Claim} {a : Nat} {k : Kind} {preds : List Nat}
    (h : d.emplace claim a k preds = (d', .throw)) :
    d' = d ∨ ∃ op done p rest, k = .nary op ∧ preds = done ++ p :: rest ∧
      (∀ q ∈ done, Kind.NaryFits d.S.shapes (preds.headD 0) q) ∧
      ¬ Kind.NaryFits d.S.shapes (preds.headD 0) p ∧ a ∉ d.m.g.nodes ∧
      (∀ p ∈ preds, p ∈ d.m.g.nodes) ∧
      d' = d.withMem (upd (Act.links a done (upd d.m.g.mem a { removable := k.removable })) a (d.m.g.mem a)) := by
  unfold emplace emplaceWith at h
  generalize hk' : k.resolve d.m.g.mem preds = k' at h
  have hsame : ∀ x : GNode, d.withMem (upd (upd d.m.g.mem a x) a (d.m.g.mem a)) = d := by
    intro x
    rw [upd_upd, upd_self]
    rfl
  by_cases hs : d.m.g.sorted = true
  · rw [if_pos hs] at h; left; simpa using h.symm
  rw [if_neg hs] at h
  by_cases hb : a ∈ d.m.g.nodes ∨ ∃ p ∈ preds, p ∉ d.m.g.nodes
  · rw [if_pos hb] at h; simp at h
  · rw [if_neg hb] at h
    push Not at hb
    cases ht : k.typed (preds.map d.S.kind) with
    | false => simp [ht, Act.run] at h
    | true =>
      have hrun : ∀ acts mem, Act.run a (.assume true :: acts) mem = Act.run a acts mem := fun _ _ => rfl
      rw [ht, hrun] at h
      by_cases hn : ∃ op, k' = .nary op
      · obtain ⟨op, rfl⟩ := hn
        have hkn := Kind.resolve_nary.1 hk'
        subst hkn
        have e : (Kind.nary op).body claim d.S.shapes preds = Kind.naryBody d.S.shapes preds := rfl
        rw [e] at h
        rcases Kind.run_naryBody a d.S.shapes preds (upd d.m.g.mem a { removable := (Kind.nary op).removable }) with
          ⟨e1, e2, e3⟩ | ⟨_, e1⟩ | ⟨done, p, rest, e2, e3, e4, e1⟩
        · rw [e1] at h; simp at h
        · rw [e1] at h
          simp only [Prod.mk.injEq, and_true] at h
          left; rw [← h]; exact hsame _
        · rw [e1] at h
          simp only [Prod.mk.injEq, and_true] at h
          right
          refine ⟨op, done, p, rest, rfl, e2, e3, e4, hb.1, hb.2, h.symm⟩
      · push Not at hn
        left
        rw [Kind.run_body hn] at h
        cases hm : k'.make (preds.map d.S.shapes) with
        | ub => rw [hm] at h; simp at h
        | throw =>
          rw [hm] at h
          simp only [Prod.mk.injEq, and_true] at h
          rw [← h]; exact hsame _
        | ok out =>
          rw [hm] at h
          by_cases hc : k'.rangeChecks (preds.map claim)
          · simp [hc] at h
          · simp only [hc, if_false, Prod.mk.injEq, and_true] at h
            rw [← h]; exact hsame _

end Draft

end Verif
