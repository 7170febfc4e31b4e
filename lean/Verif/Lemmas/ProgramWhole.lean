import Verif.Lemmas.ProgramFacts

set_option linter.unusedSectionVars false
set_option linter.unusedSimpArgs false
set_option linter.unusedVariables false

/-! Helper lemmas: what models made by programs show. -/

namespace Verif

open Graph PyModel

namespace Graph

variable {V D M : Type} {rel : Nat → V → D → V → Prop} {quiet : D} [DecidableEq D]

/-- What the acceptance function is asked about. -/
theorem seen_spec {ops : List ModelOp} {m : PyModel} (hr : PyModel.new.run ops = .ok m)
    (hl : 0 < lockDepth ops) {sem : Nat → NodeSem V D} {C : ∀ v, Settled quiet (sem v)}
    {act : (v : Nat) → M → (sem v).σ → Res (sem v).σ} (L : Lawful rel quiet m.g sem C act)
    {A vals : Nat → V} {st moved seen : St sem} (h : InStep m.g sem C A vals st) (p : Proposal sem M)
    (hp : p.Legal m.g) (he : p.moves.foldlM (moveOne sem act) st = .ok moved) {changed : List Nat × (Int → Bool)}
    (hc : m.g.descendants (fun _ => false) (p.moves.map Prod.fst) = .ok changed)
    (hs : propagateAll m.g sem moved changed.1 = .ok seen) :
    ∃ A' vals' : Nat → V, (∀ d ∈ m.g.decisions, (sem d).ok [A' d]) ∧ Evaluates m.g sem A' vals' ∧
      ∀ v ∈ m.g.nodes, (sem v).view (seen v) = vals' v := by
  obtain ⟨h1, h2, h3⟩ := h
  have w := (reachable hr).wf
  have hclean : ∀ d ∈ m.g.decisions, (C d).Clean (st d) [A d] := by
    intro d hd
    simpa [operands, hd] using h3 d (w.decMem d hd)
  obtain ⟨A', k1, k2, k3, k4⟩ := moves_spec L p.moves hp.1 hp.2 h1
    (fun d hd => hclean d (hp.2 d hd)) he
  obtain ⟨vals', h1'⟩ := L.total A' k1
  classical
  obtain ⟨stP, st', e1, e2, _⟩ := propose_atomic hr hl C L.contract L.quiet L.idle h2 h1' hp.1
    hp.2 (fun d _ hn => (k2 d hn).symm) k3 (fun v hv hn => by rw [k4 v hn]; exact h3 v hv) (fun s => decide (s = seen))
  have hsame : stP = seen := by
    unfold propose at e2
    rw [hc, Res.ok_bind, hs, Res.ok_bind, if_pos (by simp)] at e2
    obtain ⟨st2, _, e3⟩ := Res.bind_eq_ok.1 e2
    simp at e3
    exact e3.2.2
  exact ⟨A', vals', k1, h1', by rw [← hsame]; exact e1⟩

end Graph

namespace Script

variable {s : Script} {T : Nat → Prop} {A vals : Nat → Val}

theorem Program.run_inv {p : Program} {M : Generated} (h : p.run = .ok M) :
    Script.run p.steps = .ok M.rows ∧ (∀ o ∈ M.objective, o < M.rows.length) ∧
      ∀ c ∈ M.constraints, c < M.rows.length := by
  unfold Program.run at h
  obtain ⟨t, e, h⟩ := Res.bind_eq_ok.1 h
  have hfold : ∀ (cs : List Nat) (N N' : Generated), N.rows = t → (∀ o ∈ N.objective, o < t.length) → (∀ c ∈ N.constraints, c < t.length) →
      cs.foldlM Generated.addConstraint N = .ok N' →
      N'.rows = t ∧ (∀ o ∈ N'.objective, o < t.length) ∧ ∀ c ∈ N'.constraints, c < t.length := by
    intro cs
    induction cs with
    | nil =>
      intro N N' h1 h2 h3 h
      simp at h; subst h
      exact ⟨h1, h2, h3⟩
    | cons c cs ih =>
      intro N N' h1 h2 h3 h
      rw [List.foldlM_cons] at h
      obtain ⟨N1, e1, h⟩ := Res.bind_eq_ok.1 h
      unfold Generated.addConstraint at e1
      obtain ⟨_, g1, e1⟩ := Res.bind_eq_ok.1 e1
      obtain ⟨a, _, e1⟩ := Res.bind_eq_ok.1 e1
      obtain ⟨_, _, e1⟩ := Res.bind_eq_ok.1 e1
      obtain ⟨_, _, e1⟩ := Res.bind_eq_ok.1 e1
      cases e1
      have hlt := guardUB_eq_ok.1 g1
      refine ih _ N' (by exact h1) (by exact h2) ?_ h
      intro d hd
      rcases List.mem_append.1 hd with hd | hd
      · exact h3 d hd
      · simp at hd
        rw [hd, ← h1]
        exact hlt
  obtain ⟨N, e2, h⟩ := Res.bind_eq_ok.1 h
  have hN : N.rows = t ∧ (∀ o ∈ N.objective, o < t.length) ∧ ∀ c ∈ N.constraints, c < t.length := by
    cases ho : p.objective with
    | none =>
      rw [ho] at e2
      cases e2
      exact ⟨rfl, by simp, by simp⟩
    | some o =>
      rw [ho] at e2
      unfold withObjective Generated.minimize at e2
      obtain ⟨_, g1, e2⟩ := Res.bind_eq_ok.1 e2
      obtain ⟨_, _, e2⟩ := Res.bind_eq_ok.1 e2
      cases e2
      refine ⟨rfl, ?_, by simp⟩
      intro o' ho'
      simp at ho'
      subst ho'
      exact guardUB_eq_ok.1 g1
  obtain ⟨h1, h2, h3⟩ := hfold _ _ _ hN.1 hN.2.1 hN.2.2 h
  rw [h1]
  exact ⟨e, h2, h3⟩

theorem admits_iff : Admits (fun _ => True) s A ↔ s.Chosen A := ⟨fun h i hi hd => h i hi trivial hd, fun h i hi _ hd => h i hi hd⟩

theorem runs_iff : Runs (fun _ => True) s A vals ↔ s.Follows A vals := ⟨fun h i hi => h i hi trivial, fun h i hi _ => h i hi⟩

theorem Supported.facts (h : s.Supported T) (hm : s.Made) (hA : s.Chosen A) (hv : s.Follows A vals) : ∀ i < s.length, s.Fact T vals i :=
  hm.facts h.regular h.trusted hA hv (h.representable A vals hA hv)

theorem Supported.complete (h : s.Supported T) (hm : s.Made) : Complete False (fun _ => True) s := by
  refine Good.complete ⟨fun i hi _ p hp => ⟨trivial, hm.before hi p hp⟩, fun i hi _ => (hm.static h.regular i hi).keeps, ?_⟩
  intro A vals hA hv i hi _ hd
  exact (h.facts hm (admits_iff.1 hA) (runs_iff.1 hv) i hi).accepts hd

/-- The symbol is taken as an order of `n` elements. -/
def Orders (s : Script) (n v : Nat) : Prop :=
  ∃ i < s.length, ∃ x, (s.row i).built = .permutation x ∧ x.shape.headD 0 = n ∧ v ∈ (s.row i).ops.tail

/-- Changes are reported correctly, those of orders within their ranges. -/
def OrderlyRel (s : Script) (v : Nat) (x : Val) (d : Dif) (y : Val) : Prop := ValRel x d y ∧ ∀ n, s.Orders n v → RangeRel n x d y

/-- All symbols evaluate incrementally. -/
theorem Supported.obeys (h : s.Supported T) (hm : s.Made) {i : Nat} (hi : i < s.length) :
    (s.row i).Obeys ((s.row i).ops.map s.OrderlyRel) (s.OrderlyRel i) := by
  have hs := hm.static h.regular i hi
  have hrels : ∀ r ∈ (s.row i).ops.map s.OrderlyRel, ∀ x d y, r x d y → ValRel x d y := by
    intro r hr x d y hd
    obtain ⟨p, _, rfl⟩ := List.mem_map.1 hr
    exact hd.1
  by_cases hp : ∃ x, (s.row i).built = .permutation x
  · obtain ⟨x, hb⟩ := hp
    refine ⟨fun hd => by simp [Row.decision, hb, Built.decision] at hd, fun _ => ?_⟩
    have hreg := h.regular i hi
    unfold Row.Regular at hreg
    rw [hb] at hreg
    obtain ⟨n, hn, hbig, hx⟩ := hreg
    obtain ⟨sizes, h1, _, _, how⟩ := hm.how hi
    cases how with
    | kind hb' => rw [hb] at hb'; cases hb'
    | basic hb' => rw [hb] at hb'; cases hb'
    | advanced hb' => rw [hb] at hb'; cases hb'
    | @permutation a' u w sh hb' ho hops hc hsu hsw =>
      rw [hb] at hb'
      cases hb'
      have hu := h1 u (by rw [hops]; simp)
      have hw := ((hm.static h.regular u (lt_trans hu hi)).const x hc).2.2
      have hord : s.Orders n w := ⟨i, hi, x, hb, by rw [hx]; rfl, by rw [hops]; simp⟩
      have hno : ∀ k, ¬ s.Orders k i := by
        rintro k ⟨j, hj, y, hy, _, hmem⟩
        rcases h.trusted.orders j hj y hy i hmem with hk | ⟨a, hk, _⟩
        · rw [hb] at hk; cases hk
        · rw [hb] at hk; cases hk
      obtain ⟨C, hC⟩ := obeys_permutation (r0 := s.OrderlyRel u) (r1 := s.OrderlyRel w) (fun _ _ _ h => (h.2 n hord).orders) hn hbig hx hw
        (out := (s.row i).out) (ins := (s.row i).ins)
      have hC : C.PropagatesWith [s.OrderlyRel u, s.OrderlyRel w] (s.OrderlyRel i) := Settled.PropagatesWith.weaken hC fun _ _ _ hd => ⟨hd.1, fun k hk => absurd hk (hno k)⟩
      unfold Row.node
      rw [hops]
      generalize (s.row i).built = b at hb
      subst hb
      exact ⟨C, hC⟩
  · have hnp : (s.row i).built.isPermutation = false := by
      cases hb : (s.row i).built with
      | permutation x => exact absurd ⟨x, hb⟩ hp
      | _ => rfl
    by_cases hn : ∀ n : Nat, ¬ s.Orders n i
    · have hw : ∀ x d y, ValRel x d y → s.OrderlyRel i x d y := fun _ _ _ hd => ⟨hd, fun k hk => absurd hk (hn k)⟩
      refine ⟨fun hd => ?_, fun hd => ?_⟩
      · obtain ⟨_, ⟨L⟩⟩ := hs.keeps.1 hd
        exact ⟨L, fun _ _ _ hr => hw _ _ _ (L.diff hr)⟩
      · obtain ⟨C, h1, h2⟩ := hs.keeps.2 hd
        exact ⟨C, Settled.PropagatesWith.weaken (Settled.Propagates.with (h2 (.inr hnp)) hrels) hw⟩
    · push Not at hn
      obtain ⟨n, j, hj, x, hb, hx, hmem⟩ := hn
      rcases h.trusted.orders j hj x hb i hmem with hk | ⟨a, hk, _⟩
      · rw [hx] at hk
        have hc : CollNode.make n n n = .ok (Kind.collNode n n n) := by
          unfold CollNode.make
          rw [guardThrow_true (by omega), guardThrow_true (by omega)]
          rfl
        have hsame : ∀ k, s.Orders k i → k = n := by
          rintro k ⟨j', hj', x', hb', hx', hmem'⟩
          rcases h.trusted.orders j' hj' x' hb' i hmem' with hk' | ⟨a, hk', _⟩
          · rw [hk, hx'] at hk'
            simp at hk'
            exact hk'.symm
          · rw [hk] at hk'
            cases hk'
        obtain ⟨L, hL⟩ := obeys_list hc
        have hL : ∀ t x y, L.Rel t x y → s.OrderlyRel i x ((collectionNode (Kind.collNode n n n)).diff t) y := by
          intro t x y hr
          have := hL t x y hr
          exact ⟨this.1, fun k hk => by rw [hsame k hk]; exact this⟩
        clear hsame hs hmem hnp hp hrels
        generalize s.OrderlyRel i = rel at hL
        generalize (s.row i).ops.map s.OrderlyRel = rels
        generalize s.row i = r at hk
        obtain ⟨b, ops, ins, out⟩ := r
        subst hk
        exact ⟨fun _ => ⟨L, hL⟩, fun h => absurd (show true = false from h) (by decide)⟩
      · refine ⟨fun hd => by simp [Row.decision, hk, Built.decision, Kind.isDecision] at hd, fun hd => ?_⟩
        obtain ⟨C, h1, h2⟩ := hs.keeps.2 hd
        have hC : C.PropagatesWith _ ValRel := Settled.Propagates.with (h2 (.inr hnp)) hrels
        have hdiff : ∀ t, (s.row i).node.diff t = [] := by
          unfold Row.node
          generalize (s.row i).built = b at hk
          subst hk
          exact fun _ => rfl
        refine ⟨C, fun h1 h2 h3 h4 => ?_⟩
        obtain ⟨s', e, hv, hr, hc⟩ := hC h1 h2 h3 h4
        exact ⟨s', e, hv, ⟨hr, fun k _ => ⟨hr, fun u hu => by rw [hdiff] at hu; cases hu⟩⟩, hc⟩

/-- Everything needed of a model. -/
structure Ready (M : Generated) (m : PyModel) : Prop where
  built : PyModel.new.run M.ops = .ok m
  locked : 0 < lockDepth M.ops
  whole : Whole M.rows m
  lawful : ∃ (rel : Nat → Val → Dif → Val → Prop) (C : ∀ v, Settled ([] : Dif) (M.rows.sem v)), Lawful rel [] m.g M.rows.sem C M.rows.act

theorem Supported.ready {p : Program} {M : Generated} (hp : p.run = .ok M) (h : M.rows.Supported T) :
    ∃ m, Ready M m ∧ m.g.objective = M.objective ∧ m.g.constraints = M.constraints := by
  obtain ⟨e, ho, hc⟩ := Program.run_inv hp
  have hco := h.complete (made_of_run e)
  obtain ⟨m, e1, hl, w, e2, e3⟩ := Generated.built hco ho hc
  exact ⟨m, ⟨e1, hl, w, _, hco.lawful (fun i hi => h.obeys (made_of_run e) hi)
    (fun _ x => ⟨ValRel.quiet x, fun _ _ => RangeRel.quiet x⟩) w ((C18_lock_count e1).2.2 hl)⟩, e2, e3⟩

theorem Ready.of_built {p : Program} {M : Generated} (hp : p.run = .ok M) (h : M.rows.Supported T) {m : PyModel}
    (hm : PyModel.new.run M.ops = .ok m) : Ready M m ∧ m.g.objective = M.objective ∧ m.g.constraints = M.constraints := by
  obtain ⟨m', h1, h2⟩ := h.ready hp
  have := h1.built
  rw [hm] at this
  cases this
  exact ⟨h1, h2⟩

/-- All values that the decisions accept can be set. -/
theorem Ready.starts {M : Generated} {m : PyModel} (h : Ready M m) (hA : M.rows.Accepts m.g A) : ∃ st, M.rows.Starts m.g A st := by
  obtain ⟨rel, C, L⟩ := h.lawful
  obtain ⟨f, vals, e, _, hall, _⟩ := inStep_of_init h.built h.locked L hA
  have hinh : ∀ v, Nonempty (M.rows.sem v).σ := by
    intro v
    by_cases hv : v ∈ m.g.nodes
    · obtain ⟨x, _⟩ := Option.isSome_iff_exists.1 (hall v hv)
      exact ⟨x⟩
    · have hr : M.rows.row v = .unused := by
        unfold row
        rw [List.getD_eq_getElem?_getD, List.getElem?_eq_none (by
          by_contra hlt
          exact hv ((h.whole.nodes v).2 (by omega)))]
        rfl
      have : ∀ r, r = Row.unused → Nonempty r.node.σ := by
        rintro _ rfl
        exact ⟨()⟩
      exact this _ hr
  choose inh _ using fun v => Classical.exists_true_of_nonempty (hinh v)
  refine ⟨fun v => (f.cell v).getD (inh v), f, e, fun v hv => ?_⟩
  obtain ⟨x, hx⟩ := Option.isSome_iff_exists.1 (hall v hv)
  show f.cell v = some ((f.cell v).getD (inh v))
  rw [hx]
  rfl

/-- What can be seen follows from what the decisions show. -/
theorem Ready.visible {M : Generated} {m : PyModel} (h : Ready M m) (hv : M.Visible m vals) :
    Evaluates m.g M.rows.sem vals vals ∧ M.rows.Accepts m.g vals := by
  obtain ⟨rel, C, L⟩ := h.lawful
  have w := h.whole.inv.wf
  have key : ∀ {A' vals' : Nat → Val}, (∀ d ∈ m.g.decisions, (M.rows.sem d).ok [A' d]) → Evaluates m.g M.rows.sem A' vals' →
      (∀ v ∈ m.g.nodes, vals v = vals' v) → Evaluates m.g M.rows.sem vals vals ∧ M.rows.Accepts m.g vals := by
    intro A' vals' h1 h2 h3
    have hd : ∀ d ∈ m.g.decisions, vals d = A' d := by
      intro d hd
      rw [h3 d (w.decMem d hd), h2.value d (w.decMem d hd)]
      unfold operands
      rw [if_pos hd, L.same d hd]
    have ho : ∀ v ∈ m.g.nodes, operands m.g vals vals v = operands m.g A' vals' v := by
      intro v hv
      unfold operands
      split_ifs with hdv
      · rw [hd v hdv]
      · exact List.map_congr_left fun q hq => h3 q (w.predMem v hv q hq)
    refine ⟨⟨fun v hv => ?_, fun v hv => ?_⟩, fun d hdm => ?_⟩
    · rw [ho v hv, h3 v hv]
      exact h2.value v hv
    · rw [ho v hv]
      exact h2.accepted v hv
    · rw [hd d hdm]
      exact h1 d hdm
  have start : ∀ {A : Nat → Val} {st : St M.rows.sem}, M.rows.Accepts m.g A → M.rows.Starts m.g A st →
      ∃ vals, InStep m.g M.rows.sem C A vals st := by
    rintro A st hA ⟨f, e, hf⟩
    obtain ⟨f', vals, e', _, _, hin⟩ := inStep_of_init h.built h.locked L hA
    rw [e] at e'
    cases e'
    exact ⟨vals, hin st hf⟩
  cases hv with
  | @after A st ps r hA hst hps he =>
    obtain ⟨v0, hin⟩ := start hA hst
    obtain ⟨_, A', vals', h1⟩ := history_spec h.built h.locked L ps hps hin he
    exact key h1.1 h1.2.1 fun v hv => h1.view hv
  | @during A st ps r q moved seen changed hA hst hps he hq hmv hc hs =>
    obtain ⟨v0, hin⟩ := start hA hst
    obtain ⟨_, A', vals', h1⟩ := history_spec h.built h.locked L ps hps hin he
    obtain ⟨A2, vals2, k1, k2, k3⟩ := seen_spec h.built h.locked L h1 q hq hmv hc hs
    exact key k1 k2 k3

theorem Ready.facts {p : Program} {M : Generated} (hp : p.run = .ok M) (h : M.rows.Supported T) {m : PyModel}
    (hm : PyModel.new.run M.ops = .ok m) (hv : M.Visible m vals) :
    M.rows.Made ∧ M.rows.Chosen vals ∧ M.rows.Follows vals vals ∧ ∀ i < M.rows.length, M.rows.Fact T vals i := by
  obtain ⟨hR, _⟩ := Ready.of_built hp h hm
  obtain ⟨h1, h2⟩ := hR.visible hv
  have hmade := made_of_run (Program.run_inv hp).1
  have hc := admits_iff.1 (hR.whole.admits h2)
  have hf := runs_iff.1 (hR.whole.runs h1)
  exact ⟨hmade, hc, hf, h.facts hmade hc hf⟩

/-- Objective and constraints have been checked. -/
theorem Program.run_targets {p : Program} {M : Generated} (h : p.run = .ok M) :
    (∀ o ∈ M.objective, sizeOne (M.rows.row o).out.shape = true) ∧
    ∀ c ∈ M.constraints, sizeOne (M.rows.row c).out.shape = true ∧ ∃ cl, (M.rows.row c).out.claim = .ok cl ∧ cl.logical = true := by
  unfold Program.run at h
  obtain ⟨t, e, h⟩ := Res.bind_eq_ok.1 h
  let Q : Generated → Prop := fun N => N.rows = t ∧ (∀ o ∈ N.objective, sizeOne (t.row o).out.shape = true) ∧
    ∀ c ∈ N.constraints, sizeOne (t.row c).out.shape = true ∧ ∃ cl, (t.row c).out.claim = .ok cl ∧ cl.logical = true
  have hfold : ∀ (cs : List Nat) (N N' : Generated), Q N → cs.foldlM Generated.addConstraint N = .ok N' → Q N' := by
    intro cs
    induction cs with
    | nil =>
      intro N N' h1 h
      simp at h; subst h
      exact h1
    | cons c cs ih =>
      rintro N N' ⟨h1, h2, h3⟩ h
      rw [List.foldlM_cons] at h
      obtain ⟨N1, e1, h⟩ := Res.bind_eq_ok.1 h
      unfold Generated.addConstraint at e1
      obtain ⟨_, _, e1⟩ := Res.bind_eq_ok.1 e1
      obtain ⟨a, ha, e1⟩ := Res.bind_eq_ok.1 e1
      obtain ⟨_, g1, e1⟩ := Res.bind_eq_ok.1 e1
      obtain ⟨_, g2, e1⟩ := Res.bind_eq_ok.1 e1
      cases e1
      refine ih { N with constraints := N.constraints ++ [c] } N' ⟨h1, h2, ?_⟩ h
      intro d hd
      rcases List.mem_append.1 hd with hd | hd
      · exact h3 d hd
      · simp at hd
        rw [hd, ← h1]
        exact ⟨guardThrow_eq_ok.1 g2, a, ha, guardThrow_eq_ok.1 g1⟩
  obtain ⟨N, e2, h⟩ := Res.bind_eq_ok.1 h
  have hN : Q N := by
    cases ho : p.objective with
    | none =>
      rw [ho] at e2
      cases e2
      exact ⟨rfl, by simp, by simp⟩
    | some o =>
      rw [ho] at e2
      unfold withObjective Generated.minimize at e2
      obtain ⟨_, _, e2⟩ := Res.bind_eq_ok.1 e2
      obtain ⟨_, g1, e2⟩ := Res.bind_eq_ok.1 e2
      cases e2
      refine ⟨rfl, ?_, by simp⟩
      intro o' ho'
      simp at ho'
      subst ho'
      exact guardThrow_eq_ok.1 g1
  obtain ⟨h1, h2, h3⟩ := hfold _ _ _ hN h
  rw [h1]
  exact ⟨h2, h3⟩

theorem wf_sizeOne {a : Arr Rat} (h : sizeOne a.shape = true) (hw : a.WF) : ∃ x, a.data = [x] := by
  simp only [sizeOne, Bool.and_eq_true, Bool.not_eq_true', decide_eq_true_eq] at h
  unfold Arr.WF at hw
  rw [if_neg (by unfold Arr.dynamic; rw [h.1]; simp), h.2] at hw
  exact List.length_eq_one_iff.1 (by exact_mod_cast hw)

theorem index_arrays_inside {sh : List Int} {idx : List (Option Indexer)} (h : List.Forall₂ IdxFits sh idx) :
    ∀ {ys : List (Arr Rat)}, List.Forall₂ Indexer.Fits idx.reduceOption ys →
    List.Forall₂ (fun (d : Int) (y : Arr Rat) => ∀ v ∈ y.data, ∃ k : Nat, v = k ∧ (k : Int) < d)
      (((sh.zip (idx.map Option.isSome)).filter Prod.snd).map Prod.fst) ys := by
  induction h with
  | nil => intro ys hf; cases hf; exact .nil
  | @cons d o sh idx hd _ ih =>
    intro ys hf
    cases o with
    | none => exact ih hf
    | some i =>
      cases hf with
      | cons hy hf =>
        refine .cons (fun v hv => ?_) (ih hf)
        obtain ⟨h1, h2, h3⟩ := hy.values v hv
        obtain ⟨_, k2, k3⟩ := hd i rfl
        have hi : v = (v.num : Rat) := (Rat.den_eq_one_iff v).1 h1 |>.symm
        have h0 : 0 ≤ v.num := Rat.num_nonneg.2 (le_trans k2 h2)
        refine ⟨v.num.toNat, ?_, ?_⟩
        · rw [hi]
          exact_mod_cast (Int.toNat_of_nonneg h0).symm
        · rw [Int.toNat_of_nonneg h0]
          have : v < (d : Rat) := lt_of_le_of_lt h3 k3
          rw [hi] at this
          exact_mod_cast this

end Script
end Verif
