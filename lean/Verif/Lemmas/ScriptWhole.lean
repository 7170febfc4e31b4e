import Verif.Lemmas.ScriptGraph
import Verif.Spec.Generated
import Verif.Lemmas.Whole

set_option linter.unusedSectionVars false
set_option linter.unusedSimpArgs false
set_option linter.unusedVariables false

/-! Helper lemmas: generated models evaluate correctly. -/

namespace Verif

namespace Graph

/-- Values that follow from the values of the decisions. -/
theorem exists_vals {V D : Type} [Inhabited V] {g : Graph} (w : g.WF) (hs : g.sorted = true) (sem : Nat → NodeSem V D)
    (A : Nat → V) : ∃ vals : Nat → V, ∀ v ∈ g.nodes, vals v = (sem v).f (operands g A vals v) := by
  refine ⟨fun v => evalN g sem A ((g.topoOf v).toNat + 1) v, fun v hv => ?_⟩
  show (sem v).f (operands g A (evalN g sem A (g.topoOf v).toNat) v) = _
  congr 1
  apply operands_congr
  intro p hp
  have hpn := w.predMem v hv p hp
  have hlt := (w.topological hs).edge p hpn v ((w.mem_link hpn hv).2 hp)
  have h0 := ((w.topological hs).range p hpn).1
  exact evalN_deep w hs sem A _ p hpn (by omega)

end Graph

namespace Script

open Graph PyModel

variable {full : Prop} {P : Nat → Prop} {s : Script} {m : PyModel} {A vals : Nat → Val}

theorem Whole.operands (w : Whole s m) {v : Nat} (hv : v < s.length) :
    Verif.operands m.g A vals v = (s.row v).operands (A v) vals := by
  unfold Verif.operands Row.operands
  by_cases hd : (s.row v).decision = true
  · rw [if_pos ((w.decisions v hv).2 hd), if_pos hd]
  · rw [if_neg (fun h => hd ((w.decisions v hv).1 h)), if_neg hd, w.preds v hv]

theorem Whole.dec_lt (w : Whole s m) {d : Nat} (hd : d ∈ m.g.decisions) : d < s.length := (w.nodes d).1 (w.inv.wf.decMem d hd)

theorem Whole.admits (w : Whole s m) (hA : s.Accepts m.g A) : Admits P s A := by
  intro i hi _ hd
  exact hA i ((w.decisions i hi).2 hd)

theorem Whole.runs (w : Whole s m) (h : Evaluates m.g s.sem A vals) : Runs P s A vals := by
  intro i hi _
  rw [← w.operands hi]
  exact h.value i ((w.nodes i).2 hi)

/-- The values of the decisions determine the values of all symbols. -/
theorem Complete.total (h : Complete full P s) (w : Whole s m) (hs : m.g.sorted = true) (hA : s.Accepts m.g A) :
    ∃ vals, Evaluates m.g s.sem A vals := by
  obtain ⟨vals, hv⟩ := exists_vals w.inv.wf hs s.sem A
  refine ⟨vals, hv, fun v hvn => ?_⟩
  have hlt := (w.nodes v).1 hvn
  have hr : ∀ P, Runs P s A vals := by
    intro P i hi _
    rw [← w.operands hi]
    exact hv i ((w.nodes i).2 hi)
  by_cases hd : (s.row v).decision = true
  · have hd' := (w.decisions v hlt).2 hd
    unfold Verif.operands
    rw [if_pos hd']
    exact hA v hd'
  · rw [w.operands hlt]
    unfold Row.operands
    rw [if_neg hd]
    by_cases hP : P v
    · exact h.good.accepts A vals (w.admits hA) (hr P) v hlt hP (by simpa using hd)
    · exact h.accepts A vals (w.admits hA) (hr P) v hlt hP

theorem Complete.exists_settled (h : Complete full P s) (w : Whole s m) (v : Nat) :
    ∃ C : Settled ([] : Dif) (s.sem v),
      (full → v ∈ m.g.nodes → v ∉ m.g.decisions → C.Propagates ValRel) ∧
      (v ∈ m.g.decisions → ∃ L : DecisionLaw (s.sem v) (s.row v).step, C = L.settled) := by
  by_cases hv : v < s.length
  · by_cases hd : (s.row v).decision = true
    · obtain ⟨_, ⟨L⟩⟩ := (h.keeps hv).1 hd
      exact ⟨L.settled, fun _ _ hn => absurd ((w.decisions v hv).2 hd) hn, fun _ => ⟨L, rfl⟩⟩
    · obtain ⟨C, _, hC⟩ := (h.keeps hv).2 (by simpa using hd)
      exact ⟨C, fun hf _ _ => hC (.inl hf), fun hd' => absurd ((w.decisions v hv).1 hd') hd⟩
  · have hr : s.row v = .unused := by
      unfold row
      rw [List.getD_eq_getElem?_getD, List.getElem?_eq_none (by omega)]
      rfl
    have : ∀ r, r = Row.unused → ∃ C : Settled ([] : Dif) r.node, True := by
      rintro _ rfl
      exact ⟨(constantContract _).toSettled, trivial⟩
    obtain ⟨C, _⟩ := this _ hr
    exact ⟨C, fun _ hn => absurd ((w.nodes v).1 hn) hv, fun hd => absurd (w.dec_lt hd) hv⟩

/-- The symbol evaluates incrementally, where changes of its operands are related by `rels` and its own by `rel`. -/
def _root_.Verif.Row.Obeys (rels : List (Val → Dif → Val → Prop)) (rel : Val → Dif → Val → Prop) (r : Row) : Prop :=
  (r.decision = true → ∃ L : DecisionLaw r.node r.step, ∀ s x y, L.Rel s x y → rel x (r.node.diff s) y) ∧
  (r.decision = false → ∃ C : Settled ([] : Dif) r.node, C.PropagatesWith rels rel)

theorem Complete.obeys (h : Complete True P s) {i : Nat} (hi : i < s.length) : (s.row i).Obeys ((s.row i).ops.map fun _ => ValRel) ValRel := by
  refine ⟨fun hd => ?_, fun hd => ?_⟩
  · obtain ⟨_, ⟨L⟩⟩ := (h.keeps hi).1 hd
    exact ⟨L, fun _ _ _ hr => L.diff hr⟩
  · obtain ⟨C, _, hC⟩ := (h.keeps hi).2 hd
    exact ⟨C, Settled.Propagates.same (hC (.inl trivial)) _⟩

theorem obeys_settled {rel : Nat → Val → Dif → Val → Prop} (h : ∀ i < s.length, (s.row i).Obeys ((s.row i).ops.map rel) (rel i))
    (w : Whole s m) (v : Nat) :
    ∃ C : Settled ([] : Dif) (s.sem v),
      (v ∈ m.g.nodes → v ∉ m.g.decisions → C.PropagatesWith ((s.row v).ops.map rel) (rel v)) ∧
      (v ∈ m.g.decisions → ∃ L : DecisionLaw (s.sem v) (s.row v).step, C = L.settled ∧
        ∀ t x y, L.Rel t x y → rel v x ((s.sem v).diff t) y) := by
  by_cases hv : v < s.length
  · by_cases hd : (s.row v).decision = true
    · obtain ⟨L, hL⟩ := (h v hv).1 hd
      exact ⟨L.settled, fun _ hn => absurd ((w.decisions v hv).2 hd) hn, fun _ => ⟨L, rfl, hL⟩⟩
    · obtain ⟨C, hC⟩ := (h v hv).2 (by simpa using hd)
      exact ⟨C, fun _ _ => hC, fun hd' => absurd ((w.decisions v hv).1 hd') hd⟩
  · have hr : s.row v = .unused := by
      unfold row
      rw [List.getD_eq_getElem?_getD, List.getElem?_eq_none (by omega)]
      rfl
    have : ∀ r, r = Row.unused → ∃ C : Settled ([] : Dif) r.node, True := by
      rintro _ rfl
      exact ⟨(constantContract _).toSettled, trivial⟩
    obtain ⟨C, _⟩ := this _ hr
    exact ⟨C, fun hn => absurd ((w.nodes v).1 hn) hv, fun hd => absurd (w.dec_lt hd) hv⟩

theorem Complete.lawful {rel : Nat → Val → Dif → Val → Prop} (h : Complete full P s)
    (hob : ∀ i < s.length, (s.row i).Obeys ((s.row i).ops.map rel) (rel i)) (hq : ∀ v x, rel v x [] x) (w : Whole s m) (hs : m.g.sorted = true) :
    ∃ C : ∀ v, Settled ([] : Dif) (s.sem v), Lawful rel [] m.g s.sem C s.act := by
  choose C hC using obeys_settled hob w
  refine ⟨C, ⟨fun v hv hn => by rw [w.preds v ((w.nodes v).1 hv)]; exact (hC v).1 hv hn, hq, ?_, ?_, ?_, ?_⟩⟩
  · intro d hd s x y hp hy
    obtain ⟨L, e, _⟩ := (hC d).2 hd
    have hv := hp.view
    rw [L.same] at hv
    exact L.idle hv hy
  · intro d hd x
    obtain ⟨L, e, _⟩ := (hC d).2 hd
    exact L.same x
  · intro A hA
    exact h.total w hs hA
  · intro d hd ms s x s' hc hx e
    obtain ⟨L, eL, hL⟩ := (hC d).2 hd
    rw [eL] at hc ⊢
    obtain ⟨x', hx', hr, _⟩ := hc
    obtain rfl : x = x' := by simpa using hx'
    obtain ⟨z, hz, hr'⟩ := L.moves ms hr hx e
    obtain ⟨p1, _, p3, p4⟩ := L.pending hr'
    exact ⟨z, hz, p1, by rw [L.same, L.same]; exact hL _ _ _ hr', p3, p4⟩

theorem Runs.congr {A' : Nat → Val} (hr : Runs P s A vals) (h : ∀ i < s.length, P i → (s.row i).decision = true → A i = A' i) :
    Runs P s A' vals := by
  intro i hi hp
  rw [hr i hi hp]
  unfold Row.operands
  by_cases hd : (s.row i).decision = true
  · rw [if_pos hd, if_pos hd, h i hi hp hd]
  · rw [if_neg hd, if_neg hd]

/-- What has to be shown of a generated model. -/
structure Proves {α : Type} (full : Prop) (P : Nat → Prop) (M : Generated) (p : Problem α) : Prop where
  complete : Complete full P M.rows
  objective : ∀ o ∈ M.objective, o < M.rows.length
  constraints : ∀ c ∈ M.constraints, c < M.rows.length
  solution : ∀ A, Admits P M.rows A → ∃ a, p.valid a ∧ ∀ d < M.rows.length, (M.rows.row d).decision = true → A d = p.values a d
  valid : ∀ a, p.valid a → Admits P M.rows (p.values a)
  energy : ∀ a, p.valid a → ∀ vals, Runs (fun _ => True) M.rows (p.values a) vals →
    ∃ o, M.objective = some o ∧ (single (vals o)).front = .ok (p.cost a)
  feasible : ∀ a, p.valid a → ∀ vals, Runs (fun _ => True) M.rows (p.values a) vals →
    ∃ b, feasibleLoop vals M.constraints = .ok b ∧ (b = true ↔ p.feasible a)

theorem decided (h : Complete full P s) {d : Nat} (hd : d < s.length) (hdec : (s.row d).decision = true) : P d := by
  by_contra hP
  rw [h.plain d hd hP] at hdec
  cases hdec

/-- Values that fit represent a solution. -/
theorem Proves.represents {α : Type} {M : Generated} {p : Problem α} (h : Proves full P M p) (w : Whole M.rows m)
    (ho : m.g.objective = M.objective) (hc : m.g.constraints = M.constraints) (hA : M.rows.Accepts m.g A)
    (he : Evaluates m.g M.rows.sem A vals) (hsame : ∀ d ∈ m.g.decisions, vals d = A d) :
    ∀ a, p.valid a → (∀ d < M.rows.length, (M.rows.row d).decision = true → A d = p.values a d) → p.Represents m.g vals a := by
  intro a ha hd
  have hr : Runs (fun _ => True) M.rows (p.values a) vals := (w.runs he).congr fun i hi _ hdi => hd i hi hdi
  obtain ⟨o, h1, h2⟩ := h.energy a ha vals hr
  refine ⟨ha, fun d hdm => ?_, ?_, ?_⟩
  · rw [hsame d hdm]
    exact hd d (w.dec_lt hdm) ((w.decisions d (w.dec_lt hdm)).1 hdm)
  · unfold Graph.energy
    rw [ho, h1]
    exact h2
  · unfold Graph.feasible
    rw [hc]
    exact h.feasible a ha vals hr

theorem front_congr {v w : Val} (h : v = w) : (single v).front = (single w).front := by rw [h]

theorem feasibleLoop_congr {f f' : Nat → Val} : ∀ {cs : List Nat}, (∀ c ∈ cs, f c = f' c) → feasibleLoop f cs = feasibleLoop f' cs
  | [], _ => rfl
  | c :: cs, h => by
    unfold feasibleLoop
    rw [h c (by simp), feasibleLoop_congr fun d hd => h d (by simp [hd])]

/-- Representing depends on the symbols of the model only. -/
theorem represents_congr {α : Type} {p : Problem α} {g : Graph} (w : g.WF) {f f' : Nat → Val} (h : ∀ v ∈ g.nodes, f v = f' v) {a : α}
    (hr : p.Represents g f a) : p.Represents g f' a := by
  refine ⟨hr.valid, fun d hd => ?_, ?_, ?_⟩
  · rw [← h d (w.decMem d hd)]; exact hr.decisions d hd
  · rw [← hr.energy]
    unfold Graph.energy
    cases ho : g.objective with
    | none => rfl
    | some o => exact front_congr (h o (w.objMem o (by rw [ho]; rfl))).symm
  · obtain ⟨b, e, hb⟩ := hr.feasible
    refine ⟨b, ?_, hb⟩
    rw [← e]
    unfold Graph.feasible
    exact feasibleLoop_congr fun c hc => (h c (w.conMem c hc)).symm

/-- States that can be set. -/
theorem Proves.start {α : Type} {M : Generated} {p : Problem α} (h : Proves full P M p) (w : Whole M.rows m)
    (hs : m.g.sorted = true)
    (ho : m.g.objective = M.objective) (hc : m.g.constraints = M.constraints) (hA : M.rows.Accepts m.g A) :
    ∃ st, M.rows.Starts m.g A st ∧ ∀ a, p.valid a → (∀ d < M.rows.length, (M.rows.row d).decision = true → A d = p.values a d) →
      p.Represents m.g (M.rows.shown st) a := by
  choose C hC using h.complete.exists_settled w
  obtain ⟨vals, hE⟩ := h.complete.total w hs hA
  obtain ⟨f, e, hF, hall⟩ := initAll_spec C w.inv.wf hs (dflt := A) hE
    (st := PState.empty) ⟨by simp [PState.empty], by simp [PState.empty], by simp [PState.empty]⟩
    (fun d _ _ => rfl)
  have hinh : ∀ v, Nonempty (M.rows.sem v).σ := by
    intro v
    by_cases hv : v ∈ m.g.nodes
    · obtain ⟨x, _⟩ := Option.isSome_iff_exists.1 (hall v hv)
      exact ⟨x⟩
    · have hr : M.rows.row v = .unused := by
        unfold row
        rw [List.getD_eq_getElem?_getD, List.getElem?_eq_none (by
          by_contra hlt
          exact hv ((w.nodes v).2 (by omega)))]
        rfl
      have : ∀ r, r = Row.unused → Nonempty r.node.σ := by
        rintro _ rfl
        exact ⟨()⟩
      exact this _ hr
  choose inh _ using fun v => Classical.exists_true_of_nonempty (hinh v)
  have hview : ∀ v ∈ m.g.nodes, M.rows.shown (fun v => (f.cell v).getD (inh v)) v = vals v := by
    intro v hv
    obtain ⟨x, hx⟩ := Option.isSome_iff_exists.1 (hall v hv)
    show (M.rows.sem v).view ((f.cell v).getD (inh v)) = _
    rw [hx]
    exact ((C v).view (hF.clean v hv x hx)).trans (hE.value v hv).symm
  refine ⟨fun v => (f.cell v).getD (inh v), ⟨f, e, ?_⟩, ?_⟩
  · intro v hv
    obtain ⟨x, hx⟩ := Option.isSome_iff_exists.1 (hall v hv)
    show f.cell v = some ((f.cell v).getD (inh v))
    rw [hx]
    rfl
  · intro a ha hd
    refine represents_congr w.inv.wf (fun v hv => (hview v hv).symm) (h.represents w ho hc hA hE ?_ a ha hd)
    intro d hdm
    obtain ⟨L, _⟩ := (hC d).2 hdm
    rw [hE.value d (w.inv.wf.decMem d hdm)]
    unfold Verif.operands
    rw [if_pos hdm, L.same]

theorem Proves.encodes {α : Type} {M : Generated} {p : Problem α} (h : Proves full P M p) :
    ∃ m, M.Encodes p m ∧ Whole M.rows m ∧ m.g.objective = M.objective ∧ m.g.constraints = M.constraints := by
  obtain ⟨m, e, hl, w, ho, hc⟩ := Generated.built h.complete h.objective h.constraints
  have hs := (C18_lock_count e).2.2 hl
  have hacc : ∀ a, p.valid a → M.rows.Accepts m.g (p.values a) := by
    intro a ha d hd
    have hlt := w.dec_lt hd
    have hdec := (w.decisions d hlt).1 hd
    exact h.valid a ha d hlt (decided h.complete hlt hdec) hdec
  refine ⟨m, ⟨e, hl, ?_, ?_⟩, w, ho, hc⟩
  · intro a ha
    obtain ⟨st, h1, h2⟩ := h.start w hs ho hc (hacc a ha)
    exact ⟨hacc a ha, st, h1, h2 a ha fun _ _ _ => rfl⟩
  · intro A hA
    obtain ⟨a, ha, hd⟩ := h.solution A (w.admits hA)
    obtain ⟨st, h1, h2⟩ := h.start w hs ho hc hA
    exact ⟨st, a, h1, h2 a ha hd⟩

theorem Proves.tracks_of {α : Type} {M : Generated} {p : Problem α} {rel : Val → Dif → Val → Prop} (h : Proves full P M p)
    (hob : ∀ i < M.rows.length, (M.rows.row i).Obeys ((M.rows.row i).ops.map fun _ => rel) rel) (hq : ∀ x, rel x [] x) : ∃ m, M.Tracks p m := by
  obtain ⟨m, hE, w, ho, hc⟩ := h.encodes
  refine ⟨m, hE, ?_⟩
  have hs := (C18_lock_count hE.built).2.2 hE.locked
  obtain ⟨C, L⟩ := h.complete.lawful (rel := fun _ => rel) hob (fun _ => hq) w hs
  have hw := w.inv.wf
  -- a state in step represents a solution
  have hstep : ∀ {A vals : Nat → Val} {st : St M.rows.sem}, InStep m.g M.rows.sem C A vals st →
      ∃ a, p.Represents m.g (M.rows.shown st) a := by
    intro A vals st hin
    obtain ⟨a, ha, hd⟩ := h.solution A (w.admits hin.1)
    refine ⟨a, represents_congr hw (fun v hv => (hin.view hv).symm) (h.represents w ho hc hin.1 hin.2.1 ?_ a ha hd)⟩
    intro d hdm
    rw [← hin.view (hw.decMem d hdm), hin.assigned hw L.same hdm]
  rintro A st hA ⟨f, e, hf⟩ ps hps r hr
  obtain ⟨f', vals, e', _, _, hin⟩ := inStep_of_init hE.built hE.locked L hA
  rw [e] at e'
  obtain rfl : f = f' := by simpa using e'
  obtain ⟨hm, A1, vals1, h1⟩ := history_spec hE.built hE.locked L ps hps (hin st hf) hr
  refine ⟨hstep h1, ?_⟩
  intro q hq moved hmv
  obtain ⟨A2, vals2, stP, st', k1, k2, k3, k4, k5, k6, k7⟩ := proposal_spec hE.built hE.locked L h1 q hq hmv
  have hr' : r = (r.1, fun _ => false) := by rw [← hm]
  have hsame2 : ∀ d ∈ m.g.decisions, vals2 d = A2 d := by
    intro d hdm
    rw [k2.value d (hw.decMem d hdm)]
    unfold Verif.operands
    rw [if_pos hdm, L.same d hdm]
  refine ⟨stP, (st', fun _ => false), ?_, ?_, ?_, ?_⟩
  · unfold history at hr ⊢
    rw [List.foldlM_append, hr, Res.ok_bind]
    simp only [List.foldlM_cons, List.foldlM_nil]
    rw [hr', k5]
    rfl
  · obtain ⟨a, ha, hd⟩ := h.solution A2 (w.admits k1)
    exact ⟨a, represents_congr hw (fun v hv => (k4 v hv).symm) (h.represents w ho hc k1 k2 hsame2 a ha hd)⟩
  · intro d hdm
    show (M.rows.sem d).view (stP d) = (M.rows.sem d).view (moved d)
    rw [k4 d (hw.decMem d hdm), hsame2 d hdm, k3 d hdm]
  · intro v hv
    cases ha : q.accept stP with
    | true =>
      rw [if_pos rfl]
      exact ((k6 ha).view hv).trans (k4 v hv).symm
    | false =>
      rw [if_neg (by simp)]
      exact ((k7 ha).view hv).trans (h1.view hv).symm

theorem Proves.tracks {α : Type} {M : Generated} {p : Problem α} (h : Proves True P M p) : ∃ m, M.Tracks p m :=
  h.tracks_of (fun _ hi => h.complete.obeys hi) ValRel.quiet

end Script
end Verif
