import Verif.Props.Propose
import Verif.Model.LazyState

set_option linter.unusedSectionVars false
set_option linter.unusedSimpArgs false
set_option linter.unusedVariables false

/-!
# C39: lazily computed states are never stale
-/

namespace Verif

open Graph PyModel

variable {V D : Type} {rel : V → D → V → Prop} {quiet : D}

/-- Specification: what an operation does to the values of the decisions.  `set` assigns a value, resetting a
decision gives it its default value again; nothing else changes the decisions' values. -/
def StateOp.assign (g : Graph) (dflt A : Nat → V) : StateOp V → Nat → V
  | .set d x => upd A d x
  | .reset v => if v ∈ g.decisions then upd A v (dflt v) else A
  | _ => A

/-- Specification: the values of the decisions after a history. -/
def assignment (g : Graph) (dflt : Nat → V) (ops : List (StateOp V)) : Nat → V :=
  ops.foldl (StateOp.assign g dflt) dflt

/-- The operations name symbols of the model, and set decisions to values they accept. -/
def StateOp.Valid (g : Graph) (sem : Nat → NodeSem V D) : StateOp V → Prop
  | .set d x => d ∈ g.decisions ∧ (sem d).ok [x]
  | .reset v => v ∈ g.nodes
  | .read v => v ∈ g.nodes
  | _ => True

namespace Graph

/-- Every initialised entry is in step with the decisions' values, and so are its operands. -/
structure Fresh (g : Graph) (sem : Nat → NodeSem V D) (C : ∀ v, Settled quiet (sem v))
    (A vals : Nat → V) (st : PState sem) : Prop where
  inside : ∀ v ∈ g.nodes, (st.cell v).isSome → (g.mem v).topo < st.size
  clean : ∀ v ∈ g.nodes, ∀ s, st.cell v = some s → (C v).Clean s (operands g A vals v)
  preds : ∀ v ∈ g.nodes, (st.cell v).isSome → ∀ p ∈ (g.mem v).preds, (st.cell p).isSome

variable {g : Graph} {sem : Nat → NodeSem V D} (C : ∀ v, Settled quiet (sem v))

theorem Fresh.grow {A vals : Nat → V} {st : PState sem} (h : Fresh g sem C A vals st) (n : Nat) :
    Fresh g sem C A vals (st.grow n) :=
  ⟨fun v hv hs => by have := h.inside v hv hs; simp only [PState.grow]; omega, h.clean, h.preds⟩

theorem Fresh.ancestors (w : g.WF) {A vals : Nat → V} {st : PState sem} (h : Fresh g sem C A vals st)
    {v : Nat} (hv : v ∈ g.nodes) (hs : (st.cell v).isSome) :
    ∀ u ∈ g.nodes, Reaches g.succsOf u v → (st.cell u).isSome := by
  intro u hu hr
  induction hr using Relation.ReflTransGen.head_induction_on with
  | refl => exact hs
  | head hb hr ih =>
    rename_i a c
    have hc := w.succMem a hu c hb
    have := ih hc
    exact h.preds c hc this a ((w.mem_link hu hc).1 hb)

theorem reaches_iff (w : g.WF) {u v : Nat} (hu : u ∈ g.nodes) (hv : v ∈ g.nodes) :
    Reaches g.succsOf u v ↔ u = v ∨ ∃ p ∈ (g.mem v).preds, Reaches g.succsOf u p := by
  constructor
  · intro h
    rcases Relation.ReflTransGen.cases_tail h with h | ⟨p, hp, hb⟩
    · exact Or.inl h.symm
    · right
      have hpn : p ∈ g.nodes := by
        clear h hb
        induction hp with
        | refl => exact hu
        | tail _ hb ih => exact w.succMem _ ih _ hb
      exact ⟨p, (w.mem_link hpn hv).1 hb, hp⟩
  · rintro (rfl | ⟨p, hp, hr⟩)
    · exact Relation.ReflTransGen.refl
    · have hpn := w.predMem v hv p hp
      exact Relation.ReflTransGen.tail hr ((w.mem_link hpn hv).2 hp)

theorem readOperands_spec {dflt A vals : Nat → V} {st : PState sem} (w : g.WF)
    (h : Fresh g sem C A vals st) (hE : Evaluates g sem A vals) {v : Nat} (hv : v ∈ g.nodes)
    (hd : v ∈ g.decisions → A v = dflt v)
    (hp : ∀ p ∈ (g.mem v).preds, (st.cell p).isSome) :
    readOperands g sem dflt st v = .ok (operands g A vals v) := by
  unfold readOperands operands
  by_cases hdv : v ∈ g.decisions
  · rw [if_pos hdv, if_pos hdv, hd hdv]
  · rw [if_neg hdv, if_neg hdv]
    have hpn : ∀ p ∈ (g.mem v).preds, p ∈ g.nodes := w.predMem v hv
    generalize (g.mem v).preds = ps at hp hpn
    induction ps with
    | nil => simp
    | cons p ps ih =>
      obtain ⟨s, hs⟩ := Option.isSome_iff_exists.1 (hp p List.mem_cons_self)
      have hpm := hpn p List.mem_cons_self
      rw [List.mapM_cons, hs, ih (fun q hq => hp q (List.mem_cons_of_mem _ hq))
        (fun q hq => hpn q (List.mem_cons_of_mem _ hq))]
      simp [(C p).view (h.clean p hpm s hs), ← hE.value p hpm]

theorem Fresh.put {A vals : Nat → V} {st : PState sem} (w : g.WF) (h : Fresh g sem C A vals st)
    {v : Nat} (hv : v ∈ g.nodes) (hin : (g.mem v).topo < st.size) {s : (sem v).σ}
    (hc : (C v).Clean s (operands g A vals v)) (hp : ∀ p ∈ (g.mem v).preds, (st.cell p).isSome) :
    Fresh g sem C A vals (st.put v (some s)) := by
  have hmono : ∀ u, (st.cell u).isSome → ((st.put v (some s)).cell u).isSome := by
    intro u hu
    by_cases huv : u = v
    · subst huv; simp
    · rw [PState.put_ne _ _ huv]; exact hu
  refine ⟨fun u hu hs => ?_, fun u hu s' hs => ?_, fun u hu hs p hpu => ?_⟩
  · by_cases huv : u = v
    · subst huv; exact hin
    · rw [PState.put_ne _ _ huv] at hs; exact h.inside u hu hs
  · by_cases huv : u = v
    · subst huv
      rw [PState.put_same] at hs
      cases hs; exact hc
    · rw [PState.put_ne _ _ huv] at hs; exact h.clean u hu s' hs
  · by_cases huv : u = v
    · subst huv; exact hmono p (hp p hpu)
    · rw [PState.put_ne _ _ huv] at hs
      exact hmono p (h.preds u hu hs p hpu)

theorem recInit_spec (w : g.WF) (hs : g.sorted = true) {dflt A vals : Nat → V}
    (hE : Evaluates g sem A vals) (fuel : Nat) :
    ∀ (st : PState sem) (v : Nat), Fresh g sem C A vals st → v ∈ g.nodes →
      (∀ d ∈ g.decisions, st.cell d = none → A d = dflt d) → (g.mem v).topo < fuel →
      ∃ st', recInit g sem dflt fuel st v = .ok st' ∧ Fresh g sem C A vals st' ∧
        (∀ u ∈ g.nodes, (st'.cell u).isSome ↔ (st.cell u).isSome ∨ Reaches g.succsOf u v) ∧
        (∀ u, (st.cell u).isSome → st'.cell u = st.cell u) ∧
        (g.mem v).topo < st'.size ∧ st.size ≤ st'.size := by
  induction fuel with
  | zero =>
    intro st v _ hv _ hf
    have := ((w.topological hs).range v hv).1
    simp only [topoOf] at this
    omega
  | succ fuel ih =>
    intro st v hF hv hdef hf
    have h0 : 0 ≤ (g.mem v).topo := ((w.topological hs).range v hv).1
    by_cases hc : (st.cell v).isSome
    · refine ⟨st.grow ((g.mem v).topo.toNat + 1), ?_, hF.grow C _, ?_, fun _ _ => rfl, ?_, ?_⟩
      · rw [recInit, if_neg (by omega), if_pos hc]
      · intro u hu
        refine ⟨Or.inl, ?_⟩
        rintro (h | h)
        · exact h
        · exact hF.ancestors C w hv hc u hu h
      · simp only [PState.grow]; omega
      · simp only [PState.grow]; omega
    · -- all predecessors first
      have fold : ∀ (ps : List Nat) (st : PState sem), Fresh g sem C A vals st →
          (∀ p ∈ ps, p ∈ g.nodes ∧ (g.mem p).topo < fuel) →
          (∀ d ∈ g.decisions, st.cell d = none → A d = dflt d) →
          ∃ st', ps.foldlM (recInit g sem dflt fuel) st = .ok st' ∧ Fresh g sem C A vals st' ∧
            (∀ u ∈ g.nodes, (st'.cell u).isSome ↔
              (st.cell u).isSome ∨ ∃ p ∈ ps, Reaches g.succsOf u p) ∧
            (∀ u, (st.cell u).isSome → st'.cell u = st.cell u) ∧ st.size ≤ st'.size := by
        intro ps
        induction ps with
        | nil => intro st hF _ _; exact ⟨st, rfl, hF, by simp, fun _ _ => rfl, le_refl _⟩
        | cons p ps ihp =>
          intro st hF hps hdef
          obtain ⟨hpn, hpf⟩ := hps p List.mem_cons_self
          obtain ⟨st1, e1, hF1, hi1, hk1, _, hz1⟩ := ih st p hF hpn hdef hpf
          obtain ⟨st2, e2, hF2, hi2, hk2, hz2⟩ := ihp st1 hF1
            (fun q hq => hps q (List.mem_cons_of_mem _ hq)) (by
              intro d hd hn
              apply hdef d hd
              cases hx : st.cell d with
              | none => rfl
              | some s => have := hk1 d (by simp [hx]); rw [this, hx] at hn; cases hn)
          refine ⟨st2, by simp only [List.foldlM_cons, e1, Res.ok_bind, e2], hF2, ?_, ?_,
            le_trans hz1 hz2⟩
          · intro u hu
            rw [hi2 u hu, hi1 u hu]
            simp only [List.exists_mem_cons_iff, or_assoc]
          · intro u hx
            have h1 := hk1 u hx
            rw [hk2 u (by rw [h1]; exact hx), h1]
      have hps : ∀ p ∈ (g.mem v).preds, p ∈ g.nodes ∧ (g.mem p).topo < fuel := by
        intro p hp
        have hpn := w.predMem v hv p hp
        have := (w.topological hs).edge p hpn v ((w.mem_link hpn hv).2 hp)
        simp only [topoOf] at this
        exact ⟨hpn, by omega⟩
      obtain ⟨st1, e1, hF1, hi1, hk1, hz1⟩ := fold (g.mem v).preds (st.grow ((g.mem v).topo.toNat + 1))
        (hF.grow C _) hps hdef
      have hpsome : ∀ p ∈ (g.mem v).preds, (st1.cell p).isSome := fun p hp =>
        (hi1 p (hps p hp).1).2 (Or.inr ⟨p, hp, Relation.ReflTransGen.refl⟩)
      have hro := readOperands_spec C (dflt := dflt) w hF1 hE hv (fun hd => by
        apply hdef v hd
        simpa using hc) hpsome
      obtain ⟨s, es, hcl⟩ := (C v).init (hE.accepted v hv)
      have hsz : (g.mem v).topo < st1.size := by simp only [PState.grow] at hz1; omega
      refine ⟨st1.put v (some s), ?_, hF1.put C w hv hsz hcl hpsome, ?_, ?_, hsz, ?_⟩
      · rw [recInit, if_neg (by omega), if_neg hc, e1]
        simp only [Res.ok_bind, hro, es]
      · intro u hu
        rw [reaches_iff w hu hv]
        by_cases huv : u = v
        · subst huv; simp
        · rw [PState.put_ne _ _ huv, hi1 u hu]
          simp only [huv, false_or]
          rfl
      · intro u hx
        by_cases huv : u = v
        · subst huv; exact absurd hx hc
        · rw [PState.put_ne _ _ huv]; exact hk1 u hx
      · simp only [PState.put_size, PState.grow] at *; omega

theorem recReset_spec (w : g.WF) (hs : g.sorted = true) (fuel : Nat) :
    ∀ (st : PState sem) (v : Nat), (∀ u ∈ g.nodes, (st.cell u).isSome → (g.mem u).topo < st.size) →
      v ∈ g.nodes → (g.nodes.length : Int) < fuel + (g.mem v).topo →
      ∃ st', recReset g sem fuel st v = .ok st' ∧ st'.size = st.size ∧
        (∀ u ∈ g.nodes, Reaches g.succsOf v u → st'.cell u = none) ∧
        (∀ u ∈ g.nodes, ¬ Reaches g.succsOf v u → st'.cell u = st.cell u) ∧
        (∀ u, (st'.cell u).isSome → (st.cell u).isSome) := by
  induction fuel with
  | zero =>
    intro st v _ hv hf
    have := ((w.topological hs).range v hv).2
    simp only [topoOf] at this
    omega
  | succ fuel ih =>
    intro st v hin hv hf
    have h0 : 0 ≤ (g.mem v).topo := ((w.topological hs).range v hv).1
    have hreach : ∀ u, Reaches g.succsOf v u → u ∈ g.nodes ∧ (g.mem v).topo ≤ (g.mem u).topo := by
      intro u hu
      induction hu with
      | refl => exact ⟨hv, le_refl _⟩
      | tail _ hb ih =>
        have := (w.topological hs).edge _ ih.1 _ hb
        simp only [topoOf] at this
        exact ⟨w.succMem _ ih.1 _ hb, by omega⟩
    by_cases hsz : (st.size : Int) ≤ (g.mem v).topo
    · refine ⟨st, by rw [recReset, if_neg (by omega), if_pos hsz], rfl, ?_, fun _ _ _ => rfl,
        fun _ h => h⟩
      intro u hu hr
      cases hx : st.cell u with
      | none => rfl
      | some s =>
        have h1 := hin u hu (by simp [hx])
        have h2 := (hreach u hr).2
        omega
    · have fold : ∀ (ps : List Nat) (st : PState sem),
          (∀ u ∈ g.nodes, (st.cell u).isSome → (g.mem u).topo < st.size) →
          (∀ p ∈ ps, p ∈ g.nodes ∧ (g.nodes.length : Int) < fuel + (g.mem p).topo) →
          ∃ st', ps.foldlM (fun st u => if (g.mem u).topo < 0 then .ok st
              else recReset g sem fuel st u) st = .ok st' ∧ st'.size = st.size ∧
            (∀ u ∈ g.nodes, (∃ p ∈ ps, Reaches g.succsOf p u) → st'.cell u = none) ∧
            (∀ u ∈ g.nodes, ¬ (∃ p ∈ ps, Reaches g.succsOf p u) → st'.cell u = st.cell u) ∧
            (∀ u, (st'.cell u).isSome → (st.cell u).isSome) := by
        intro ps
        induction ps with
        | nil => intro st _ _; exact ⟨st, rfl, rfl, by simp, fun _ _ _ => rfl, fun _ h => h⟩
        | cons p ps ihp =>
          intro st hin hps
          obtain ⟨hpn, hpf⟩ := hps p List.mem_cons_self
          have hp0 : 0 ≤ (g.mem p).topo := ((w.topological hs).range p hpn).1
          obtain ⟨st1, e1, hz1, hc1, hk1, hm1⟩ := ih st p hin hpn hpf
          obtain ⟨st2, e2, hz2, hc2, hk2, hm2⟩ := ihp st1
            (fun u hu hx => by rw [hz1]; exact hin u hu (hm1 u hx))
            (fun q hq => hps q (List.mem_cons_of_mem _ hq))
          refine ⟨st2, ?_, hz2.trans hz1, ?_, ?_, fun u hx => hm1 u (hm2 u hx)⟩
          · simp only [List.foldlM_cons]
            rw [if_neg (by omega), e1, Res.ok_bind]
            exact e2
          · rintro u hu ⟨q, hq, hr⟩
            rcases List.mem_cons.1 hq with rfl | hq
            · have := hc1 u hu hr
              cases hx : st2.cell u with
              | none => rfl
              | some s => have := hm2 u (by simp [hx]); simp [hc1 u hu hr] at this
            · exact hc2 u hu ⟨q, hq, hr⟩
          · intro u hu hn
            rw [hk2 u hu (fun ⟨q, hq, hr⟩ => hn ⟨q, List.mem_cons_of_mem _ hq, hr⟩),
              hk1 u hu (fun hr => hn ⟨p, List.mem_cons_self, hr⟩)]
      obtain ⟨st', e, hz, hc, hk, hm⟩ := fold (g.mem v).succs (st.put v none) (by
          intro u hu hx
          by_cases huv : u = v
          · subst huv; simp at hx
          · rw [PState.put_ne _ _ huv] at hx; exact hin u hu hx) (by
          intro p hp
          have := (w.topological hs).edge v hv p hp
          simp only [topoOf] at this
          exact ⟨w.succMem v hv p hp, by push_cast at hf; omega⟩)
      have hr_iff : ∀ u, Reaches g.succsOf v u ↔ u = v ∨ ∃ p ∈ (g.mem v).succs, Reaches g.succsOf p u := by
        intro u
        constructor
        · intro h
          rcases Relation.ReflTransGen.cases_head h with h | ⟨p, hb, hr⟩
          · exact Or.inl h.symm
          · exact Or.inr ⟨p, hb, hr⟩
        · rintro (rfl | ⟨p, hb, hr⟩)
          · exact Relation.ReflTransGen.refl
          · exact Relation.ReflTransGen.head hb hr
      refine ⟨st', by rw [recReset, if_neg (by omega), if_neg hsz]; exact e, hz, ?_, ?_, ?_⟩
      · intro u hu hr
        rcases (hr_iff u).1 hr with rfl | h
        · cases hx : st'.cell u with
          | none => rfl
          | some s => have := hm u (by simp [hx]); simp at this
        · exact hc u hu h
      · intro u hu hn
        have huv : u ≠ v := fun he => hn ((hr_iff u).2 (Or.inl he))
        rw [hk u hu (fun h => hn ((hr_iff u).2 (Or.inr h))), PState.put_ne _ _ huv]
      · intro u hx
        have := hm u hx
        by_cases huv : u = v
        · subst huv; simp at this
        · rw [PState.put_ne _ _ huv] at this; exact this

/-- Values that do not depend on a decision do not change with it. -/
theorem operands_unreached (w : g.WF) (hs : g.sorted = true) {a0 a1 vals0 vals1 : Nat → V}
    (h0 : Evaluates g sem a0 vals0) (h1 : Evaluates g sem a1 vals1) {v : Nat}
    (hd : ∀ d ∈ g.decisions, d ≠ v → a0 d = a1 d) :
    ∀ u ∈ g.nodes, ¬ Reaches g.succsOf v u → operands g a0 vals0 u = operands g a1 vals1 u := by
  classical
  intro u hu hn
  refine (unchanged_value w hs h0 h1 (L := g.nodes.filter (fun u => decide (Reaches g.succsOf v u)))
    ?_ ?_ u hu ?_).1
  · intro x hx hxL y hy
    simp only [List.mem_filter, decide_eq_true_eq] at hxL ⊢
    exact ⟨w.succMem x hx y hy, Relation.ReflTransGen.tail hxL.2 hy⟩
  · intro d hdd hdL
    apply hd d hdd
    rintro rfl
    exact hdL (by simp only [List.mem_filter, decide_eq_true_eq]
                  exact ⟨w.decMem d hdd, Relation.ReflTransGen.refl⟩)
  · simp only [List.mem_filter, decide_eq_true_eq, not_and]
    exact fun _ => hn

/-- Resetting `v` and changing at most the value assigned to `v` keeps the rest fresh. -/
theorem resetState_spec (w : g.WF) (hs : g.sorted = true) {a0 a1 vals0 vals1 : Nat → V}
    (h0 : Evaluates g sem a0 vals0) (h1 : Evaluates g sem a1 vals1) {v : Nat} (hv : v ∈ g.nodes)
    (hd : ∀ d ∈ g.decisions, d ≠ v → a0 d = a1 d) {st : PState sem} (hF : Fresh g sem C a0 vals0 st) :
    ∃ st', resetState g sem st v = .ok st' ∧ Fresh g sem C a1 vals1 st' ∧ st'.cell v = none ∧
      (∀ u ∈ g.nodes, st'.cell u = none → st.cell u = none ∨ Reaches g.succsOf v u) ∧
      (g.mem v).topo < st'.size := by
  have hr0 := (w.topological hs).range v hv
  simp only [topoOf] at hr0
  obtain ⟨st', e, hz, hc, hk, hm⟩ := recReset_spec w hs (g.nodes.length + 1)
    (st.grow ((g.mem v).topo.toNat + 1)) v (fun u hu hx => (hF.grow C _).inside u hu hx) hv
    (by push_cast; omega)
  refine ⟨st', ?_, ?_, hc v hv Relation.ReflTransGen.refl, ?_, ?_⟩
  · unfold resetState
    rw [if_neg (by omega)]; exact e
  · have hstay : ∀ u ∈ g.nodes, (st'.cell u).isSome → ¬ Reaches g.succsOf v u := by
      intro u hu hx hr
      rw [hc u hu hr] at hx; simp at hx
    refine ⟨?_, ?_, ?_⟩
    · intro u hu hx
      rw [hz]
      exact (hF.grow C _).inside u hu (hm u hx)
    · intro u hu s hx
      have hn := hstay u hu (by simp [hx])
      rw [hk u hu hn] at hx
      rw [← operands_unreached w hs h0 h1 hd u hu hn]
      exact hF.clean u hu s hx
    · intro u hu hx p hp
      have hn := hstay u hu hx
      have hpn := w.predMem u hu p hp
      have hpn' : ¬ Reaches g.succsOf v p := fun hr =>
        hn (Relation.ReflTransGen.tail hr ((w.mem_link hpn hu).2 hp))
      rw [hk p hpn hpn']
      exact hF.preds u hu (hm u hx) p hp
  · intro u hu hx
    by_cases hr : Reaches g.succsOf v u
    · exact Or.inr hr
    · rw [hk u hu hr] at hx; exact Or.inl hx
  · rw [hz]; simp only [PState.grow]; omega

theorem initAll_spec (w : g.WF) (hs : g.sorted = true) {dflt A vals : Nat → V}
    (hE : Evaluates g sem A vals) {st : PState sem} (hF : Fresh g sem C A vals st)
    (hdef : ∀ d ∈ g.decisions, st.cell d = none → A d = dflt d) :
    ∃ st', initAll g sem dflt st = .ok st' ∧ Fresh g sem C A vals st' ∧
      (∀ v ∈ g.nodes, (st'.cell v).isSome) := by
  have fold : ∀ (todo done : List Nat) (st : PState sem), g.nodes = done ++ todo →
      Fresh g sem C A vals st → (∀ d ∈ g.decisions, st.cell d = none → A d = dflt d) →
      g.nodes.length ≤ st.size → (∀ v ∈ done, (st.cell v).isSome) →
      ∃ st', todo.foldlM (initOne g sem dflt) st = .ok st' ∧ Fresh g sem C A vals st' ∧
        (∀ v ∈ g.nodes, (st'.cell v).isSome) := by
    intro todo
    induction todo with
    | nil =>
      intro done st hn hF _ _ hdone
      simp at hn
      exact ⟨st, rfl, hF, fun v hv => hdone v (hn ▸ hv)⟩
    | cons v todo ih =>
      intro done st hn hF hdef hsz hdone
      have hv : v ∈ g.nodes := by rw [hn]; simp
      have hstep : ∃ st1, initOne g sem dflt st v = .ok st1 ∧ Fresh g sem C A vals st1 ∧
          (st1.cell v).isSome ∧ (∀ u, (st.cell u).isSome → st1.cell u = st.cell u) ∧
          st1.size = st.size := by
        by_cases hc : (st.cell v).isSome
        · exact ⟨st, by rw [initOne, if_pos hc], hF, hc, fun _ _ => rfl, rfl⟩
        · have hps : ∀ p ∈ (g.mem v).preds, (st.cell p).isSome := by
            intro p hp
            apply hdone
            have hpn := w.predMem v hv p hp
            have hlt := (w.topological hs).edge p hpn v ((w.mem_link hpn hv).2 hp)
            obtain ⟨i, hi, hpi⟩ := List.mem_iff_getElem.1 hpn
            have h1 := w.positions hs i hi
            have h2 : g.topoOf v = done.length := by
              have := w.positions hs done.length (by rw [hn]; simp)
              have hx : g.nodes[done.length]'(by rw [hn]; simp) = v := by simp [hn]
              rw [hx] at this; exact this
            rw [hpi] at h1
            have hid : i < done.length := by omega
            have : g.nodes[i] = done[i] := by
              simp only [hn]; rw [List.getElem_append_left hid]
            rw [← hpi, this]; exact List.getElem_mem hid
          have hro := readOperands_spec C (dflt := dflt) w hF hE hv (fun hd => by
            apply hdef v hd
            simpa using hc) hps
          obtain ⟨s, es, hcl⟩ := (C v).init (hE.accepted v hv)
          have hrng := ((w.topological hs).range v hv).2
          simp only [topoOf] at hrng
          refine ⟨st.put v (some s), ?_, hF.put C w hv (by omega) hcl hps, by simp, ?_, rfl⟩
          · rw [initOne, if_neg hc, hro]
            simp only [Res.ok_bind, es]
          · intro u hx
            by_cases huv : u = v
            · subst huv; exact absurd hx hc
            · rw [PState.put_ne _ _ huv]
      obtain ⟨st1, e1, hF1, hv1, hk1, hz1⟩ := hstep
      obtain ⟨st2, e2, hF2, hall⟩ := ih (done ++ [v]) st1 (by rw [hn]; simp) hF1 (by
          intro d hd hx
          apply hdef d hd
          cases hy : st.cell d with
          | none => rfl
          | some s => have := hk1 d (by simp [hy]); rw [this, hy] at hx; cases hx)
        (by rw [hz1]; exact hsz) (by
          intro u hu
          rcases List.mem_append.1 hu with hu | hu
          · rw [hk1 u (hdone u hu)]; exact hdone u hu
          · simp at hu; subst hu; exact hv1)
      exact ⟨st2, by simp only [List.foldlM_cons, e1, Res.ok_bind, e2], hF2, hall⟩
  obtain ⟨st', e, h1, h2⟩ := fold g.nodes [] (st.grow g.nodes.length) rfl (hF.grow C _) hdef
    (by simp only [PState.grow]; omega) (by simp)
  exact ⟨st', e, h1, h2⟩

theorem dropIntermediate_spec (w : g.WF) (hs : g.sorted = true) {A vals : Nat → V} {st : PState sem}
    (hF : Fresh g sem C A vals st) :
    Fresh g sem C A vals (dropIntermediate g sem st) ∧
      ∀ d ∈ g.decisions, (dropIntermediate g sem st).cell d = st.cell d := by
  have hdec : ∀ v ∈ g.nodes, (v ∈ g.decisions ↔ (g.mem v).topo < g.decisions.length) :=
    fun v hv => w.topo_dec hs hv
  refine ⟨⟨?_, ?_, ?_⟩, ?_⟩
  · intro v hv hx
    simp only [dropIntermediate] at hx ⊢
    split_ifs at hx with h
    · exact h
    · simp at hx
  · intro v hv s hx
    simp only [dropIntermediate] at hx
    split_ifs at hx with h
    exact hF.clean v hv s hx
  · intro v hv hx p hp
    simp only [dropIntermediate] at hx
    split_ifs at hx with h
    · have := w.decPreds v ((hdec v hv).2 h)
      simp only [predsOf] at this
      rw [this] at hp; simp at hp
    · simp at hx
  · intro d hd
    simp only [dropIntermediate]
    rw [if_pos ((hdec d (w.decMem d hd)).1 hd)]

/-- A state is up to date: the decisions have accepted values, those that are not initialised their defaults, and everything that is
initialised is in step with them. -/
def Kept (g : Graph) (sem : Nat → NodeSem V D) (C : ∀ v, Settled quiet (sem v)) (dflt A : Nat → V) (st : PState sem) : Prop :=
  (∀ d ∈ g.decisions, (sem d).ok [A d]) ∧ (∃ vals, Evaluates g sem A vals ∧ Fresh g sem C A vals st) ∧
    ∀ d ∈ g.decisions, st.cell d = none → A d = dflt d

/-- A decision is not reset with another symbol. -/
theorem not_reached (w : g.WF) {v e : Nat} (hv : v ∈ g.nodes) (he : e ∈ g.decisions) (hne : e ≠ v) :
    ¬ Reaches g.succsOf v e := by
  intro h
  rcases Relation.ReflTransGen.cases_tail h with h | ⟨u, hu, hb⟩
  · exact hne h
  · have hun : u ∈ g.nodes := by
      clear hb h
      induction hu with
      | refl => exact hv
      | tail _ hb ih => exact w.succMem _ ih _ hb
    exact (w.succ_not_dec hun e hb).2 he

theorem Kept.step (w : g.WF) (hs : g.sorted = true) {dflt A : Nat → V} {st : PState sem}
    (hdflt : ∀ d ∈ g.decisions, (sem d).ok [dflt d])
    (htotal : ∀ A : Nat → V, (∀ d ∈ g.decisions, (sem d).ok [A d]) → ∃ vals, Evaluates g sem A vals)
    (h : Kept g sem C dflt A st) {op : StateOp V} (hvo : op.Valid g sem) :
    ∃ st', stateStep g sem dflt st op = .ok st' ∧ Kept g sem C dflt (op.assign g dflt A) st' := by
  obtain ⟨hok, ⟨vals, hE, hF⟩, hdef⟩ := h
  cases op with
  | set d x =>
    obtain ⟨hd, hx⟩ := hvo
    have hdn := w.decMem d hd
    have hok1 : ∀ e ∈ g.decisions, (sem e).ok [upd A d x e] := by
      intro e he
      by_cases hed : e = d
      · subst hed; simpa using hx
      · rw [upd_ne _ _ hed]; exact hok e he
    obtain ⟨vals1, hE1⟩ := htotal _ hok1
    obtain ⟨st1, e1, hF1, hn1, hk1, hz1⟩ := resetState_spec C w hs hE hE1 hdn
      (fun e he hne => (upd_ne _ _ hne).symm) hF
    obtain ⟨s, es, hcl⟩ := (C d).init hx
    have hpr : (g.mem d).preds = [] := w.decPreds d hd
    have hF2 : Fresh g sem C (upd A d x) vals1 (st1.put d (some s)) := by
      apply hF1.put C w hdn hz1
      · simpa [operands, hd] using hcl
      · rw [hpr]; simp
    refine ⟨st1.put d (some s), ?_, hok1, ⟨vals1, hE1, hF2⟩, fun e he hne => ?_⟩
    · simp only [stateStep, setState, e1, es, Res.ok_bind]
    · have hed : e ≠ d := by rintro rfl; simp at hne
      rw [PState.put_ne _ _ hed] at hne
      show upd A d x e = _
      rw [upd_ne _ _ hed]
      exact hdef e he ((hk1 e (w.decMem e he) hne).resolve_right (not_reached w hdn he hed))
  | reset v =>
    have hv : v ∈ g.nodes := hvo
    by_cases hd : v ∈ g.decisions
    · have hok1 : ∀ e ∈ g.decisions, (sem e).ok [upd A v (dflt v) e] := by
        intro e he
        by_cases hed : e = v
        · subst hed; simpa using hdflt e he
        · rw [upd_ne _ _ hed]; exact hok e he
      obtain ⟨vals1, hE1⟩ := htotal _ hok1
      obtain ⟨st1, e1, hF1, hn1, hk1, hz1⟩ := resetState_spec C w hs hE hE1 hv
        (fun e he hne => (upd_ne _ _ hne).symm) hF
      have ha : StateOp.assign g dflt A (.reset v) = upd A v (dflt v) := if_pos hd
      rw [ha]
      refine ⟨st1, e1, hok1, ⟨vals1, hE1, hF1⟩, fun e he hne => ?_⟩
      by_cases hev : e = v
      · subst hev; simp
      · rw [upd_ne _ _ hev]
        exact hdef e he ((hk1 e (w.decMem e he) hne).resolve_right (not_reached w hv he hev))
    · obtain ⟨st1, e1, hF1, hn1, hk1, hz1⟩ := resetState_spec C w hs hE hE hv (fun e _ _ => rfl) hF
      have ha : StateOp.assign g dflt A (.reset v) = A := if_neg hd
      rw [ha]
      refine ⟨st1, e1, hok, ⟨vals, hE, hF1⟩, fun e he hne => ?_⟩
      exact hdef e he ((hk1 e (w.decMem e he) hne).resolve_right
        (not_reached w hv he fun e' => hd (e' ▸ he)))
  | read v =>
    have hv : v ∈ g.nodes := hvo
    have hrng := ((w.topological hs).range v hv).2
    simp only [topoOf] at hrng
    obtain ⟨st1, e1, hF1, hi1, hk1, _⟩ := recInit_spec C w hs hE (g.nodes.length + 1) st v hF hv hdef
      (by push_cast; omega)
    refine ⟨st1, e1, hok, ⟨vals, hE, hF1⟩, fun d hd hx => hdef d hd ?_⟩
    cases hy : st.cell d with
    | none => rfl
    | some s => have := hk1 d (by simp [hy]); rw [this, hy] at hx; cases hx
  | fill =>
    obtain ⟨st1, e1, hF1, hall⟩ := initAll_spec C w hs hE hF hdef
    refine ⟨st1, e1, hok, ⟨vals, hE, hF1⟩, fun d hd hx => ?_⟩
    have := hall d (w.decMem d hd)
    rw [hx] at this; simp at this
  | relock =>
    obtain ⟨hF1, hk1⟩ := dropIntermediate_spec C w hs hF
    exact ⟨_, rfl, hok, ⟨vals, hE, hF1⟩, fun d hd hx => hdef d hd (by rw [← hk1 d hd]; exact hx)⟩

theorem Kept.start {dflt : Nat → V} (hdflt : ∀ d ∈ g.decisions, (sem d).ok [dflt d])
    (htotal : ∀ A : Nat → V, (∀ d ∈ g.decisions, (sem d).ok [A d]) → ∃ vals, Evaluates g sem A vals) :
    Kept g sem C dflt dflt PState.empty := by
  obtain ⟨vals, hE⟩ := htotal dflt hdflt
  exact ⟨hdflt, ⟨vals, hE, by simp [PState.empty], by simp [PState.empty], by simp [PState.empty]⟩, fun _ _ _ => rfl⟩

theorem Kept.steps (w : g.WF) (hs : g.sorted = true) {dflt : Nat → V}
    (hdflt : ∀ d ∈ g.decisions, (sem d).ok [dflt d])
    (htotal : ∀ A : Nat → V, (∀ d ∈ g.decisions, (sem d).ok [A d]) → ∃ vals, Evaluates g sem A vals) :
    ∀ (ops : List (StateOp V)) {A : Nat → V} {st : PState sem}, Kept g sem C dflt A st → (∀ op ∈ ops, op.Valid g sem) →
    ∃ st', ops.foldlM (stateStep g sem dflt) st = .ok st' ∧ Kept g sem C dflt (ops.foldl (StateOp.assign g dflt) A) st'
  | [], _, st, h, _ => ⟨st, rfl, h⟩
  | op :: ops, _, _, h, hv => by
    obtain ⟨st1, e1, h1⟩ := Kept.step C w hs hdflt htotal h (hv op List.mem_cons_self)
    obtain ⟨st2, e2, h2⟩ := Kept.steps w hs hdflt htotal ops h1 fun o ho => hv o (List.mem_cons_of_mem _ ho)
    exact ⟨st2, by simp only [List.foldlM_cons, e1, Res.ok_bind, e2], h2⟩

/-- Reading a symbol. -/
theorem Kept.read (w : g.WF) (hs : g.sorted = true) {dflt A vals : Nat → V} {st : PState sem} (h : Kept g sem C dflt A st)
    (hE : Evaluates g sem A vals) {v : Nat} (hv : v ∈ g.nodes) :
    ∃ st' s, readState g sem dflt st v = .ok st' ∧ st'.cell v = some s ∧ (sem v).view s = vals v ∧ (sem v).diff s = quiet ∧
      Kept g sem C dflt A st' ∧
      ∀ u ∈ g.nodes, (st'.cell u).isSome ↔ (st.cell u).isSome ∨ Reaches (fun v => (g.mem v).succs) u v := by
  obtain ⟨hok, ⟨vals0, hE0, hF⟩, hdef⟩ := h
  have hrng := ((w.topological hs).range v hv).2
  simp only [topoOf] at hrng
  have same : ∀ u ∈ g.nodes, operands g A vals0 u = operands g A vals u := fun u hu =>
    (unchanged_value w hs hE0 hE (L := []) (fun _ _ h => by cases h) (fun _ _ _ => rfl) u hu (by simp)).1
  obtain ⟨st', e1, hF1, hi1, hk1, _⟩ := recInit_spec C w hs hE0 (g.nodes.length + 1) st v hF hv hdef
    (by push_cast; omega)
  obtain ⟨s, hsm⟩ := Option.isSome_iff_exists.1 ((hi1 v hv).2 (Or.inr Relation.ReflTransGen.refl))
  refine ⟨st', s, e1, hsm, ?_, (C v).diff (hF1.clean v hv s hsm), ⟨hok, ⟨vals0, hE0, hF1⟩, fun d hd hx => hdef d hd ?_⟩, hi1⟩
  · rw [(C v).view (hF1.clean v hv s hsm), same v hv, ← hE.value v hv]
  · cases hy : st.cell d with
    | none => rfl
    | some s => have := hk1 d (by simp [hy]); rw [this, hy] at hx; cases hx

end Graph

/-- C39.  In any locked model whose symbols keep their contract and can be evaluated for all values
their decisions accept: after any history of setting and resetting states, reading symbols,
initialising and relocking,
* reading a symbol succeeds and gives the value that follows from the decisions' current values;
* it initialises exactly the missing ones among the symbol and what it depends on. -/
theorem C39_never_stale {ops : List ModelOp} {m : PyModel}
    (hr : PyModel.new.run ops = .ok m) (hl : 0 < lockDepth ops)
    {sem : Nat → NodeSem V D} (C : ∀ v, Settled quiet (sem v)) {dflt : Nat → V}
    (hdflt : ∀ d ∈ m.g.decisions, (sem d).ok [dflt d])
    (htotal : ∀ A : Nat → V, (∀ d ∈ m.g.decisions, (sem d).ok [A d]) →
      ∃ vals, Evaluates m.g sem A vals)
    (hist : List (StateOp V)) (hvalid : ∀ op ∈ hist, op.Valid m.g sem) :
    ∃ st vals, hist.foldlM (stateStep m.g sem dflt) PState.empty = .ok st ∧
      Evaluates m.g sem (assignment m.g dflt hist) vals ∧
      ∀ v ∈ m.g.nodes, ∃ st' s, readState m.g sem dflt st v = .ok st' ∧ st'.cell v = some s ∧
        (sem v).view s = vals v ∧ (sem v).diff s = quiet ∧
        ∀ u ∈ m.g.nodes, (st'.cell u).isSome ↔
          (st.cell u).isSome ∨ Reaches (fun v => (m.g.mem v).succs) u v := by
  have w := (reachable hr).wf
  have hs := (C18_lock_count hr).2.2 hl
  obtain ⟨st, e, h⟩ := Kept.steps C w hs hdflt htotal hist (Kept.start C hdflt htotal) hvalid
  obtain ⟨vals, hE, _⟩ := h.2.1
  refine ⟨st, vals, e, hE, fun v hv => ?_⟩
  obtain ⟨st', s, h1, h2, h3, h4, _, h5⟩ := Kept.read C w hs h hE hv
  exact ⟨st', s, h1, h2, h3, h4, h5⟩

end Verif
