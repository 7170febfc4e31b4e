import Verif.Props.Descendants
import Verif.Model.Propose
import Verif.Lemmas.Related

set_option linter.unusedSectionVars false
set_option linter.unusedSimpArgs false
set_option linter.unusedVariables false

/-!
# C21: proposals are atomic
-/

namespace Verif

open Graph PyModel

variable {V D : Type} {rel : Nat → V → D → V → Prop} {quiet : D}

/-- The operands of a symbol: a decision has the value assigned to it, other symbols have their
predecessors' values. -/
def operands (g : Graph) (assigned vals : Nat → V) (v : Nat) : List V :=
  if v ∈ g.decisions then [assigned v] else (g.mem v).preds.map vals

/-- `vals` are the values of all symbols when the decisions are assigned the values `assigned`: every
symbol has the value that its meaning gives for its operands, which it accepts. -/
structure Evaluates (g : Graph) (sem : Nat → NodeSem V D) (assigned vals : Nat → V) : Prop where
  value : ∀ v ∈ g.nodes, vals v = (sem v).f (operands g assigned vals v)
  accepted : ∀ v ∈ g.nodes, (sem v).ok (operands g assigned vals v)

/-- Every symbol is in step with its operands and nothing is pending. -/
def AllClean (g : Graph) (sem : Nat → NodeSem V D) (C : ∀ v, Settled quiet (sem v))
    (assigned vals : Nat → V) (st : St sem) : Prop :=
  ∀ v ∈ g.nodes, (C v).Clean (st v) (operands g assigned vals v)

namespace Graph

theorem ins_of {g : Graph} {sem : Nat → NodeSem V D} {st : St sem} {vals0 vals1 : Nat → V}
    (ps : List Nat) (h : ∀ p ∈ ps, (sem p).view (st p) = vals1 p ∧
      rel p (vals0 p) ((sem p).diff (st p)) (vals1 p)) :
    InsWith (ps.map rel) (ps.map vals0) (ps.map fun p => ((sem p).view (st p), (sem p).diff (st p)))
      (ps.map vals1) := by
  induction ps with
  | nil => exact .nil
  | cons p ps ih =>
    simp only [List.map_cons]
    rw [(h p List.mem_cons_self).1]
    exact .cons (h p List.mem_cons_self).2 (ih fun q hq => h q (List.mem_cons_of_mem _ hq))

variable {g : Graph} {sem : Nat → NodeSem V D} (C : ∀ v, Settled quiet (sem v))

/-- Untouched symbols keep their value. -/
theorem unchanged_value (w : g.WF) (hs : g.sorted = true) {a0 a1 vals0 vals1 : Nat → V}
    (h0 : Evaluates g sem a0 vals0) (h1 : Evaluates g sem a1 vals1) {L : List Nat}
    (hclosed : ∀ v ∈ g.nodes, v ∈ L → ∀ u ∈ g.succsOf v, u ∈ L)
    (hdec : ∀ d ∈ g.decisions, d ∉ L → a0 d = a1 d) :
    ∀ v ∈ g.nodes, v ∉ L → operands g a0 vals0 v = operands g a1 vals1 v ∧ vals0 v = vals1 v := by
  have key : ∀ (n : Nat) v, v ∈ g.nodes → (g.topoOf v).toNat < n → v ∉ L →
      operands g a0 vals0 v = operands g a1 vals1 v ∧ vals0 v = vals1 v := by
    intro n
    induction n with
    | zero => intro v _ h; omega
    | succ n ih =>
      intro v hv hn hL
      have hop : operands g a0 vals0 v = operands g a1 vals1 v := by
        unfold operands
        by_cases hd : v ∈ g.decisions
        · rw [if_pos hd, if_pos hd, hdec v hd hL]
        · rw [if_neg hd, if_neg hd]
          apply List.map_congr_left
          intro p hp
          have hpn := w.predMem v hv p hp
          have hsu := (w.mem_link hpn hv).2 hp
          have hlt := (w.topological hs).edge p hpn v hsu
          have h0 := ((w.topological hs).range p hpn).1
          exact (ih p hpn (by omega) (fun hpL => hL (hclosed p hpn hpL v hsu))).2
      exact ⟨hop, by rw [h0.value v hv, h1.value v hv, hop]⟩
  exact fun v hv => key _ v hv (Nat.lt_succ_self _)

/-- The state of a proposal while propagating: `done` symbols are pending, the others clean. -/
structure Halfway (rel : Nat → V → D → V → Prop) (g : Graph) (sem : Nat → NodeSem V D) (C : ∀ v, Settled quiet (sem v))
    (a0 a1 vals0 vals1 : Nat → V) (done : List Nat) (st : St sem) : Prop where
  pending : ∀ v ∈ g.nodes, v ∈ done →
    (C v).Pending (rel v) (st v) (operands g a0 vals0 v) (operands g a1 vals1 v)
  clean : ∀ v ∈ g.nodes, v ∉ done → (C v).Clean (st v) (operands g a0 vals0 v)

theorem propagateAll_spec (hC : ∀ v ∈ g.nodes, v ∉ g.decisions → (C v).PropagatesWith ((g.mem v).preds.map rel) (rel v))
    (hquiet : ∀ v x, rel v x quiet x) (w : g.WF) (hs : g.sorted = true)
    (hprop : ∀ d ∈ g.decisions, ∀ s x y, (C d).Pending (rel d) s [x] [y] → (sem d).ok [y] →
      (sem d).propagate s [] = .ok s)
    {a0 a1 vals0 vals1 : Nat → V} (h0 : Evaluates g sem a0 vals0) (h1 : Evaluates g sem a1 vals1)
    {L : List Nat} (hclosed : ∀ v ∈ g.nodes, v ∈ L → ∀ u ∈ g.succsOf v, u ∈ L)
    (hdecL : ∀ d ∈ g.decisions, d ∉ L → a0 d = a1 d)
    (todo done : List Nat) (hL : L = done ++ todo) (hmem : ∀ v ∈ L, v ∈ g.nodes)
    (hord : L.Pairwise (fun v w => g.topoOf v < g.topoOf w))
    (st : St sem)
    (hpend : ∀ v ∈ g.nodes, (v ∈ done ∨ (v ∈ L ∧ v ∈ g.decisions)) →
      (C v).Pending (rel v) (st v) (operands g a0 vals0 v) (operands g a1 vals1 v))
    (hclean : ∀ v ∈ g.nodes, ¬ (v ∈ done ∨ (v ∈ L ∧ v ∈ g.decisions)) →
      (C v).Clean (st v) (operands g a0 vals0 v)) :
    ∃ st', propagateAll g sem st todo = .ok st' ∧ Halfway rel g sem C a0 a1 vals0 vals1 L st' := by
  induction todo generalizing done st with
  | nil =>
    simp at hL; subst hL
    refine ⟨st, rfl, fun v hv hd => hpend v hv (Or.inl hd), fun v hv hd => hclean v hv ?_⟩
    rintro (h | h)
    · exact hd h
    · exact hd h.1
  | cons v todo ih =>
    have hvL : v ∈ L := by rw [hL]; simp
    have hv := hmem v hvL
    have hunch := unchanged_value w hs h0 h1 hclosed hdecL
    have hstep : ∃ s', (sem v).propagate (st v)
        ((g.mem v).preds.map fun p => ((sem p).view (st p), (sem p).diff (st p))) = .ok s' ∧
        (C v).Pending (rel v) s' (operands g a0 vals0 v) (operands g a1 vals1 v) := by
      by_cases hd : v ∈ g.decisions
      · have : (g.mem v).preds = [] := w.decPreds v hd
        rw [this]
        have hp := hpend v hv (Or.inr ⟨hvL, hd⟩)
        have ho := h1.accepted v hv
        simp only [operands, if_pos hd] at hp ho ⊢
        exact ⟨st v, hprop v hd _ _ _ hp ho, hp⟩
      · have hvd : ¬ (v ∈ done ∨ (v ∈ L ∧ v ∈ g.decisions)) := by
          rintro (h | h)
          · have hnd : (done ++ v :: todo).Nodup := by
              rw [← hL]
              exact hord.imp (fun {a b} h he => by subst he; omega)
            rw [List.nodup_append] at hnd
            exact hnd.2.2 v h v List.mem_cons_self rfl
          · exact hd h.2
        have hc := hclean v hv hvd
        have hins : InsWith ((g.mem v).preds.map rel) ((g.mem v).preds.map vals0)
            ((g.mem v).preds.map fun p => ((sem p).view (st p), (sem p).diff (st p)))
            ((g.mem v).preds.map vals1) := by
          apply ins_of (g := g)
          intro p hp
          have hpn := w.predMem v hv p hp
          have hsu := (w.mem_link hpn hv).2 hp
          have hlt := (w.topological hs).edge p hpn v hsu
          by_cases hpL : p ∈ L
          · have hpd : p ∈ done := by
              rw [hL] at hpL
              rcases List.mem_append.1 hpL with h | h
              · exact h
              · exfalso
                rw [hL] at hord
                have h2 := (List.pairwise_append.1 hord).2.1
                rcases List.mem_cons.1 h with rfl | h
                · omega
                · have := (List.pairwise_cons.1 h2).1 p h
                  omega
            have := hpend p hpn (Or.inl hpd)
            refine ⟨by rw [this.view, h1.value p hpn], ?_⟩
            rw [h0.value p hpn, h1.value p hpn]
            exact this.diff
          · have hcp := hclean p hpn (by
              rintro (h | h)
              · exact hpL (by rw [hL]; exact List.mem_append_left _ h)
              · exact hpL h.1)
            have := hunch p hpn hpL
            refine ⟨by rw [(C p).view hcp, ← h0.value p hpn, this.2], ?_⟩
            rw [(C p).diff hcp, this.2]
            exact hquiet _ _
        have hops0 : operands g a0 vals0 v = (g.mem v).preds.map vals0 := if_neg hd
        have hops1 : operands g a1 vals1 v = (g.mem v).preds.map vals1 := if_neg hd
        have ho0 := h0.accepted v hv
        have ho1 := h1.accepted v hv
        rw [hops0] at hc ho0
        rw [hops1] at ho1
        obtain ⟨s', e, p1, p2, p3, p4⟩ := hC v hv hd hc ho0 ho1 hins
        refine ⟨s', e, ?_⟩
        rw [hops0, hops1]
        exact ⟨p1, p2, p3, p4⟩
    obtain ⟨s', e, hp⟩ := hstep
    obtain ⟨st', e2, hh⟩ := ih (done ++ [v]) (by rw [hL]; simp) (st.set v s') (by
      intro u hu hcase
      by_cases huv : u = v
      · subst huv; rw [St.set_same]; exact hp
      · rw [St.set_ne _ _ huv]
        refine hpend u hu ?_
        rcases hcase with h | h
        · exact Or.inl (by simpa [huv] using h)
        · exact Or.inr h) (by
      intro u hu hcase
      have huv : u ≠ v := fun he => hcase (Or.inl (by simp [he]))
      rw [St.set_ne _ _ huv]
      refine hclean u hu (fun h => hcase ?_)
      rcases h with h | h
      · exact Or.inl (List.mem_append_left _ h)
      · exact Or.inr h)
    refine ⟨st', ?_, hh⟩
    simp only [propagateAll, List.foldlM_cons, propagate1, e, Res.ok_bind]
    exact e2

theorem finish_spec [DecidableEq D] (pick : (v : Nat) → (sem v).σ → Res (sem v).σ)
    (target : Nat → List V) (L : List Nat) (hnd : L.Nodup) (st : St sem)
    (hp : ∀ v ∈ L, ∃ c, pick v (st v) = .ok c ∧ (C v).Clean c (target v)) :
    ∃ st', L.foldlM (fun st v => do let s ← pick v (st v); .ok (St.set st v s)) st = .ok st' ∧
      (∀ v ∈ L, (C v).Clean (st' v) (target v)) ∧ ∀ v, v ∉ L → st' v = st v := by
  induction L generalizing st with
  | nil => exact ⟨st, rfl, by simp, fun _ _ => rfl⟩
  | cons v L ih =>
    obtain ⟨hv, hnd'⟩ := List.nodup_cons.1 hnd
    obtain ⟨c, e, hc⟩ := hp v List.mem_cons_self
    obtain ⟨st', e2, h1, h2⟩ := ih hnd' (st.set v c) (by
      intro u hu
      have huv : u ≠ v := fun he => hv (he ▸ hu)
      rw [St.set_ne _ _ huv]
      exact hp u (List.mem_cons_of_mem _ hu))
    refine ⟨st', ?_, ?_, ?_⟩
    · simp only [List.foldlM_cons, e, Res.ok_bind]
      exact e2
    · intro u hu
      rcases List.mem_cons.1 hu with rfl | hu
      · rw [h2 u hv, St.set_same]; exact hc
      · exact h1 u hu
    · intro u hu
      simp only [List.mem_cons, not_or] at hu
      rw [h2 u hu.2, St.set_ne _ _ hu.1]

end Graph

/-- Proposals, where every symbol reports changes in its own way. -/
theorem propose_atomic [DecidableEq D] {ops : List ModelOp} {m : PyModel}
    (hr : PyModel.new.run ops = .ok m) (hl : 0 < lockDepth ops)
    {sem : Nat → NodeSem V D} (C : ∀ v, Settled quiet (sem v))
    (hC : ∀ v ∈ m.g.nodes, v ∉ m.g.decisions → (C v).PropagatesWith ((m.g.mem v).preds.map rel) (rel v))
    (hquiet : ∀ v x, rel v x quiet x)
    (hprop : ∀ d ∈ m.g.decisions, ∀ s x y, (C d).Pending (rel d) s [x] [y] → (sem d).ok [y] →
      (sem d).propagate s [] = .ok s)
    {a0 a1 vals0 vals1 : Nat → V}
    (h0 : Evaluates m.g sem a0 vals0) (h1 : Evaluates m.g sem a1 vals1)
    {changed : List Nat} (hnd : changed.Nodup) (hch : ∀ d ∈ changed, d ∈ m.g.decisions)
    (hrest : ∀ d ∈ m.g.decisions, d ∉ changed → a0 d = a1 d)
    {st : St sem}
    (hmoved : ∀ d ∈ changed, (C d).Pending (rel d) (st d) [a0 d] [a1 d])
    (hst : ∀ v ∈ m.g.nodes, v ∉ changed → (C v).Clean (st v) (operands m.g a0 vals0 v))
    (accept : St sem → Bool) :
    ∃ stProposed st', (∀ v ∈ m.g.nodes, (sem v).view (stProposed v) = vals1 v) ∧
      m.g.propose quiet sem st (fun _ => false) changed accept =
        .ok (st', fun _ => false, accept stProposed) ∧
      (accept stProposed = true → AllClean m.g sem C a1 vals1 st') ∧
      (accept stProposed = false → AllClean m.g sem C a0 vals0 st') := by
  have w := (reachable hr).wf
  have hs := (C18_lock_count hr).2.2 hl
  have hfree : ∀ s ∈ changed, ∀ t ∈ changed, ¬ ReachesPlus m.g.succsOf s t := by
    intro s hsm t ht hr
    have hcase : ∀ u v, ReachesPlus m.g.succsOf u v → u ∈ m.g.nodes → v ∈ m.g.nodes ∧ v ∉ m.g.decisions := by
      intro u v huv hu
      induction huv with
      | single hb => exact w.succ_not_dec hu _ hb
      | tail _ hb ih => exact w.succ_not_dec ih.1 _ hb
    exact (hcase s t hr (w.decMem s (hch s hsm))).2 (hch t ht)
  obtain ⟨L, e, hLn, hLr, hLo, hLm⟩ := descendants_spec w hs (fun s h => w.decMem s (hch s h)) hnd hfree
  have hclosed : ∀ v ∈ m.g.nodes, v ∈ L → ∀ u ∈ m.g.succsOf v, u ∈ L := by
    intro v _ hv u hu
    obtain ⟨d, hd, hrd⟩ := (hLr v).1 hv
    exact (hLr u).2 ⟨d, hd, Relation.ReflTransGen.tail hrd hu⟩
  have hdL : ∀ d ∈ m.g.decisions, (d ∈ L ↔ d ∈ changed) := by
    intro d hd
    rw [hLr]
    constructor
    · rintro ⟨s, hsm, hrs⟩
      rcases Relation.ReflTransGen.cases_tail hrs with h | ⟨u, hu, hb⟩
      · exact h ▸ hsm
      · exfalso
        have hun : u ∈ m.g.nodes := hLm u ((hLr u).2 ⟨s, hsm, hu⟩)
        exact (w.succ_not_dec hun d hb).2 hd
    · intro h; exact ⟨d, h, Relation.ReflTransGen.refl⟩
  have hdecL : ∀ d ∈ m.g.decisions, d ∉ L → a0 d = a1 d :=
    fun d hd hn => hrest d hd (fun h => hn ((hdL d hd).2 h))
  obtain ⟨stP, e2, hh⟩ := propagateAll_spec C hC hquiet w hs hprop h0 h1 hclosed hdecL L [] rfl hLm hLo st
    (by
      rintro v hv (h | ⟨h, hd⟩)
      · simp at h
      · have := hmoved v ((hdL v hd).1 h)
        simpa [operands, hd] using this)
    (by
      intro v hv hn
      apply hst v hv
      intro hc
      exact hn (Or.inr ⟨(hdL v (hch v hc)).2 hc, hch v hc⟩))
  have hunch := unchanged_value w hs h0 h1 hclosed hdecL
  refine ⟨stP, ?_⟩
  have hviews : ∀ v ∈ m.g.nodes, (sem v).view (stP v) = vals1 v := by
    intro v hv
    by_cases hvL : v ∈ L
    · rw [(hh.pending v hv hvL).view, h1.value v hv]
    · rw [(C v).view (hh.clean v hv hvL), (hunch v hv hvL).1, h1.value v hv]
  by_cases ha : accept stP = true
  · obtain ⟨st', e3, f1, f2⟩ := finish_spec C (fun v => (sem v).commit) (operands m.g a1 vals1) L hLn stP
      (fun v hv => (hh.pending v (hLm v hv) hv).commit)
    refine ⟨st', hviews, ?_, ?_, ?_⟩
    · have e3' : L.foldlM (commit1 sem) stP = .ok st' := e3
      have hd : ∀ v ∈ L, (sem v).diff (st' v) = quiet := fun v hv => (C v).diff (f1 v hv)
      simp only [propose, e, Res.ok_bind, e2, ha, if_true, commitAll, e3', guardUB]
      rw [if_pos hd]
      rfl
    · intro _ v hv
      by_cases hvL : v ∈ L
      · exact f1 v hvL
      · rw [f2 v hvL, ← (hunch v hv hvL).1]
        exact hh.clean v hv hvL
    · intro hf; rw [ha] at hf; cases hf
  · obtain ⟨st', e3, f1, f2⟩ := finish_spec C (fun v => (sem v).revert) (operands m.g a0 vals0) L hLn stP
      (fun v hv => (hh.pending v (hLm v hv) hv).revert)
    have ha' : accept stP = false := by simpa using ha
    refine ⟨st', hviews, ?_, ?_, ?_⟩
    · have e3' : L.foldlM (revert1 sem) stP = .ok st' := e3
      have hd : ∀ v ∈ L, (sem v).diff (st' v) = quiet := fun v hv => (C v).diff (f1 v hv)
      simp only [propose, e, Res.ok_bind, e2, ha', revertAll, e3', guardUB, Bool.false_eq_true, if_false]
      rw [if_pos hd]
      rfl
    · intro hf; exact absurd hf ha
    · intro _ v hv
      by_cases hvL : v ∈ L
      · exact f1 v hvL
      · rw [f2 v hvL]
        exact hh.clean v hv hvL

/-- C21.  In any locked model whose symbols keep their contract: let the model be in step with the
decisions' values `a0`; let some decisions have been moved to new values `a1` and the moves be
proposed.  Then the acceptance function is asked exactly once, about a state in which every symbol has
the value that follows from the new values; if it accepts, every symbol is afterwards in step with the
new values and nothing is pending; if it refuses, every symbol is again in step with the old values and
nothing is pending.  No marks are left behind. -/
theorem C21_propose_atomic [DecidableEq D] {rel : V → D → V → Prop} {ops : List ModelOp} {m : PyModel}
    (hr : PyModel.new.run ops = .ok m) (hl : 0 < lockDepth ops)
    {sem : Nat → NodeSem V D} (C : ∀ v, Settled quiet (sem v))
    (hC : ∀ v ∈ m.g.nodes, v ∉ m.g.decisions → (C v).Propagates rel) (hquiet : ∀ x, rel x quiet x)
    (hprop : ∀ d ∈ m.g.decisions, ∀ s x y, (C d).Pending rel s [x] [y] → (sem d).ok [y] →
      (sem d).propagate s [] = .ok s)
    {a0 a1 vals0 vals1 : Nat → V}
    (h0 : Evaluates m.g sem a0 vals0) (h1 : Evaluates m.g sem a1 vals1)
    {changed : List Nat} (hnd : changed.Nodup) (hch : ∀ d ∈ changed, d ∈ m.g.decisions)
    (hrest : ∀ d ∈ m.g.decisions, d ∉ changed → a0 d = a1 d)
    {st : St sem}
    (hmoved : ∀ d ∈ changed, (C d).Pending rel (st d) [a0 d] [a1 d])
    (hst : ∀ v ∈ m.g.nodes, v ∉ changed → (C v).Clean (st v) (operands m.g a0 vals0 v))
    (accept : St sem → Bool) :
    ∃ stProposed st', (∀ v ∈ m.g.nodes, (sem v).view (stProposed v) = vals1 v) ∧
      m.g.propose quiet sem st (fun _ => false) changed accept =
        .ok (st', fun _ => false, accept stProposed) ∧
      (accept stProposed = true → AllClean m.g sem C a1 vals1 st') ∧
      (accept stProposed = false → AllClean m.g sem C a0 vals0 st') := by
  exact propose_atomic (rel := fun _ => rel) hr hl C (fun v hv hn => Settled.Propagates.same (hC v hv hn) _) (fun _ => hquiet) hprop h0 h1 hnd hch
    hrest hmoved hst accept

end Verif
