import Verif.Model.History
import Verif.Props.Propose
import Verif.Props.LazyState

set_option linter.unusedSectionVars false
set_option linter.unusedSimpArgs false
set_option linter.unusedVariables false

/-!
# Evaluation of whole models and histories of proposals, for any symbols that keep their contracts
-/

namespace Verif
namespace Graph

open PyModel

variable {V D M : Type} {rel : Nat → V → D → V → Prop} {quiet : D}

/-- `T v` are the values symbol `v` can have; symbols accept operands that have the values they can
have. -/
structure Typing (g : Graph) (sem : Nat → NodeSem V D) (T : Nat → V → Prop) : Prop where
  out : ∀ v ∈ g.nodes, ∀ xs, (sem v).ok xs → T v ((sem v).f xs)
  accepts : ∀ v ∈ g.nodes, v ∉ g.decisions → ∀ vals : Nat → V,
    (∀ p ∈ (g.mem v).preds, T p (vals p)) → (sem v).ok ((g.mem v).preds.map vals)

/-- Evaluation to a given depth. -/
def evalN [Inhabited V] (g : Graph) (sem : Nat → NodeSem V D) (A : Nat → V) : Nat → Nat → V
  | 0, _ => default
  | n + 1, v => (sem v).f (operands g A (evalN g sem A n) v)

theorem operands_congr {g : Graph} {A vals vals' : Nat → V} {v : Nat}
    (h : ∀ p ∈ (g.mem v).preds, vals p = vals' p) : operands g A vals v = operands g A vals' v := by
  unfold operands
  split_ifs
  · rfl
  · exact List.map_congr_left h

theorem evalN_deep [Inhabited V] {g : Graph} (w : g.WF) (hs : g.sorted = true)
    (sem : Nat → NodeSem V D) (A : Nat → V) :
    ∀ (n : Nat) (v : Nat), v ∈ g.nodes → (g.topoOf v).toNat < n →
      evalN g sem A n v = evalN g sem A ((g.topoOf v).toNat + 1) v := by
  intro n
  induction n using Nat.strongRecOn with
  | _ n ih =>
    intro v hv hn
    obtain ⟨k, rfl⟩ : ∃ k, n = k + 1 := ⟨n - 1, by omega⟩
    simp only [evalN]
    congr 1
    apply operands_congr
    intro p hp
    have hpn := w.predMem v hv p hp
    have hlt := (w.topological hs).edge p hpn v ((w.mem_link hpn hv).2 hp)
    have h0 := ((w.topological hs).range p hpn).1
    rw [ih k (by omega) p hpn (by omega), ih (g.topoOf v).toNat (by omega) p hpn (by omega)]

/-- Every assignment of admissible values to the decisions determines the values of all symbols. -/
theorem Typing.evaluates [Inhabited V] {g : Graph} (w : g.WF) (hs : g.sorted = true)
    {sem : Nat → NodeSem V D} {T : Nat → V → Prop} (ty : Typing g sem T) (A : Nat → V)
    (hA : ∀ d ∈ g.decisions, (sem d).ok [A d]) : ∃ vals, Evaluates g sem A vals := by
  let vals : Nat → V := fun v => evalN g sem A ((g.topoOf v).toNat + 1) v
  have hval : ∀ v ∈ g.nodes, vals v = (sem v).f (operands g A vals v) := by
    intro v hv
    show (sem v).f (operands g A (evalN g sem A (g.topoOf v).toNat) v) = _
    congr 1
    apply operands_congr
    intro p hp
    have hpn := w.predMem v hv p hp
    have hlt := (w.topological hs).edge p hpn v ((w.mem_link hpn hv).2 hp)
    have h0 := ((w.topological hs).range p hpn).1
    exact evalN_deep w hs sem A _ p hpn (by omega)
  have hok : ∀ (n : Nat) v, v ∈ g.nodes → (g.topoOf v).toNat < n → (sem v).ok (operands g A vals v) := by
    intro n
    induction n with
    | zero => intro v _ h; omega
    | succ n ih =>
      intro v hv hn
      by_cases hd : v ∈ g.decisions
      · simpa [operands, hd] using hA v hd
      · have : operands g A vals v = (g.mem v).preds.map vals := if_neg hd
        rw [this]
        apply ty.accepts v hv hd
        intro p hp
        have hpn := w.predMem v hv p hp
        have hlt := (w.topological hs).edge p hpn v ((w.mem_link hpn hv).2 hp)
        have h0 := ((w.topological hs).range p hpn).1
        rw [hval p hpn]
        exact ty.out p hpn _ (ih p hpn (by omega))
  exact ⟨vals, hval, fun v hv => hok _ v hv (Nat.lt_succ_self _)⟩

/-- What is needed of the symbols of a model: they keep their contracts, they fit together, and moves
lead from a settled decision to a pending one. -/
structure Lawful (rel : Nat → V → D → V → Prop) (quiet : D) (g : Graph) (sem : Nat → NodeSem V D)
    (C : ∀ v, Settled quiet (sem v)) (act : (v : Nat) → M → (sem v).σ → Res (sem v).σ) : Prop where
  contract : ∀ v ∈ g.nodes, v ∉ g.decisions → (C v).PropagatesWith ((g.mem v).preds.map rel) (rel v)
  quiet : ∀ v x, rel v x quiet x
  idle : ∀ d ∈ g.decisions, ∀ s x y, (C d).Pending (rel d) s [x] [y] → (sem d).ok [y] →
    (sem d).propagate s [] = .ok s
  same : ∀ d ∈ g.decisions, ∀ x, (sem d).f [x] = x
  total : ∀ A : Nat → V, (∀ d ∈ g.decisions, (sem d).ok [A d]) → ∃ vals, Evaluates g sem A vals
  move : ∀ d ∈ g.decisions, ∀ m s x s', (C d).Clean s [x] → (sem d).ok [x] → act d m s = .ok s' →
    ∃ y, (sem d).ok [y] ∧ (C d).Pending (rel d) s' [x] [y]

/-- The proposals move decisions of the model, each at most once. -/
def Proposal.Legal {sem : Nat → NodeSem V D} (g : Graph) (p : Proposal sem M) : Prop :=
  (p.moves.map Prod.fst).Nodup ∧ ∀ d ∈ p.moves.map Prod.fst, d ∈ g.decisions

theorem moves_spec {g : Graph} {sem : Nat → NodeSem V D} {C : ∀ v, Settled quiet (sem v)}
    {act : (v : Nat) → M → (sem v).σ → Res (sem v).σ} (L : Lawful rel quiet g sem C act)
    {A : Nat → V} (moves : List (Nat × M)) (hnd : (moves.map Prod.fst).Nodup)
    (hd : ∀ d ∈ moves.map Prod.fst, d ∈ g.decisions) {st st' : St sem}
    (hok : ∀ d ∈ g.decisions, (sem d).ok [A d])
    (hst : ∀ d ∈ moves.map Prod.fst, (C d).Clean (st d) [A d])
    (he : moves.foldlM (moveOne sem act) st = .ok st') :
    ∃ A' : Nat → V, (∀ d ∈ g.decisions, (sem d).ok [A' d]) ∧ (∀ d, d ∉ moves.map Prod.fst → A' d = A d) ∧
      (∀ d ∈ moves.map Prod.fst, (C d).Pending (rel d) (st' d) [A d] [A' d]) ∧
      ∀ v, v ∉ moves.map Prod.fst → st' v = st v := by
  induction moves generalizing st with
  | nil =>
    simp at he; subst he
    exact ⟨A, hok, fun _ _ => rfl, by simp, fun _ _ => rfl⟩
  | cons p moves ih =>
    obtain ⟨d, m⟩ := p
    simp only [List.map_cons, List.nodup_cons] at hnd
    simp only [List.foldlM_cons, moveOne] at he
    obtain ⟨st1, h1, h2⟩ := Res.bind_eq_ok.1 he
    obtain ⟨s1, h3, h4⟩ := Res.bind_eq_ok.1 h1
    simp at h4; subst h4
    obtain ⟨y, hy, hp⟩ := L.move d (hd d (by simp)) m _ (A d) s1 (hst d (by simp))
      (hok d (hd d (by simp))) h3
    obtain ⟨A', k1, k2, k3, k4⟩ := ih hnd.2 (fun e he => hd e (by simp at he ⊢; exact Or.inr he))
      (fun e he => by
        have hne : e ≠ d := fun h => hnd.1 (h ▸ he)
        rw [St.set_ne _ _ hne]
        exact hst e (by simp at he ⊢; exact Or.inr he)) h2
    have hAd : A' d = A d := k2 d hnd.1
    refine ⟨upd A' d y, ?_, ?_, ?_, ?_⟩
    · intro e he
      by_cases hed : e = d
      · subst hed; simpa [upd] using hy
      · simpa [upd, hed] using k1 e he
    · intro e he
      simp only [List.map_cons, List.mem_cons, not_or] at he
      simpa [upd, he.1] using k2 e he.2
    · intro e he
      simp only [List.map_cons, List.mem_cons] at he
      by_cases hed : e = d
      · subst hed
        have : st' e = s1 := by rw [k4 e hnd.1, St.set_same]
        rw [this]
        simpa [upd] using hp
      · have := k3 e (he.resolve_left hed)
        simpa [upd, hed] using this
    · intro v hv
      simp only [List.map_cons, List.mem_cons, not_or] at hv
      rw [k4 v hv.2, St.set_ne _ _ hv.1]

/-- The state is in step with some admissible values of the decisions. -/
def InStep (g : Graph) (sem : Nat → NodeSem V D) (C : ∀ v, Settled quiet (sem v))
    (A vals : Nat → V) (st : St sem) : Prop :=
  (∀ d ∈ g.decisions, (sem d).ok [A d]) ∧ Evaluates g sem A vals ∧ AllClean g sem C A vals st

variable [DecidableEq D]

/-- One proposal whose moves succeed: the acceptance function sees the state that follows from the
moved decisions, and afterwards the state is in step again. -/
theorem proposal_spec {ops : List ModelOp} {m : PyModel} (hr : PyModel.new.run ops = .ok m)
    (hl : 0 < lockDepth ops) {sem : Nat → NodeSem V D} {C : ∀ v, Settled quiet (sem v)}
    {act : (v : Nat) → M → (sem v).σ → Res (sem v).σ} (L : Lawful rel quiet m.g sem C act)
    {A vals : Nat → V} {st st1 : St sem} (h : InStep m.g sem C A vals st) (p : Proposal sem M)
    (hp : p.Legal m.g) (he : p.moves.foldlM (moveOne sem act) st = .ok st1) :
    ∃ (A' vals' : Nat → V) (stP st' : St sem), (∀ d ∈ m.g.decisions, (sem d).ok [A' d]) ∧ Evaluates m.g sem A' vals' ∧
      (∀ d ∈ m.g.decisions, A' d = (sem d).view (st1 d)) ∧
      (∀ v ∈ m.g.nodes, (sem v).view (stP v) = vals' v) ∧
      proposal m.g quiet sem act (st, fun _ => false) p = .ok (st', fun _ => false) ∧
      (p.accept stP = true → InStep m.g sem C A' vals' st') ∧
      (p.accept stP = false → InStep m.g sem C A vals st') := by
  obtain ⟨h1, h2, h3⟩ := h
  have w := (reachable hr).wf
  have hclean : ∀ d ∈ m.g.decisions, (C d).Clean (st d) [A d] := by
    intro d hd
    simpa [operands, hd] using h3 d (w.decMem d hd)
  obtain ⟨A', k1, k2, k3, k4⟩ := moves_spec L p.moves hp.1 hp.2 h1
    (fun d hd => hclean d (hp.2 d hd)) he
  obtain ⟨vals', h1'⟩ := L.total A' k1
  obtain ⟨stP, st', e1, e2, e3, e4⟩ := propose_atomic hr hl C L.contract L.quiet L.idle h2 h1' hp.1
    hp.2 (fun d _ hn => (k2 d hn).symm) k3 (fun v hv hn => by rw [k4 v hn]; exact h3 v hv) p.accept
  refine ⟨A', vals', stP, st', k1, h1', ?_, e1, ?_, fun h => ⟨k1, h1', e3 h⟩, fun h => ⟨h1, h2, e4 h⟩⟩
  · intro d hd
    by_cases hc : d ∈ p.moves.map Prod.fst
    · rw [(k3 d hc).view, L.same d hd]
    · rw [k2 d hc, k4 d hc, (C d).view (hclean d hd), L.same d hd]
  · simp only [proposal, he, Res.ok_bind, e2]

/-- Every history of legal proposals that succeeds leaves the state in step. -/
theorem history_spec {ops : List ModelOp} {m : PyModel} (hr : PyModel.new.run ops = .ok m)
    (hl : 0 < lockDepth ops) {sem : Nat → NodeSem V D} {C : ∀ v, Settled quiet (sem v)}
    {act : (v : Nat) → M → (sem v).σ → Res (sem v).σ} (L : Lawful rel quiet m.g sem C act)
    (ps : List (Proposal sem M)) (hps : ∀ p ∈ ps, p.Legal m.g)
    {A vals : Nat → V} {st : St sem} (h : InStep m.g sem C A vals st)
    {r : St sem × (Int → Bool)} (he : history m.g quiet sem act (st, fun _ => false) ps = .ok r) :
    r.2 = (fun _ => false) ∧ ∃ A' vals', InStep m.g sem C A' vals' r.1 := by
  induction ps generalizing A vals st with
  | nil =>
    simp [history] at he; subst he
    exact ⟨rfl, A, vals, h⟩
  | cons p ps ih =>
    simp only [history, List.foldlM_cons] at he
    obtain ⟨r1, h1, h2⟩ := Res.bind_eq_ok.1 he
    have h1' := h1
    simp only [proposal] at h1'
    obtain ⟨st1, h3, _⟩ := Res.bind_eq_ok.1 h1'
    obtain ⟨A', vals', stP, st', _, _, _, _, e, f1, f2⟩ :=
      proposal_spec hr hl L h p (hps p List.mem_cons_self) h3
    rw [e] at h1
    simp at h1; subst h1
    have hps' := fun q hq => hps q (List.mem_cons_of_mem _ hq)
    cases ha : p.accept stP with
    | true => exact ih hps' (f1 ha) h2
    | false => exact ih hps' (f2 ha) h2

/-- A state in step shows what a fresh one would show. -/
theorem InStep.fresh {ops : List ModelOp} {m : PyModel} (hr : PyModel.new.run ops = .ok m)
    (hl : 0 < lockDepth ops) {sem : Nat → NodeSem V D} {C : ∀ v, Settled quiet (sem v)}
    {act : (v : Nat) → M → (sem v).σ → Res (sem v).σ} (L : Lawful rel quiet m.g sem C act)
    {A vals : Nat → V} {st : St sem} (h : InStep m.g sem C A vals st) :
    (∃ f, initAll m.g sem (fun d => (sem d).view (st d)) PState.empty = .ok f ∧
      ∀ v ∈ m.g.nodes, ∃ s, f.cell v = some s ∧ (sem v).view s = (sem v).view (st v)) ∧
    (∀ v ∈ m.g.nodes, (sem v).diff (st v) = quiet) := by
  obtain ⟨h1, h2, h3⟩ := h
  have w := (reachable hr).wf
  have hs := (C18_lock_count hr).2.2 hl
  have hAd : ∀ d ∈ m.g.decisions, A d = (sem d).view (st d) := by
    intro d hd
    have := h3 d (w.decMem d hd)
    have ho : operands m.g A vals d = [A d] := by simp [operands, hd]
    rw [ho] at this
    rw [(C d).view this, L.same d hd]
  obtain ⟨f, e, hF, hall⟩ := initAll_spec C w hs (dflt := fun d => (sem d).view (st d)) h2
    (st := PState.empty) ⟨by simp [PState.empty], by simp [PState.empty], by simp [PState.empty]⟩
    (fun d hd _ => hAd d hd)
  refine ⟨⟨f, e, ?_⟩, fun v hv => (C v).diff (h3 v hv)⟩
  intro v hv
  obtain ⟨s, hs'⟩ := Option.isSome_iff_exists.1 (hall v hv)
  exact ⟨s, hs', by rw [(C v).view (hF.clean v hv s hs'), (C v).view (h3 v hv)]⟩

/-- A fresh state is in step. -/
theorem inStep_of_init {ops : List ModelOp} {m : PyModel} (hr : PyModel.new.run ops = .ok m)
    (hl : 0 < lockDepth ops) {sem : Nat → NodeSem V D} {C : ∀ v, Settled quiet (sem v)}
    {act : (v : Nat) → M → (sem v).σ → Res (sem v).σ} (L : Lawful rel quiet m.g sem C act)
    {A : Nat → V} (hA : ∀ d ∈ m.g.decisions, (sem d).ok [A d]) :
    ∃ f vals, initAll m.g sem A PState.empty = .ok f ∧ Evaluates m.g sem A vals ∧
      (∀ v ∈ m.g.nodes, (f.cell v).isSome) ∧
      ∀ st : St sem, (∀ v ∈ m.g.nodes, f.cell v = some (st v)) → InStep m.g sem C A vals st := by
  have w := (reachable hr).wf
  have hs := (C18_lock_count hr).2.2 hl
  obtain ⟨vals, hE⟩ := L.total A hA
  obtain ⟨f, e, hF, hall⟩ := initAll_spec C w hs (dflt := A) hE
    (st := PState.empty) ⟨by simp [PState.empty], by simp [PState.empty], by simp [PState.empty]⟩
    (fun d _ _ => rfl)
  exact ⟨f, vals, e, hE, hall, fun st hst => ⟨hA, hE, fun v hv => hF.clean v hv _ (hst v hv)⟩⟩

end Graph
end Verif
