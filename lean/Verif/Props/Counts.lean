import Verif.Props.Graph
import Verif.Model.Counts

/-!
# C84: the numbers of symbols, decisions, constraints and edges of a model
-/

namespace Verif
open Graph PyModel

/-- The total of a number over a list. -/
def total (f : Nat → Nat) (l : List Nat) : Nat := (l.map f).sum

namespace PyModel

theorem foldl_total (f : Nat → Nat) (l : List Nat) (n : Nat) :
    l.foldl (fun n v => n + f v) n = n + total f l := by
  induction l generalizing n with
  | nil => simp [total]
  | cons a l ih => rw [List.foldl_cons, ih]; simp [total]; omega

theorem total_congr {f f' : Nat → Nat} {l : List Nat} (h : ∀ v ∈ l, f v = f' v) :
    total f l = total f' l := by
  unfold total
  rw [List.map_congr_left h]

theorem total_add (f f' : Nat → Nat) (l : List Nat) :
    total (fun v => f v + f' v) l = total f l + total f' l := by
  induction l with
  | nil => simp [total]
  | cons a l ih => simp only [total, List.map_cons, List.sum_cons] at ih ⊢; omega

theorem total_zero (l : List Nat) : total (fun _ => 0) l = 0 := by
  induction l with
  | nil => rfl
  | cons a l ih => simp [total]

theorem total_single {l : List Nat} (hn : l.Nodup) {a : Nat} (ha : a ∈ l) :
    total (fun w => if a = w then 1 else 0) l = 1 := by
  induction l with
  | nil => simp at ha
  | cons b l ih =>
    obtain ⟨hb, hn⟩ := List.nodup_cons.1 hn
    by_cases hab : a = b
    · subst hab
      have : total (fun w => if a = w then 1 else 0) l = total (fun _ => 0) l :=
        total_congr fun v hv => if_neg fun (he : a = v) => hb (he ▸ hv)
      rw [total_zero] at this
      simp only [total, List.map_cons, List.sum_cons, if_true] at this ⊢
      omega
    · have := ih hn ((List.mem_cons.1 ha).resolve_left hab)
      simp only [total, List.map_cons, List.sum_cons, if_neg hab] at this ⊢
      omega

theorem total_count {l : List Nat} (hn : l.Nodup) (s : List Nat) (hs : ∀ w ∈ s, w ∈ l) :
    total (fun w => s.count w) l = s.length := by
  induction s with
  | nil => simpa using total_zero l
  | cons a s ih =>
    have h1 := ih fun w hw => hs w (List.mem_cons_of_mem _ hw)
    have h2 := total_single hn (hs a List.mem_cons_self)
    rw [List.length_cons, ← h1, ← h2, ← total_add]
    exact total_congr fun v _ => by simp [List.count_cons]

theorem total_swap (f : Nat → Nat → Nat) (l l' : List Nat) :
    total (fun v => total (f v) l') l = total (fun w => total (fun v => f v w) l) l' := by
  induction l with
  | nil => exact (total_zero l').symm
  | cons a l ih =>
    have h : total (fun w => total (fun v => f v w) (a :: l)) l' =
        total (fun w => f a w + total (fun v => f v w) l) l' :=
      total_congr fun w _ => by simp [total]
    rw [h, total_add, ← ih]
    simp [total]

theorem total_perm {f : Nat → Nat} {l l' : List Nat} (h : l.Perm l') : total f l = total f l' :=
  (h.map f).sum_nat

theorem total_append (f : Nat → Nat) (l l' : List Nat) : total f (l ++ l') = total f l + total f l' := by
  simp [total]

theorem edges_of_wf {m : PyModel} (h : m.g.WF) :
    m.numEdges = total (fun v => (m.g.mem v).preds.length) m.g.nodes := by
  unfold numEdges
  rw [foldl_total (fun v => (m.g.mem v).succs.length), Nat.zero_add]
  have h1 : total (fun v => (m.g.mem v).succs.length) m.g.nodes =
      total (fun v => total (fun w => (m.g.mem v).succs.count w) m.g.nodes) m.g.nodes :=
    total_congr fun v hv => (total_count h.nodup _ (h.succMem v hv)).symm
  rw [h1, total_swap]
  refine total_congr fun w hw => ?_
  refine Eq.trans ?_ (total_count h.nodup _ (h.predMem w hw))
  exact total_congr fun v hv => h.link v hv w hw

end PyModel

/-- C84.  After any history the number of edges is the total number of operands of the symbols
(a symbol used twice by another counts twice). -/
theorem C84_edges {ops : List ModelOp} {m : PyModel} (hr : PyModel.new.run ops = .ok m) :
    m.numEdges = total (fun v => (m.g.mem v).preds.length) m.g.nodes :=
  edges_of_wf (reachable hr).wf

/-- The four numbers of a model. -/
structure Counts where
  symbols : Nat
  decisions : Nat
  constraints : Nat
  edges : Nat
  deriving DecidableEq

/-- The four numbers as the methods report them. -/
def PyModel.counts (m : PyModel) : Counts :=
  ⟨m.numSymbols, m.numDecisions, m.numConstraints, m.numEdges⟩

/-- How an operation that is carried out, other than pruning, is to change the numbers. -/
def Counts.after (c : Counts) : ModelOp → Counts
  | .decision _ => { c with symbols := c.symbols + 1, decisions := c.decisions + 1 }
  | .node _ preds _ => { c with symbols := c.symbols + 1, edges := c.edges + preds.length }
  | .addOperand _ _ => { c with edges := c.edges + 1 }
  | .addConstraint _ => { c with constraints := c.constraints + 1 }
  | _ => c

/-- C84.  A new model has none of anything. -/
theorem C84_new : PyModel.new.counts = ⟨0, 0, 0, 0⟩ := rfl

/-- C84.  After any history, an operation that is carried out changes the numbers as `Counts.after`
says; `remove_unused_symbols` is the subject of `C84_pruned`. -/
theorem C84_counts {ops : List ModelOp} {m m' : PyModel} (hr : PyModel.new.run ops = .ok m)
    {op : ModelOp} (hs : m.step op = .ok m') (hop : op ≠ .removeUnused) :
    m'.counts = m.counts.after op := by
  have h := reachable hr
  have hw' := (step_inv h hs).1.wf
  have e := edges_of_wf h.wf
  have e' := edges_of_wf hw'
  cases op with
  | removeUnused => exact absurd rfl hop
  | decision a =>
    simp only [step, Res.bind_eq_ok, Res.ok.injEq] at hs
    obtain ⟨g, hg, rfl⟩ := hs
    have hg0 := hg
    simp only [emplaceDecision, guardThrow, guardUB, Res.bind_eq_ok] at hg
    obtain ⟨_, h1, _, h2, _⟩ := hg
    split_ifs at h1 h2 with hf ha
    obtain ⟨g', e2, _, _, hn, hd, _, hc, hpa, hp⟩ := emplaceDecision_spec h.wf hf ha
    rw [hg0] at e2; cases e2
    simp only [hn] at e'
    rw [total_append, total_congr fun v hv => congrArg List.length (hp v hv), ← e] at e'
    simp only [counts, Counts.after, numSymbols, numDecisions, numConstraints, hn, hd, hc, e',
      List.length_append, List.length_singleton]
    simp [total, hpa]
  | node a preds rem =>
    simp only [step, Res.bind_eq_ok, Res.ok.injEq] at hs
    obtain ⟨g, hg, rfl⟩ := hs
    have hg0 := hg
    simp only [emplaceNode, guardThrow, guardUB, Res.bind_eq_ok] at hg
    obtain ⟨_, h1, _, h2, _⟩ := hg
    split_ifs at h1 h2 with hf ha
    obtain ⟨g', e2, _, _, hn, hd, _, hc, hpa, hp⟩ := emplaceNode_spec h.wf hf ha.1 ha.2 rem
    rw [hg0] at e2; cases e2
    simp only [hn] at e'
    rw [total_append, total_congr fun v hv => congrArg List.length (hp v hv), ← e] at e'
    simp only [counts, Counts.after, numSymbols, numDecisions, numConstraints, hn, hd, hc, e',
      List.length_append, List.length_singleton]
    simp [total, hpa]
  | addOperand n p =>
    simp only [step, Res.bind_eq_ok, Res.ok.injEq] at hs
    obtain ⟨g, hg, rfl⟩ := hs
    simp only [addPredecessor, guardThrow, guardUB, Res.bind_eq_ok] at hg
    obtain ⟨_, h1, _, h2, _, h3, h4⟩ := hg
    split_ifs at h1 h2 h3 with ha hb hc
    cases h4
    have hl : ∀ v, (upd (upd m.g.mem p { m.g.mem p with succs := (m.g.mem p).succs ++ [n] }) n
        { (upd m.g.mem p { m.g.mem p with succs := (m.g.mem p).succs ++ [n] }) n with
          preds := ((upd m.g.mem p { m.g.mem p with succs := (m.g.mem p).succs ++ [n] }) n).preds ++ [p] } v).preds.length
        = (m.g.mem v).preds.length + if n = v then 1 else 0 := by
      intro v
      by_cases h1 : v = n
      · subst h1
        by_cases h2 : v = p
        · subst h2; simp
        · rw [upd_same, upd_ne _ _ h2]; simp
      · rw [upd_ne _ _ h1, if_neg (Ne.symm h1)]
        by_cases h2 : v = p
        · subst h2; simp
        · rw [upd_ne _ _ h2]; rfl
    rw [total_congr fun v _ => hl v, total_add, total_single h.wf.nodup ha.1, ← e] at e'
    simp only [counts, Counts.after, numSymbols, numDecisions, numConstraints, e']
  | minimize o =>
    simp only [step, Res.bind_eq_ok, Res.ok.injEq] at hs
    obtain ⟨g, hg, rfl⟩ := hs
    simp only [setObjective, guardThrow, guardUB, Res.bind_eq_ok] at hg
    obtain ⟨_, h1, _, h2, h3⟩ := hg
    cases h3
    rfl
  | addConstraint c =>
    simp only [step, Res.bind_eq_ok, Res.ok.injEq] at hs
    obtain ⟨g, hg, rfl⟩ := hs
    simp only [Graph.addConstraint, guardThrow, guardUB, Res.bind_eq_ok] at hg
    obtain ⟨_, h1, _, h2, _, h2', h3⟩ := hg
    cases h3
    simp [counts, Counts.after, numSymbols, numDecisions, numConstraints, numEdges]
  | reference v b =>
    simp only [step, Res.ok.injEq] at hs
    subst hs
    have hl : ∀ w, (upd m.g.mem v { m.g.mem v with listened := b } w).preds.length
        = (m.g.mem w).preds.length := by
      intro w
      by_cases hw : w = v
      · subst hw; simp
      · simp [upd_ne _ _ hw]
    rw [total_congr fun v _ => hl v, ← e] at e'
    simp only [counts, Counts.after, numSymbols, numDecisions, numConstraints, e']
  | lock =>
    simp only [step, Res.bind_eq_ok, Res.ok.injEq] at hs
    obtain ⟨g, hg, rfl⟩ := hs
    by_cases hf : m.g.sorted = false
    · rcases h.wf.sort_spec hf with ⟨g', e2, _, _, hn, hm, hd, _, hc, _⟩ | ⟨e2, _⟩
      · rw [hg] at e2; cases e2
        rw [total_perm hn, total_congr fun v _ => congrArg List.length (hm v).1, ← e] at e'
        simp only [counts, Counts.after, numSymbols, numDecisions, numConstraints, e', hn.length_eq, hd, hc]
      · rw [hg] at e2; cases e2
    · have hf : m.g.sorted = true := by simpa using hf
      simp only [topologicalSort, hf, if_true, Res.ok.injEq] at hg
      subst hg
      rfl
  | unlock =>
    simp only [step] at hs
    split_ifs at hs
    · cases hs; rfl
    · cases hs
      obtain ⟨_, _, hm, hn, hd, _, hc⟩ := reset_spec h.wf
      simp only [hn] at e'
      rw [total_congr fun v _ => congrArg List.length (hm v).1, ← e] at e'
      simp only [counts, Counts.after, numSymbols, numDecisions, numConstraints, e', hn, hd, hc]
    · cases hs; rfl

/-- C84.  After any history, `remove_unused_symbols` leaves the numbers of decisions and constraints
alone.  The numbers of symbols and of edges go down by the number of removed symbols and the total
number of their operands. -/
theorem C84_pruned {ops : List ModelOp} {m m' : PyModel} (hr : PyModel.new.run ops = .ok m)
    (hs : m.step .removeUnused = .ok m') :
    m'.numDecisions = m.numDecisions ∧ m'.numConstraints = m.numConstraints ∧
    m.numSymbols = m'.numSymbols + (m.g.nodes.filter (fun v => decide (v ∉ m'.g.nodes))).length ∧
    m.numEdges = m'.numEdges + total (fun v => (m.g.mem v).preds.length)
      (m.g.nodes.filter (fun v => decide (v ∉ m'.g.nodes))) := by
  have h := reachable hr
  have hw' := (step_inv h hs).1.wf
  have e := edges_of_wf h.wf
  have e' := edges_of_wf hw'
  simp only [step, Res.bind_eq_ok, Res.ok.injEq, guardThrow] at hs
  obtain ⟨_, h1, r, hr, rfl⟩ := hs
  split_ifs at h1 with hl
  have hl' : ¬ 0 < m.lockCount := by simpa [isLocked] using hl
  have hf : m.g.sorted = false := by
    by_contra hc
    exact hl' (h.sorted.1 (by simpa using hc))
  rcases h.wf.sort_spec hf with ⟨g1, e1, w, hso, hn, hm, hd, _, hc, _⟩ | ⟨e1, _⟩
  · obtain ⟨g', e2, w', _, hmem, _, hm', hd', _, hc'⟩ := removeUnused_sorted w hso false
    have : m.g.removeUnused false = g1.removeUnused false := by
      simp only [removeUnused, e1, Res.ok_bind]
      rw [show g1.topologicalSort = .ok g1 by simp [topologicalSort, hso]]
      simp only [Res.ok_bind]
    rw [this, e2] at hr
    cases hr
    simp only at e' hw' ⊢
    have hsplit : m.g.nodes.Perm (g'.nodes ++ m.g.nodes.filter (fun v => decide (v ∉ g'.nodes))) := by
      rw [List.perm_ext_iff_of_nodup h.wf.nodup]
      · intro v
        simp only [List.mem_append, List.mem_filter, decide_eq_true_eq]
        constructor
        · intro hv
          by_cases hx : v ∈ g'.nodes
          · exact Or.inl hx
          · exact Or.inr ⟨hv, hx⟩
        · rintro (hv | hv)
          · exact hn.mem_iff.1 ((hmem v).1 hv).1
          · exact hv.1
      · refine List.nodup_append.2 ⟨w'.nodup, h.wf.nodup.filter _, ?_⟩
        rintro a ha b hb rfl
        simp only [List.mem_filter, decide_eq_true_eq] at hb
        exact hb.2 ha
    refine ⟨by simp only [numDecisions, hd', hd], by simp only [numConstraints, hc', hc], ?_, ?_⟩
    · simpa [numSymbols] using hsplit.length_eq
    · rw [e, e', total_perm hsplit, total_append]
      congr 1
      exact total_congr fun v hv => congrArg List.length (((hm' v hv).1.trans (hm v).1).symm)
  · simp [removeUnused, e1] at hr

/-- A model with a decision, a constant used twice by a sum, and a sum nobody uses. -/
def countsHistory : List ModelOp :=
  [.decision 10, .node 11 [] true, .node 12 [10, 11] true, .node 13 [11, 11] true, .addOperand 12 11,
    .addConstraint 12]

/-- The histories are met, with pruning. -/
example : ∃ m, PyModel.new.run countsHistory = .ok m ∧ m.counts = ⟨4, 1, 1, 5⟩ ∧
    ∃ m', m.step .removeUnused = .ok m' ∧ m'.counts = ⟨3, 1, 1, 3⟩ := by
  refine ⟨_, rfl, ?_, _, rfl, ?_⟩ <;> decide +kernel

end Verif
