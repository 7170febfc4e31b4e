import Verif.Lemmas.Program

set_option linter.unusedSectionVars false
set_option linter.unusedSimpArgs false
set_option linter.unusedVariables false

/-!
# C40: incremental evaluation of a whole model equals evaluation from scratch
-/

namespace Verif

open Graph PyModel

/-- The decisions are given values they accept. -/
def Symbols.Admissible (S : Symbols) (g : Graph) (A : Nat → Val) : Prop :=
  ∀ d ∈ g.decisions, (S.sem g d).ok [A d]

/-- The values shown by all symbols of a state. -/
def Symbols.shown (S : Symbols) (g : Graph) (st : St (S.sem g)) (v : Nat) : Val := (S.sem g v).view (st v)

/-- A state in which every symbol has been initialised, as one function. -/
def Symbols.Started (S : Symbols) (g : Graph) (A : Nat → Val) (st : St (S.sem g)) : Prop :=
  ∃ f, initAll g (S.sem g) A PState.empty = .ok f ∧ ∀ v ∈ g.nodes, f.cell v = some (st v)

/-- Initialisation succeeds for all admissible values of the decisions. -/
theorem C40_initialises {ops : List ModelOp} {m : PyModel} (hr : PyModel.new.run ops = .ok m)
    (hl : 0 < lockDepth ops) {S : Symbols} (hS : S.Assembled m.g) {A : Nat → Val}
    (hA : S.Admissible m.g A) :
    ∃ f, initAll m.g (S.sem m.g) A PState.empty = .ok f ∧ ∀ v ∈ m.g.nodes, (f.cell v).isSome := by
  obtain ⟨C, L⟩ := hS.lawful (reachable hr).wf ((C18_lock_count hr).2.2 hl)
  obtain ⟨f, vals, e, _, hall, _⟩ := inStep_of_init hr hl L hA
  exact ⟨f, e, hall⟩

/-- C40, for models of the symbols in the catalog (`Kind`: all decisions, constants, element-wise
operations, reductions, partial sums, reshape, size, where, quadratic models; not the indexing symbols
and not concatenate, whose incremental evaluation is wrong, see C28): for every model, every history
of proposals that starts from initialised decisions and whose moves do not fail,
* the decisions have values they accept and every symbol shows the value its meaning gives for the
  values its operands show;
* initialising a fresh state from the decisions' current values succeeds and every symbol shows the
  same in the fresh state;
* no changes are left pending. -/
theorem C40_incremental_eq_fresh_partial {ops : List ModelOp} {m : PyModel}
    (hr : PyModel.new.run ops = .ok m) (hl : 0 < lockDepth ops) {S : Symbols} (hS : S.Assembled m.g)
    {A : Nat → Val} (hA : S.Admissible m.g A) {st : St (S.sem m.g)} (hst : S.Started m.g A st)
    (ps : List (Proposal (S.sem m.g) (List Move))) (hps : ∀ p ∈ ps, p.Legal m.g)
    {r : St (S.sem m.g) × (Int → Bool)}
    (he : history m.g [] (S.sem m.g) (S.act m.g) (st, fun _ => false) ps = .ok r) :
    Evaluates m.g (S.sem m.g) (S.shown m.g r.1) (S.shown m.g r.1) ∧
    (∃ f, initAll m.g (S.sem m.g) (S.shown m.g r.1) PState.empty = .ok f ∧
      ∀ v ∈ m.g.nodes, ∃ s, f.cell v = some s ∧ (S.sem m.g v).view s = S.shown m.g r.1 v) ∧
    (∀ v ∈ m.g.nodes, (S.sem m.g v).diff (r.1 v) = []) := by
  have w := (reachable hr).wf
  obtain ⟨C, L⟩ := hS.lawful w ((C18_lock_count hr).2.2 hl)
  obtain ⟨f, e, hf⟩ := hst
  obtain ⟨f', vals, e', _, _, hin⟩ := inStep_of_init hr hl L hA
  rw [e] at e'
  simp at e'; subst e'
  obtain ⟨_, A', vals', h⟩ := history_spec hr hl L ps hps (hin st hf) he
  obtain ⟨h1, h2⟩ := h.fresh hr hl L
  exact ⟨h.evaluates w L.same, h1, h2⟩

/-- A proposal at the end of a history: if its moves do not fail then neither does the proposal, the
acceptance function sees every symbol evaluated for the moved decisions, and afterwards the state shows
those values, if they were accepted, or all the values from before. -/
theorem C40_proposal_partial {ops : List ModelOp} {m : PyModel}
    (hr : PyModel.new.run ops = .ok m) (hl : 0 < lockDepth ops) {S : Symbols} (hS : S.Assembled m.g)
    {A : Nat → Val} (hA : S.Admissible m.g A) {st : St (S.sem m.g)} (hst : S.Started m.g A st)
    (ps : List (Proposal (S.sem m.g) (List Move))) (hps : ∀ p ∈ ps, p.Legal m.g)
    {r : St (S.sem m.g) × (Int → Bool)}
    (he : history m.g [] (S.sem m.g) (S.act m.g) (st, fun _ => false) ps = .ok r)
    (p : Proposal (S.sem m.g) (List Move)) (hp : p.Legal m.g) {moved : St (S.sem m.g)}
    (hmv : p.moves.foldlM (moveOne (S.sem m.g) (S.act m.g)) r.1 = .ok moved) :
    ∃ (seen : St (S.sem m.g)) (r' : St (S.sem m.g) × (Int → Bool)),
      history m.g [] (S.sem m.g) (S.act m.g) (st, fun _ => false) (ps ++ [p]) = .ok r' ∧
      Evaluates m.g (S.sem m.g) (S.shown m.g moved) (S.shown m.g seen) ∧
      (∀ v ∈ m.g.nodes, S.shown m.g r'.1 v =
        if p.accept seen = true then S.shown m.g seen v else S.shown m.g r.1 v) := by
  have w := (reachable hr).wf
  obtain ⟨C, L⟩ := hS.lawful w ((C18_lock_count hr).2.2 hl)
  obtain ⟨f, e, hf⟩ := hst
  obtain ⟨f', vals, e', _, _, hin⟩ := inStep_of_init hr hl L hA
  rw [e] at e'
  simp at e'; subst e'
  obtain ⟨hm, A', vals', h⟩ := history_spec hr hl L ps hps (hin st hf) he
  obtain ⟨A2, vals2, stP, st', k1, k2, k3, k4, k5, k6, k7⟩ := proposal_spec hr hl L h p hp hmv
  have hr' : r = (r.1, fun _ => false) := by rw [← hm]
  refine ⟨stP, (st', fun _ => false), ?_, ?_, ?_⟩
  · unfold history at he ⊢
    rw [List.foldlM_append, he, Res.ok_bind]
    simp only [List.foldlM_cons, List.foldlM_nil]
    rw [hr', k5]
    rfl
  · have ho : ∀ v ∈ m.g.nodes, operands m.g (S.shown m.g moved) (S.shown m.g stP) v =
        operands m.g A2 vals2 v := by
      intro v hv
      unfold operands
      split_ifs with hd
      · exact congrArg (fun x => [x]) (k3 v hd).symm
      · exact List.map_congr_left fun q hq => k4 q (w.predMem v hv q hq)
    refine ⟨fun v hv => ?_, fun v hv => ?_⟩
    · rw [ho v hv]
      exact (k4 v hv).trans (k2.value v hv)
    · rw [ho v hv]; exact k2.accepted v hv
  · intro v hv
    cases ha : p.accept stP with
    | true =>
      rw [if_pos rfl]
      exact ((k6 ha).view hv).trans (k4 v hv).symm
    | false =>
      rw [if_neg (by simp)]
      exact ((k7 ha).view hv).trans (h.view hv).symm

/-- C39 for models of the symbols in the catalog: no assumption about the symbols is left. -/
theorem C39_never_stale_catalog {ops : List ModelOp} {m : PyModel}
    (hr : PyModel.new.run ops = .ok m) (hl : 0 < lockDepth ops) {S : Symbols} (hS : S.Assembled m.g)
    {dflt : Nat → Val} (hdflt : S.Admissible m.g dflt)
    (hist : List (StateOp Val)) (hvalid : ∀ op ∈ hist, op.Valid m.g (S.sem m.g)) :
    ∃ st vals, hist.foldlM (stateStep m.g (S.sem m.g) dflt) PState.empty = .ok st ∧
      Evaluates m.g (S.sem m.g) (assignment m.g dflt hist) vals ∧
      ∀ v ∈ m.g.nodes, ∃ st' s, readState m.g (S.sem m.g) dflt st v = .ok st' ∧ st'.cell v = some s ∧
        (S.sem m.g v).view s = vals v ∧ (S.sem m.g v).diff s = [] ∧
        ∀ u ∈ m.g.nodes, (st'.cell u).isSome ↔
          (st.cell u).isSome ∨ Reaches (fun v => (m.g.mem v).succs) u v := by
  obtain ⟨C, L⟩ := hS.lawful (reachable hr).wf ((C18_lock_count hr).2.2 hl)
  exact C39_never_stale hr hl C hdflt L.total hist hvalid

/-! ## A concrete model

`x` three integers between 0 and 10, `l` an ordering of three items, `x + l`, its sum, and whether the sum
is at most seven. -/

namespace WholeExample

def ops : List ModelOp :=
  [.decision 0, .decision 1, .node 2 [0, 1] true, .node 3 [2] true, .node 4 [] true, .node 5 [3, 4] true,
    .minimize 3, .addConstraint 5, .lock]

def model : PyModel := match PyModel.new.run ops with
  | .ok m => m
  | _ => PyModel.new

theorem built : PyModel.new.run ops = .ok model := rfl

def kind : Nat → Kind
  | 0 => .integer [3] (some 0) (some 10)
  | 1 => .collection 3 3 3
  | 2 => .binary .add
  | 3 => .reduce .sum 0
  | 4 => .constant ⟨[], [7]⟩
  | 5 => .binary .lessEqual
  | _ => .constant ⟨[], []⟩

def shapes : Nat → List (List Int)
  | 0 => [[3]]
  | 1 => [[3]]
  | 2 => [[3]]
  | _ => [[]]

def symbols : Symbols := ⟨kind, shapes⟩

theorem nodes_eq : model.g.nodes = [0, 1, 2, 3, 4, 5] := by decide +kernel

theorem decisions_eq : model.g.decisions = [0, 1] := by decide +kernel

theorem assembled : symbols.Assembled model.g := by
  refine ⟨?_, ?_, ?_, ?_, ?_⟩
  · intro v hv
    rw [nodes_eq] at hv
    simp only [List.mem_cons, List.not_mem_nil, or_false] at hv
    rcases hv with rfl | rfl | rfl | rfl | rfl | rfl <;> decide +kernel
  · intro v hv
    rw [nodes_eq] at hv
    simp only [List.mem_cons, List.not_mem_nil, or_false] at hv
    rcases hv with rfl | rfl | rfl | rfl | rfl | rfl
    · show dynamicShape [3] = false
      rfl
    · trivial
    · exact ⟨by decide +kernel, by decide +kernel⟩
    · trivial
    · show Arr.WF _
      decide +kernel
    · exact ⟨by decide +kernel, by decide +kernel⟩
  · intro v hv
    rw [nodes_eq] at hv
    simp only [List.mem_cons, List.not_mem_nil, or_false] at hv
    rcases hv with rfl | rfl | rfl | rfl | rfl | rfl <;> decide +kernel
  · intro v hv
    rw [nodes_eq] at hv
    rw [decisions_eq]
    simp only [List.mem_cons, List.not_mem_nil, or_false] at hv
    rcases hv with rfl | rfl | rfl | rfl | rfl | rfl <;> decide +kernel
  · intro v hv
    rw [nodes_eq] at hv
    match v, hv with
    | 0, hv => simp at hv
    | 1, hv => simp at hv
    | 2, hv => simp at hv
    | 3, hv => simp at hv
    | 4, hv => simp at hv
    | 5, hv => simp at hv
    | v + 6, _ => rfl

/-- The integers start at (1, 2, 3), the list at (0, 1, 2). -/
def values : Nat → Val
  | 0 => [⟨[3], [1, 2, 3]⟩]
  | _ => [⟨[3], [0, 1, 2]⟩]

theorem admissible : symbols.Admissible model.g values := by
  intro d hd
  rw [decisions_eq] at hd
  simp only [List.mem_cons, List.not_mem_nil, or_false] at hd
  rcases hd with rfl | rfl
  · exact ⟨[1, 2, 3], rfl, rfl, by
      intro v hv
      simp only [List.mem_cons, List.not_mem_nil, or_false] at hv
      rcases hv with rfl | rfl | rfl <;> exact ⟨_, rfl, by decide, by decide⟩⟩
  · refine ⟨[0, 1, 2], rfl, by decide +kernel, ?_, by decide, by decide⟩
    intro v hv
    simp only [List.mem_cons, List.not_mem_nil, or_false] at hv
    rcases hv with rfl | rfl | rfl
    · exact ⟨0, by decide, rfl⟩
    · exact ⟨1, by decide, rfl⟩
    · exact ⟨2, by decide, rfl⟩

def cells : PState (symbols.sem model.g) :=
  match initAll model.g (symbols.sem model.g) values PState.empty with
  | .ok f => f
  | _ => PState.empty

/-- The initialised states. -/
def start : St (symbols.sem model.g)
  | 0 => (cells.cell 0).get (by decide +kernel)
  | 1 => (cells.cell 1).get (by decide +kernel)
  | 2 => (cells.cell 2).get (by decide +kernel)
  | 3 => (cells.cell 3).get (by decide +kernel)
  | 4 => (cells.cell 4).get (by decide +kernel)
  | 5 => (cells.cell 5).get (by decide +kernel)
  | _ + 6 => ()

theorem started : symbols.Started model.g values start := by
  refine ⟨cells, ?_, ?_⟩
  · obtain ⟨f, e, _⟩ := C40_initialises built (by decide) assembled admissible
    unfold cells
    rw [e]
  · intro v hv
    rw [nodes_eq] at hv
    simp only [List.mem_cons, List.not_mem_nil, or_false] at hv
    rcases hv with rfl | rfl | rfl | rfl | rfl | rfl <;>
      exact (Option.some_get (by decide +kernel)).symm

/-- Whether the sum is at most fifteen. -/
def cheap (st : St (symbols.sem model.g)) : Bool :=
  decide ((single (symbols.shown model.g st 3)).data.headD 0 ≤ 15)

/-- Set the first integer to five and exchange the ends of the list; then try nine for the second
integer. -/
def proposals : List (Proposal (symbols.sem model.g) (List Move)) :=
  [⟨[(0, [.setValue 0 5]), (1, [.exchange 0 2])], cheap⟩, ⟨[(0, [.setValue 1 9])], cheap⟩]

def outcome : Res (St (symbols.sem model.g) × (Int → Bool)) :=
  history model.g [] (symbols.sem model.g) (symbols.act model.g) (start, fun _ => false) proposals

/-- The first proposal is accepted, the second one rejected; all hypotheses of `C40_…` are met. -/
example : (∀ p ∈ proposals, p.Legal model.g) ∧ (match outcome with
    | .ok r => (List.range 6).map (symbols.shown model.g r.1)
    | _ => []) =
      [[⟨[3], [5, 2, 3]⟩], [⟨[3], [2, 1, 0]⟩], [⟨[3], [7, 3, 3]⟩], [⟨[], [13]⟩], [⟨[], [7]⟩], [⟨[], [0]⟩]] := by
  refine ⟨?_, by decide +kernel⟩
  intro p hp
  simp only [proposals, List.mem_cons, List.not_mem_nil, or_false] at hp
  rcases hp with rfl | rfl
  · exact ⟨by decide, by rw [decisions_eq]; decide⟩
  · exact ⟨by decide, by rw [decisions_eq]; decide⟩

/-- Lazy evaluation: read the sum, set the list, read the sum again. -/
def lazyHistory : List (StateOp Val) :=
  [.read 3, .set 1 [⟨[3], [2, 1, 0]⟩], .read 2, .reset 0, .read 5]

example : (match lazyHistory.foldlM (stateStep model.g (symbols.sem model.g) values) PState.empty with
    | .ok st => (List.range 6).map fun v => (st.cell v).map (symbols.sem model.g v).view
    | _ => []) =
      [some [⟨[3], [1, 2, 3]⟩], some [⟨[3], [2, 1, 0]⟩], some [⟨[3], [3, 3, 3]⟩], some [⟨[], [9]⟩],
        some [⟨[], [7]⟩], some [⟨[], [0]⟩]] := by
  decide +kernel

end WholeExample

end Verif
