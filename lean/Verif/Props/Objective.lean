import Verif.Model.Objective
import Verif.Props.Declared

set_option linter.unusedSectionVars false
set_option linter.unusedSimpArgs false
set_option linter.unusedVariables false

/-!
# C45: constraints and objective read the right values
-/

namespace Verif

open Graph PyModel

/-- The symbol is an array symbol of the model (as opposed to `DisjointLists` and `DisjointBitSets`, which the
types do not allow as objective or constraint). -/
def Symbols.IsArray (S : Symbols) (g : Graph) (v : Nat) : Prop := v ∈ g.nodes ∧ (S.shapes v).length = 1

/-- An array with exactly one element at all times. -/
def Symbols.SingleValued (S : Symbols) (v : Nat) : Prop :=
  dynamicShape (Kind.shape1 (S.shapes v)) = false ∧ (Kind.shape1 (S.shapes v)).prod = 1

/-- Declared to take no other values than 0 and 1. -/
def Claim.ZeroOne (c : Claim) : Prop := c.integral = true ∧ 0 ≤ c.range.lo ∧ c.range.hi ≤ 1

instance (S : Symbols) (v : Nat) : Decidable (S.SingleValued v) := by
  unfold Symbols.SingleValued; infer_instance

instance (c : Claim) : Decidable c.ZeroOne := by unfold Claim.ZeroOne; infer_instance

/-- The objective and constraints of a model are as required. -/
structure Symbols.Targeted (S : Symbols) (g : Graph) (claim : Nat → Claim) : Prop where
  objective : ∀ o ∈ g.objective, S.IsArray g o ∧ S.SingleValued o
  constraints : ∀ c ∈ g.constraints, S.IsArray g c ∧ S.SingleValued c ∧ (claim c).ZeroOne

/-- The calls are made with array symbols of the model. -/
def TargetOp.Typed (S : Symbols) (g : Graph) : TargetOp → Prop
  | .objective o => ∀ v ∈ o, S.IsArray g v
  | .constraint c => S.IsArray g c

/-- The constraints accepted: those that are logical and have one value. -/
def acceptedConstraints (S : Symbols) (claim : Nat → Claim) (ops : List TargetOp) : List Nat :=
  ops.filterMap fun op => match op with
    | .constraint c => if (claim c).ZeroOne ∧ S.SingleValued c then some c else none
    | .objective _ => none

/-- The objective after the calls: the last accepted choice. -/
def lastObjective (S : Symbols) (o : Option Nat) (ops : List TargetOp) : Option Nat :=
  ops.foldl (fun o op => match op with
    | .objective none => none
    | .objective (some v) => if S.SingleValued v then some v else o
    | .constraint _ => o) o

theorem Symbols.scalar_iff {S : Symbols} {v : Nat} : S.scalar v = true ↔ S.SingleValued v := by
  simp [Symbols.scalar, sizeOne, Symbols.SingleValued]

theorem Claim.logical_iff {c : Claim} : c.logical = true ↔ c.ZeroOne := by
  simp [Claim.logical, Claim.ZeroOne, and_assoc]

/-- C45, choice: for every sequence of calls that choose objectives and constraints, exactly those are accepted
that have a single value, and in case of constraints are logical; the others are rejected without any effect. -/
theorem C45_choice {S : Symbols} {claim : Nat → Claim} (ops : List TargetOp) {g : Graph}
    (ht : S.Targeted g claim) (hops : ∀ op ∈ ops, op.Typed S g) :
    ∃ g', S.targets claim g ops = .ok g' ∧ S.Targeted g' claim ∧
      g' = { g with objective := lastObjective S g.objective ops,
                    constraints := g.constraints ++ acceptedConstraints S claim ops } := by
  induction ops generalizing g with
  | nil => exact ⟨g, rfl, ht, by simp [lastObjective, acceptedConstraints]⟩
  | cons op ops ih =>
    have hop := hops op (by simp)
    have hrest : ∀ op ∈ ops, op.Typed S g := fun o ho => hops o (List.mem_cons_of_mem _ ho)
    cases op with
    | objective o =>
      cases o with
      | none =>
        have h1 : S.target claim g (.objective none) = .ok { g with objective := none } := by
          simp [Symbols.target, Graph.setObjective, guardUB, guardThrow]
        obtain ⟨g', h2, h3, h4⟩ := ih (g := { g with objective := none }) ⟨by simp, ht.constraints⟩ hrest
        refine ⟨g', ?_, h3, ?_⟩
        · simp only [Symbols.targets, h1, h2]
        · rw [h4]
          simp [lastObjective, acceptedConstraints]
      | some v =>
        have hv : S.IsArray g v := hop v rfl
        by_cases hs : S.SingleValued v
        · have h1 : S.target claim g (.objective (some v)) = .ok { g with objective := some v } := by
            simp [Symbols.target, Graph.setObjective, guardUB, guardThrow, hv.1, Symbols.scalar_iff.2 hs]
          obtain ⟨g', h2, h3, h4⟩ := ih (g := { g with objective := some v })
            ⟨fun o ho => by obtain rfl : v = o := by simpa using ho
                            exact ⟨hv, hs⟩, ht.constraints⟩ hrest
          refine ⟨g', ?_, h3, ?_⟩
          · simp only [Symbols.targets, h1, h2]
          · rw [h4]
            simp [lastObjective, acceptedConstraints, hs]
        · have h0 : ¬ S.scalar v = true := fun h => hs (Symbols.scalar_iff.1 h)
          have h1 : S.target claim g (.objective (some v)) = .throw := by
            simp [Symbols.target, Graph.setObjective, guardUB, guardThrow, hv.1, h0]
          obtain ⟨g', h2, h3, h4⟩ := ih ht hrest
          refine ⟨g', ?_, h3, ?_⟩
          · simp only [Symbols.targets, h1, h2]
          · rw [h4]
            simp [lastObjective, acceptedConstraints, hs]
    | constraint c =>
      have hc : S.IsArray g c := hop
      by_cases hz : (claim c).ZeroOne ∧ S.SingleValued c
      · have h1 : S.target claim g (.constraint c) = .ok { g with constraints := g.constraints ++ [c] } := by
          simp [Symbols.target, Graph.addConstraint, guardUB, guardThrow, hc.1, Symbols.scalar_iff.2 hz.2,
            Claim.logical_iff.2 hz.1]
        obtain ⟨g', h2, h3, h4⟩ := ih (g := { g with constraints := g.constraints ++ [c] })
          ⟨ht.objective, fun d hd => by
            rcases List.mem_append.1 hd with hd | hd
            · exact ht.constraints d hd
            · obtain rfl : d = c := by simpa using hd
              exact ⟨hc, hz.2, hz.1⟩⟩ hrest
        refine ⟨g', ?_, h3, ?_⟩
        · simp only [Symbols.targets, h1, h2]
        · rw [h4]
          simp [lastObjective, acceptedConstraints, hz]
      · have h1 : S.target claim g (.constraint c) = .throw := by
          simp only [Symbols.target, Graph.addConstraint]
          rw [(guardUB_eq_ok.2 hc.1 : guardUB (c ∈ g.nodes) = .ok ())]
          by_cases hl : (claim c).logical = true
          · have h0 : ¬ S.scalar c = true := fun h => hz ⟨Claim.logical_iff.1 hl, Symbols.scalar_iff.1 h⟩
            simp [guardThrow, hl, h0]
          · simp [guardThrow, hl]
        obtain ⟨g', h2, h3, h4⟩ := ih ht hrest
        refine ⟨g', ?_, h3, ?_⟩
        · simp only [Symbols.targets, h1, h2]
        · rw [h4]
          simp [lastObjective, acceptedConstraints, hz]

theorem single_value {S : Symbols} {g : Graph} (h : S.Assembled g) (w : g.WF) {A vals : Nat → Val}
    (ev : Evaluates g (S.sem g) A vals) {v : Nat} (hv : S.IsArray g v) (hs : S.SingleValued v) :
    ∃ x, (single (vals v)).data = [x] := by
  have hne : S.shapes v ≠ [] := by
    intro h0
    have := hv.2
    simp [h0] at this
  obtain ⟨h1, h2⟩ := Symbols.first_output hne (h.shaped w ev hv.1)
  unfold Arr.WF at h2
  rw [if_neg (by unfold Arr.dynamic; rw [h1, hs.1]; simp), h1, hs.2] at h2
  exact List.length_eq_one_iff.1 (by exact_mod_cast h2)

theorem feasibleLoop_eq {vals : Nat → Val} (cs : List Nat) (h : ∀ c ∈ cs, ∃ x, (single (vals c)).data = [x]) :
    ∃ b, feasibleLoop vals cs = .ok b ∧
      (b = true ↔ ∀ c ∈ cs, ∃ x, (single (vals c)).data = [x] ∧ x ≠ 0) := by
  induction cs with
  | nil => exact ⟨true, rfl, by simp⟩
  | cons c cs ih =>
    obtain ⟨b, h1, h2⟩ := ih fun d hd => h d (List.mem_cons_of_mem _ hd)
    obtain ⟨x, hx⟩ := h c (by simp)
    by_cases h0 : x = 0
    · refine ⟨false, ?_, ?_⟩
      · simp [feasibleLoop, guardUB, hx, Arr.read, h0]
      · simp [hx, h0]
    · refine ⟨b, ?_, ?_⟩
      · simp [feasibleLoop, guardUB, hx, Arr.read, h0, h1]
      · rw [h2]
        simp [hx, h0]

/-- C45, reading: in every model of the catalog's symbols, whatever values the decisions have, the model is
feasible exactly when every constraint's single value is non-zero, and the energy is the objective's single value,
or 0 if there is no objective. -/
theorem C45_feasible_energy {ops : List ModelOp} {m : PyModel} (hr : PyModel.new.run ops = .ok m)
    {S : Symbols} (hS : S.Assembled m.g) {A vals : Nat → Val} (ev : Evaluates m.g (S.sem m.g) A vals)
    {claim : Nat → Claim} (ht : S.Targeted m.g claim) :
    (∃ b, m.g.feasible vals = .ok b ∧
      (b = true ↔ ∀ c ∈ m.g.constraints, ∃ x, (single (vals c)).data = [x] ∧ x ≠ 0)) ∧
    ∃ e, m.g.energy vals = .ok e ∧ (m.g.objective = none → e = 0) ∧
      ∀ o ∈ m.g.objective, (single (vals o)).data = [e] := by
  have w := (reachable hr).wf
  refine ⟨feasibleLoop_eq _ fun c hc => ?_, ?_⟩
  · obtain ⟨h1, h2, _⟩ := ht.constraints c hc
    exact single_value hS w ev h1 h2
  · unfold Graph.energy
    cases ho : m.g.objective with
    | none => exact ⟨0, rfl, fun _ => rfl, by simp⟩
    | some o =>
      obtain ⟨h1, h2⟩ := ht.objective o (by rw [ho]; rfl)
      obtain ⟨x, hx⟩ := single_value hS w ev h1 h2
      refine ⟨x, ?_, by simp, ?_⟩
      · simp [Arr.front, Arr.read, hx]
      · intro o' h
        obtain rfl : o = o' := by simpa using h
        exact hx

/-- C45, reading after any history of proposals. -/
theorem C45_history {ops : List ModelOp} {m : PyModel} (hr : PyModel.new.run ops = .ok m)
    (hl : 0 < lockDepth ops) {S : Symbols} (hS : S.Assembled m.g)
    {A : Nat → Val} (hA : S.Admissible m.g A) {st : St (S.sem m.g)} (hst : S.Started m.g A st)
    (ps : List (Proposal (S.sem m.g) (List Move))) (hps : ∀ p ∈ ps, p.Legal m.g)
    {r : St (S.sem m.g) × (Int → Bool)}
    (he : history m.g [] (S.sem m.g) (S.act m.g) (st, fun _ => false) ps = .ok r)
    {claim : Nat → Claim} (ht : S.Targeted m.g claim) :
    (∃ b, m.g.feasible (S.shown m.g r.1) = .ok b ∧
      (b = true ↔ ∀ c ∈ m.g.constraints, ∃ x, (single (S.shown m.g r.1 c)).data = [x] ∧ x ≠ 0)) ∧
    ∃ e, m.g.energy (S.shown m.g r.1) = .ok e ∧ (m.g.objective = none → e = 0) ∧
      ∀ o ∈ m.g.objective, (single (S.shown m.g r.1 o)).data = [e] :=
  C45_feasible_energy hr hS (C40_incremental_eq_fresh_partial hr hl hS hA hst ps hps he).1 ht

/-- C45: as long as the declarations with which the constraints were accepted still stand, each constraint has the
value 0 or 1.  Missing: constraints changed in place after having been accepted (`C45_in_place_fails`), and the
symbols excluded by `Kind.Tame`. -/
theorem C45_zero_one_partial {ops : List ModelOp} {m : PyModel} (hr : PyModel.new.run ops = .ok m)
    (hl : 0 < lockDepth ops) {S : Symbols} (hS : S.Assembled m.g) {A vals : Nat → Val}
    (ev : Evaluates m.g (S.sem m.g) A vals) {claim : Nat → Claim} (hd : S.Declared m.g claim)
    (hT : S.Tame m.g claim) (hf : Symbols.Representable m.g vals) (ht : S.Targeted m.g claim) :
    ∀ c ∈ m.g.constraints, (single (vals c)).data = [0] ∨ (single (vals c)).data = [1] := by
  intro c hc
  obtain ⟨h1, h2, h3, h4, h5⟩ := ht.constraints c hc
  obtain ⟨x, hx⟩ := single_value hS (reachable hr).wf ev h1 h2
  have hmem : single (vals c) ∈ vals c := by
    unfold single
    cases hv : vals c with
    | nil => rw [hv] at hx; simp [single] at hx
    | cons a as => simp
  obtain ⟨⟨h6, h7⟩, h8⟩ := C35_whole_partial hr hl hS ev hd hT hf c h1.1 _ hmem x (by rw [hx]; simp)
  obtain ⟨k, rfl⟩ := h8 h3
  have h9 : (0 : Rat) ≤ k := le_trans h4 h6
  have h10 : (k : Rat) ≤ 1 := le_trans h7 h5
  have h11 : 0 ≤ k := by exact_mod_cast h9
  have h12 : k ≤ 1 := by exact_mod_cast h10
  rw [hx]
  obtain rfl | rfl : k = 0 ∨ k = 1 := by omega
  · left; simp
  · right; simp

namespace WholeExample

def claim : Nat → Claim
  | 0 => ⟨⟨0, 10⟩, true⟩
  | 1 => ⟨⟨0, 2⟩, true⟩
  | 2 => ⟨⟨0, 12⟩, true⟩
  | 3 => ⟨⟨0, 36⟩, true⟩
  | 4 => ⟨⟨7, 7⟩, true⟩
  | _ => ⟨⟨0, 1⟩, true⟩

/-- The model of `C40_…`: its sum is the objective, `sum ≤ 7` a constraint.  Their declarations are met. -/
example : symbols.Targeted model.g claim ∧ symbols.Declared model.g claim := by
  refine ⟨⟨?_, ?_⟩, ?_, ?_⟩
  · intro o ho
    obtain rfl : 3 = o := by
      have : model.g.objective = some 3 := by decide +kernel
      rw [this] at ho
      simpa using ho
    exact ⟨⟨by decide +kernel, rfl⟩, by decide +kernel⟩
  · intro c hc
    have : model.g.constraints = [5] := by decide +kernel
    rw [this] at hc
    obtain rfl : c = 5 := by simpa using hc
    exact ⟨⟨by decide +kernel, rfl⟩, by decide +kernel, by decide +kernel⟩
  all_goals (
    intro v hv
    rw [nodes_eq] at hv
    simp only [List.mem_cons, List.not_mem_nil, or_false] at hv
    rcases hv with rfl | rfl | rfl | rfl | rfl | rfl <;> first | decide +kernel | trivial)

/-- After the two proposals the sum is 13 and the model infeasible. -/
example : (match outcome with
    | .ok r => some (model.g.energy (symbols.shown model.g r.1), model.g.feasible (symbols.shown model.g r.1))
    | _ => none) = some (.ok 13, .ok false) := by
  decide +kernel

/-- `minimize(x)` and `add_constraint(sum)` are rejected: `x` has three elements, the sum is not logical. -/
example : symbols.target claim model.g (.objective (some 0)) = .throw ∧
    symbols.target claim model.g (.constraint 3) = .throw := ⟨rfl, rfl⟩

end WholeExample

/-! ## A constraint changed in place

`x` binary, `y` an integer from 0 to 5, `c = x * x` as a product with a variable number of operands,
`add_constraint(c)`, then `c *= y`. -/

namespace InPlaceExample

def build : List ModelOp := [.decision 0, .decision 1, .node 2 [0, 0] true]

def change : List ModelOp := [.addConstraint 2, .addOperand 2 1, .lock]

def get (r : Res PyModel) : PyModel := match r with
  | .ok m => m
  | _ => PyModel.new

def early : PyModel := get (PyModel.new.run build)

def late : PyModel := get (PyModel.new.run (build ++ change))

theorem early_built : PyModel.new.run build = .ok early := rfl

theorem late_built : PyModel.new.run (build ++ change) = .ok late := rfl

def symbols : Symbols where
  kind := fun v => match v with
    | 0 => .binaryVar []
    | 1 => .integer [] (some 0) (some 5)
    | 2 => .nary .multiply
    | _ => .constant ⟨[], []⟩
  shapes := fun _ => [[]]

def earlyClaim : Nat → Claim
  | 0 => ⟨⟨0, 1⟩, true⟩
  | 1 => ⟨⟨0, 5⟩, true⟩
  | _ => ⟨⟨0, 1⟩, true⟩

def lateClaim : Nat → Claim
  | 0 => ⟨⟨0, 1⟩, true⟩
  | 1 => ⟨⟨0, 5⟩, true⟩
  | _ => ⟨⟨0, 5⟩, true⟩

def values : Nat → Val
  | 0 => [⟨[], [1]⟩]
  | _ => [⟨[], [5]⟩]

theorem early_nodes : early.g.nodes = [0, 1, 2] := by decide +kernel

theorem late_nodes : late.g.nodes = [0, 1, 2] := by decide +kernel

theorem late_decisions : late.g.decisions = [0, 1] := by decide +kernel

theorem assembled : symbols.Assembled late.g := by
  refine ⟨?_, ?_, ?_, ?_, ?_⟩
  · intro v hv
    rw [late_nodes] at hv
    simp only [List.mem_cons, List.not_mem_nil, or_false] at hv
    rcases hv with rfl | rfl | rfl <;> decide +kernel
  · intro v hv
    rw [late_nodes] at hv
    simp only [List.mem_cons, List.not_mem_nil, or_false] at hv
    rcases hv with rfl | rfl | rfl <;> trivial
  · intro v hv
    rw [late_nodes] at hv
    simp only [List.mem_cons, List.not_mem_nil, or_false] at hv
    rcases hv with rfl | rfl | rfl <;> decide +kernel
  · intro v hv
    rw [late_nodes] at hv
    rw [late_decisions]
    simp only [List.mem_cons, List.not_mem_nil, or_false] at hv
    rcases hv with rfl | rfl | rfl <;> decide +kernel
  · intro v hv
    rw [late_nodes] at hv
    match v, hv with
    | 0, hv => simp at hv
    | 1, hv => simp at hv
    | 2, hv => simp at hv
    | v + 3, _ => rfl

theorem early_declared : symbols.Declared early.g earlyClaim := by
  refine ⟨?_, ?_⟩ <;>
  · intro v hv
    rw [early_nodes] at hv
    simp only [List.mem_cons, List.not_mem_nil, or_false] at hv
    rcases hv with rfl | rfl | rfl <;> first | decide +kernel | trivial

theorem late_declared : symbols.Declared late.g lateClaim := by
  refine ⟨?_, ?_⟩ <;>
  · intro v hv
    rw [late_nodes] at hv
    simp only [List.mem_cons, List.not_mem_nil, or_false] at hv
    rcases hv with rfl | rfl | rfl <;> first | decide +kernel | trivial

theorem evaluates : Evaluates late.g (symbols.sem late.g) values values := by
  refine ⟨?_, ?_⟩
  · intro v hv
    rw [late_nodes] at hv
    simp only [List.mem_cons, List.not_mem_nil, or_false] at hv
    rcases hv with rfl | rfl | rfl <;> decide +kernel
  · intro v hv
    rw [late_nodes] at hv
    simp only [List.mem_cons, List.not_mem_nil, or_false] at hv
    rcases hv with rfl | rfl | rfl
    · exact ⟨[1], rfl, rfl, by
        intro v hv
        simp only [List.mem_cons, List.not_mem_nil, or_false] at hv
        subst hv
        exact ⟨_, rfl, by decide, by decide⟩⟩
    · exact ⟨[5], rfl, rfl, by
        intro v hv
        simp only [List.mem_cons, List.not_mem_nil, or_false] at hv
        subst hv
        exact ⟨_, rfl, by decide, by decide⟩⟩
    · have hop : operands late.g values values 2 = [[⟨[], [1]⟩], [⟨[], [1]⟩], [⟨[], [5]⟩]] := by
        decide +kernel
      rw [hop]
      refine ⟨?_, by simp, ?_⟩ <;>
      · intro x hx
        simp only [List.mem_cons, List.map_cons, List.map_nil, List.not_mem_nil, or_false] at hx
        rcases hx with rfl | rfl | rfl <;> decide +kernel

end InPlaceExample

open InPlaceExample in
/-- C45: what `add_constraint` checks can be undone afterwards.  `c` is accepted as a constraint because it declares
to be logical; after `c *= y` it is still a constraint of the model, but it no longer declares to be logical, and
with `y = 5` its value is 5. -/
theorem C45_in_place_fails :
    ∃ (before after : List ModelOp) (m1 m2 : PyModel) (S : Symbols) (claim1 claim2 : Nat → Claim)
      (vals : Nat → Val) (c : Nat),
      PyModel.new.run before = .ok m1 ∧ S.Declared m1.g claim1 ∧ (∃ g, S.target claim1 m1.g (.constraint c) = .ok g) ∧
      (claim1 c).ZeroOne ∧
      PyModel.new.run (before ++ .addConstraint c :: after) = .ok m2 ∧ 0 < lockDepth (.addConstraint c :: after) ∧
      S.Assembled m2.g ∧ S.Declared m2.g claim2 ∧
      Evaluates m2.g (S.sem m2.g) vals vals ∧
      c ∈ m2.g.constraints ∧ ¬ (claim2 c).ZeroOne ∧ (single (vals c)).data = [5] :=
  ⟨build, [.addOperand 2 1, .lock], early, late, symbols, earlyClaim, lateClaim, values, 2, early_built,
    early_declared, ⟨_, rfl⟩, by decide +kernel, late_built, by decide, assembled, late_declared, evaluates,
    by decide +kernel, by decide +kernel, rfl⟩

end Verif
