import Verif.Lemmas.DeclaredWhole
import Verif.Props.Whole

set_option linter.unusedSectionVars false
set_option linter.unusedSimpArgs false
set_option linter.unusedVariables false

/-!
# C16, C35, C36, C37 for whole models
-/

namespace Verif

open Graph PyModel

/-- The values can be represented: no overflow, and sizes that fit into 64 bits. -/
def Symbols.Representable (g : Graph) (vals : Nat → Val) : Prop :=
  ∀ v ∈ g.nodes, ∀ a ∈ vals v, a.data.length ≤ 2 ^ 63 ∧ ∀ x ∈ a.data, Finite x

/-- Every symbol is one whose declared range can be trusted if its operands' can (`Kind.Tame`). -/
def Symbols.Tame (S : Symbols) (g : Graph) (claim : Nat → Claim) : Prop :=
  ∀ v ∈ g.nodes, (S.kind v).Tame ((g.mem v).preds.map claim) (S.inShapes g v)

/-- C35, C36 and C37 for whole models of the symbols in the catalog: whatever values the decisions are given, all
values of all symbols are in the ranges which the symbols declare by calling each other, and are integers where
they declare so.  Missing: the symbols excluded by `Kind.Tame`, and overflow. -/
theorem C35_whole_partial {ops : List ModelOp} {m : PyModel} (hr : PyModel.new.run ops = .ok m)
    (hl : 0 < lockDepth ops) {S : Symbols} (hS : S.Assembled m.g) {A vals : Nat → Val}
    (ev : Evaluates m.g (S.sem m.g) A vals) {claim : Nat → Claim} (hd : S.Declared m.g claim)
    (ht : S.Tame m.g claim) (hf : Symbols.Representable m.g vals) :
    ∀ v ∈ m.g.nodes, ∀ a ∈ vals v, ∀ x ∈ a.data,
      (claim v).range.Has x ∧ ((claim v).integral = true → IsInt x) :=
  hS.claims (reachable hr).wf ((C18_lock_count hr).2.2 hl) ev hd ht hf

/-- C35, C36 and C37 for whole models and all histories of proposals. -/
theorem C35_history_partial {ops : List ModelOp} {m : PyModel} (hr : PyModel.new.run ops = .ok m)
    (hl : 0 < lockDepth ops) {S : Symbols} (hS : S.Assembled m.g)
    {A : Nat → Val} (hA : S.Admissible m.g A) {st : St (S.sem m.g)} (hst : S.Started m.g A st)
    (ps : List (Proposal (S.sem m.g) (List Move))) (hps : ∀ p ∈ ps, p.Legal m.g)
    {r : St (S.sem m.g) × (Int → Bool)}
    (he : history m.g [] (S.sem m.g) (S.act m.g) (st, fun _ => false) ps = .ok r)
    {claim : Nat → Claim} (hd : S.Declared m.g claim) (ht : S.Tame m.g claim)
    (hf : Symbols.Representable m.g (S.shown m.g r.1)) :
    ∀ v ∈ m.g.nodes, (claim v).Holds (S.shown m.g r.1 v) :=
  C35_whole_partial hr hl hS (C40_incremental_eq_fresh_partial hr hl hS hA hst ps hps he).1 hd ht hf

/-- C36 for whole models: the value of each reduction is in the range that it declares by asking its operand for its
range and its possible sizes. -/
theorem C36_whole_partial {ops : List ModelOp} {m : PyModel} (hr : PyModel.new.run ops = .ok m)
    (hl : 0 < lockDepth ops) {S : Symbols} (hS : S.Assembled m.g) {A vals : Nat → Val}
    (ev : Evaluates m.g (S.sem m.g) A vals) {claim : Nat → Claim} (hd : S.Declared m.g claim)
    (ht : S.Tame m.g claim) (hf : Symbols.Representable m.g vals) :
    ∀ v ∈ m.g.nodes, ((∃ op init, S.kind v = .reduce op init) ∨ (∃ op init, S.kind v = .fold op init) ∨
        ∃ axis init, S.kind v = .partialSum axis init) →
      ∀ a ∈ vals v, ∀ x ∈ a.data, (claim v).range.lo ≤ x ∧ x ≤ (claim v).range.hi :=
  fun v hv _ a ha x hx => (C35_whole_partial hr hl hS ev hd ht hf v hv a ha x hx).1

/-- C37 for whole models: a symbol that declares to be integral has no other than integer values. -/
theorem C37_whole_partial {ops : List ModelOp} {m : PyModel} (hr : PyModel.new.run ops = .ok m)
    (hl : 0 < lockDepth ops) {S : Symbols} (hS : S.Assembled m.g) {A vals : Nat → Val}
    (ev : Evaluates m.g (S.sem m.g) A vals) {claim : Nat → Claim} (hd : S.Declared m.g claim)
    (ht : S.Tame m.g claim) (hf : Symbols.Representable m.g vals) :
    ∀ v ∈ m.g.nodes, (claim v).integral = true → ∀ a ∈ vals v, ∀ x ∈ a.data, ∃ k : Int, x = k :=
  fun v hv hi a ha x hx => (C35_whole_partial hr hl hS ev hd ht hf v hv a ha x hx).2 hi

/-- C16 for whole models of the symbols in the catalog (which has no slices): whatever values the decisions are
given, every symbol's own report of its size is right, and the bounds found by following the reports of dynamic
symbols, to any depth, contain the actual size. -/
theorem C16_whole_partial {ops : List ModelOp} {m : PyModel} (hr : PyModel.new.run ops = .ok m)
    {S : Symbols} (hS : S.Assembled m.g) {A vals : Nat → Val} (ev : Evaluates m.g (S.sem m.g) A vals) :
    ∀ v ∈ m.g.nodes,
      (S.sizeInfo m.g v).Describes (fun u => (single (vals u)).data.length) (single (vals v)).data.length ∧
      (dynamicShape (Kind.shape1 (S.shapes v)) = true → ∀ depth, ∃ t,
        (S.sizeInfo m.g v).substitute (S.sizeInfo m.g) depth = .ok t ∧
        (∀ n ∈ t.min, n ≤ ((single (vals v)).data.length : Int)) ∧
        ∀ n ∈ t.max, ((single (vals v)).data.length : Int) ≤ n) := by
  have w := (reachable hr).wf
  intro v hv
  exact ⟨hS.describes w ev hv, fun hd depth => C16_substitute_partial (hS.chain w ev) ⟨hv, hd⟩ depth⟩

/-! ## A concrete model

`s` a set of two to four of the numbers 0 to 5, `|s - 3|` and its size, and one plus the sum of `s`. -/

namespace DeclaredExample

def ops : List ModelOp :=
  [.decision 0, .node 1 [] true, .node 2 [0, 1] true, .node 3 [2] true, .node 4 [0] true, .node 5 [3] true,
    .lock]

def model : PyModel := match PyModel.new.run ops with
  | .ok m => m
  | _ => PyModel.new

theorem built : PyModel.new.run ops = .ok model := rfl

def kind : Nat → Kind
  | 0 => .collection 6 2 4
  | 1 => .constant ⟨[], [3]⟩
  | 2 => .binary .subtract
  | 3 => .unary .absolute
  | 4 => .reduce .sum 1
  | 5 => .size
  | _ => .constant ⟨[], []⟩

def shapes : Nat → List (List Int)
  | 0 => [[-1]]
  | 2 => [[-1]]
  | 3 => [[-1]]
  | _ => [[]]

def symbols : Symbols := ⟨kind, shapes⟩

def claim : Nat → Claim
  | 0 => ⟨⟨0, 5⟩, true⟩
  | 1 => ⟨⟨3, 3⟩, true⟩
  | 2 => ⟨⟨-3, 2⟩, true⟩
  | 3 => ⟨⟨0, 3⟩, true⟩
  | 4 => ⟨⟨1, 21⟩, true⟩
  | 5 => ⟨⟨0, 2 ^ 63⟩, true⟩
  | _ => ⟨⟨0, 0⟩, true⟩

def values : Nat → Val
  | 0 => [⟨[-1], [4, 0, 5]⟩]
  | 1 => [⟨[], [3]⟩]
  | 2 => [⟨[-1], [1, -3, 2]⟩]
  | 3 => [⟨[-1], [1, 3, 2]⟩]
  | 4 => [⟨[], [10]⟩]
  | 5 => [⟨[], [3]⟩]
  | _ => []

theorem nodes_eq : model.g.nodes = [0, 1, 2, 3, 4, 5] := by decide +kernel

theorem decisions_eq : model.g.decisions = [0] := by decide +kernel

theorem assembled : symbols.Assembled model.g := by
  refine ⟨?_, ?_, ?_, ?_, ?_⟩
  · intro v hv
    rw [nodes_eq] at hv
    simp only [List.mem_cons, List.not_mem_nil, or_false] at hv
    rcases hv with rfl | rfl | rfl | rfl | rfl | rfl <;> decide +kernel
  · intro v hv
    rw [nodes_eq] at hv
    simp only [List.mem_cons, List.not_mem_nil, or_false] at hv
    rcases hv with rfl | rfl | rfl | rfl | rfl | rfl
    · trivial
    · show Arr.WF _
      decide +kernel
    · exact ⟨by decide +kernel, by decide +kernel⟩
    · trivial
    · trivial
    · trivial
  · intro v hv
    rw [nodes_eq] at hv
    simp only [List.mem_cons, List.not_mem_nil, or_false] at hv
    rcases hv with rfl | rfl | rfl | rfl | rfl | rfl <;> decide +kernel
  · intro v hv
    rw [nodes_eq] at hv
    rw [decisions_eq]
    simp only [List.mem_cons, List.not_mem_nil, or_false] at hv
    rcases hv with rfl | rfl | rfl | rfl | rfl | rfl <;> decide +kernel
  · intro v hv
    rw [nodes_eq] at hv
    match v, hv with
    | 0, hv => simp at hv
    | 1, hv => simp at hv
    | 2, hv => simp at hv
    | 3, hv => simp at hv
    | 4, hv => simp at hv
    | 5, hv => simp at hv
    | v + 6, _ => rfl

/-- All hypotheses of `C35_whole_partial` that concern declarations and values are met: the sum of at most four
numbers between 0 and 5, with initial value 1, is declared to be at most 21. -/
example : symbols.Declared model.g claim ∧ symbols.Tame model.g claim ∧
    (∀ v ∈ model.g.nodes, (claim v).Holds (values v)) ∧ Symbols.Representable model.g values ∧
    (∀ v ∈ model.g.nodes, values v = (symbols.sem model.g v).f (operands model.g values values v)) := by
  refine ⟨⟨?_, ?_⟩, ?_, ?_, ?_, ?_⟩
  all_goals (
    intro v hv
    rw [nodes_eq] at hv
    simp only [List.mem_cons, List.not_mem_nil, or_false] at hv
    rcases hv with rfl | rfl | rfl | rfl | rfl | rfl)
  all_goals first
    | trivial
    | exact ⟨trivial, by decide⟩
    | decide +kernel
    | exact ⟨by simp [UnaryOp.Sound], fun h => nomatch h⟩
    | (intro a ha x hx
       simp only [values, List.mem_cons, List.not_mem_nil, or_false] at ha
       subst ha
       simp only [List.mem_cons, List.not_mem_nil, or_false] at hx
       rcases hx with rfl | rfl | rfl <;>
         exact ⟨by decide +kernel, fun _ => ⟨_, (Rat.coe_int_num_of_den_eq_one (by decide +kernel)).symm⟩⟩)

end DeclaredExample

end Verif
