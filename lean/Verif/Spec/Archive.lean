import Verif.Model.Archive

/-!
# Specification: when two models are the same to a user

A model that has been loaded has other addresses; its symbols are compared by position.
-/

namespace Verif

/-- Two kinds that a user cannot tell apart: bounds may be given or left out if they are the default ones; biases may
have been given in another way. -/
inductive Kind.Alike : Kind → Kind → Prop where
  | same (k : Kind) : Alike k k
  | integer (shape : List Int) {lo lo' hi hi' : Option Int} (hlo : lo.getD 0 = lo'.getD 0)
      (hhi : hi.getD 2000000000 = hi'.getD 2000000000) : Alike (.integer shape lo hi) (.integer shape lo' hi')
  | quadratic (n : Nat) {ops ops' : List BiasOp} (ho : ∀ op ∈ ops, op.inRange n) (ho' : ∀ op ∈ ops', op.inRange n)
      (h : biasesOf ops = biasesOf ops') : Alike (.quadratic n ops) (.quadratic n ops')

/-- What symbols made with the Python classes have in common: shapes have no negative dimensions
(`_as_cppshape`), lists hold all of their values (symbols.pyx 1793-1800), reductions have no initial value other
than the default one, quadratic models have a variable, and squares of variables that can only be 0 or 1 are
linear terms (symbols.pyx 2636-2640).  `isList` tells lists from sets; `logical` tells whether the first operand
has only the values 0 and 1. -/
def Kind.FromPython (k : Kind) (isList logical : Bool) : Prop :=
  match k with
  | .integer shape _ _ => ∀ n ∈ shape, 0 ≤ n
  | .binaryVar shape => ∀ n ∈ shape, 0 ≤ n
  | .collection n lo hi => isList = true → lo = n ∧ hi = n
  | .reduce op init => init = defaultInit op
  | .fold _ init => init = none
  | .partialSum _ init => init = 0
  | .reshape shape => ∀ n ∈ shape, 0 ≤ n
  | .quadratic n ops => 1 ≤ n ∧ (logical = true → ∀ i, (biasesOf ops).square i = 0)
  | _ => True

/-- The symbols of `d'` are the first `k` symbols of `d`, in the same order, with the same operands; in `d'`, symbol
number `i` is at address `i`. -/
structure Draft.Mirror (k : Nat) (d' d : Draft) : Prop where
  nodes : d'.m.g.nodes = List.range k
  le : k ≤ d.m.g.nodes.length
  kind : ∀ i < k, Kind.Alike (d'.S.kind i) (d.S.kind (d.at_ i))
  shapes : ∀ i < k, d'.S.shapes i = d.S.shapes (d.at_ i)
  preds : ∀ i < k, (d.m.g.mem (d.at_ i)).preds = (d'.m.g.mem i).preds.map d.at_
  below : ∀ i < k, ∀ p ∈ (d'.m.g.mem i).preds, p < i
  decisions : d'.m.g.decisions.map d.at_ = d.m.g.decisions.take k

/-- Where the file ends: with the decisions, or with all symbols. -/
def Draft.stop (d : Draft) (onlyDecision : Bool) : Nat :=
  if onlyDecision then d.m.g.decisions.length else d.m.g.nodes.length

/-- All symbols have been made with the Python classes. -/
def Draft.FromPython (decl : Symbols → Graph → Nat → Claim) (isList : Nat → Bool) (d : Draft) : Prop :=
  ∀ v ∈ d.m.g.nodes, (d.S.kind v).FromPython (isList v) (decl d.S d.m.g ((d.m.g.mem v).preds.headD 0)).logical

/-- The checks that constructors make of their operands' ranges hold for the present operands. -/
def Draft.Checked (decl : Symbols → Graph → Nat → Claim) (d : Draft) : Prop :=
  ∀ v ∈ d.m.g.nodes, (d.S.kind v).rangeChecks ((d.m.g.mem v).preds.map (decl d.S d.m.g))

/-- The objective and the constraints are (still) what `minimize` and `add_constraint` ask for. -/
structure Draft.Targets (decl : Symbols → Graph → Nat → Claim) (d : Draft) : Prop where
  objective : ∀ o, d.m.g.objective = some o → (d.S.kind o).isArray = true ∧ d.S.scalar o = true
  constraints : ∀ c ∈ d.m.g.constraints, (d.S.kind c).isArray = true ∧ d.S.scalar c = true ∧
    (decl d.S d.m.g c).logical = true

/-- A state that can be saved and loaded again: its value, if there is one, is valid; disjoint lists and sets have a
value, and all of their parts exist. -/
def Draft.StateFits (d : Draft) (v : Nat) (A : Option Val) : Prop :=
  (∀ x, A = some x → (d.S.sem d.m.g v).ok [x]) ∧
    ((d.S.kind v).isArray = false → A ≠ none ∧ (d.m.g.mem v).succs.length = (d.S.kind v).numParts)

end Verif
