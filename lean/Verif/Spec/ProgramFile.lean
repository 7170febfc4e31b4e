import Verif.Model.ProgramFile
import Verif.Spec.Archive
import Verif.Spec.Programs

/-!
# Specification: programs with indexing symbols that can be saved, and when a loaded program is the same
-/

namespace Verif

/-- A slice `x[idx]` of an array of static shape `sh` that selects something; all numbers fit the address space. -/
inductive Viewed (sh : List Int) (idx : List BasicIndex) (P : Parsed) : Prop where
  /-- of an array of fixed size -/
  | fixed (dims : ∀ d ∈ sh, 0 < d) (small : 8 * shapeProd sh ≤ ssMax) (fits : ∀ i ∈ idx, i.Fits)
      (some : ∀ d ∈ selectShape sh idx, 0 < d) (strides : ∀ x ∈ P.strides, x ≤ ssMax)
  /-- of a dynamic array: `more` are the indices within a row -/
  | dynamic {rest : List Int} {a b c : Option Int} {more : List BasicIndex} (shape : sh = -1 :: rest)
      (indices : idx = .slice a b c :: more) (index : DynIndex rest a b c more) (small : 8 * shapeProd rest ≤ ssMax)
      (some : ∀ d ∈ selectShape rest more, 0 < d) (strides : ∀ x ∈ P.strides, x ≤ ssMax)

/-- What a row of a program made with the Python classes is like.  `isList` tells lists from sets. -/
def Row.FromPython (s : Script) (isList : Nat → Bool) (i : Nat) : Prop :=
  match (s.row i).built with
  /- Symbols of the catalog: their operands have the right types; a part of a disjoint decision is made after the parts before it;
  a reshaped array is contiguous; a quadratic model has asked its operand for its range. -/
  | .kind k => k.typed ((s.row i).ops.map fun p => (s.row p).built.asKind) = true ∧
      (∀ j, k = .output j → j = (s.take i).countP fun r => (s.row i).ops.headD 0 ∈ r.ops) ∧
      (k.isReshape = true → ∀ p ∈ (s.row i).ops, (s.row p).built.contiguous = true) ∧
      ∃ logical, k.FromPython (isList i) logical ∧
        ((∃ n l, k = .quadratic n l) → ∃ c, (s.row ((s.row i).ops.headD 0)).out.claim = .ok c ∧ c.logical = logical)
  /- Slices select something, of a contiguous array. -/
  | .basic sh idx P => Viewed sh idx P ∧
      ∀ p ∈ (s.row i).ops, (s.row p).built.asKind.isArray = true ∧ (s.row p).built.contiguous = true
  | .advanced _ _ _ => ∀ p ∈ (s.row i).ops, (s.row p).built.asKind.isArray = true
  | .permutation _ => s.isFullList ((s.row i).ops.getD 1 0) = true

/-- All symbols have been made with the Python classes. -/
def Script.FromPython (s : Script) (isList : Nat → Bool) : Prop := ∀ i < s.length, Row.FromPython s isList i

/-- Objective and constraints are arrays, as `minimize` and `add_constraint` ask for. -/
def Generated.FromPython (M : Generated) (isList : Nat → Bool) : Prop :=
  M.rows.FromPython isList ∧ (∀ o ∈ M.objective, (M.rows.row o).built.asKind.isArray = true) ∧
    ∀ c ∈ M.constraints, (M.rows.row c).built.asKind.isArray = true

/-- Two symbols that a user cannot tell apart, except by the numbers of their operands: `f` translates the numbers in `r'` to those
in `r`. -/
structure Row.Same (f : Nat → Nat) (r' r : Row) : Prop where
  ops : r'.ops.map f = r.ops
  shapes : r'.out.shapes = r.out.shapes
  /-- `min()`, `max()` and `integral()` -/
  claim : r'.out.claim = r.out.claim
  /-- `sizeinfo()`, which refers to another symbol -/
  size : { r'.out.size with array := r'.out.size.array.map f } = r.out.size
  const : r'.out.const = r.out.const
  decision : r'.decision = r.decision
  /-- decisions take the same moves -/
  node : r.decision = true → r'.node = r.node
  /-- the values of operands it is made for, and its value for them -/
  accepts : ∀ xs, r'.node.ok xs ↔ r.node.ok xs
  value : ∀ xs, r.node.ok xs → r'.node.f xs = r.node.f xs

/-- Two programs that build the same model: symbol `i` of `L` is symbol `f i` of `M`. -/
structure Generated.Same (f : Nat → Nat) (L M : Generated) : Prop where
  length : L.rows.length = M.rows.length
  onto : ∀ v < M.rows.length, ∃ i < L.rows.length, f i = v
  lt : ∀ i < L.rows.length, f i < M.rows.length
  inj : ∀ i < L.rows.length, ∀ j < L.rows.length, f i = f j → i = j
  row : ∀ i < L.rows.length, Row.Same f (L.rows.row i) (M.rows.row (f i))
  /-- the decisions come in the same order -/
  order : ∀ i j, i < j → j < L.rows.length → (L.rows.row i).decision = true → (L.rows.row j).decision = true → f i < f j
  /-- objective and constraints are among the symbols -/
  targets : (∀ o ∈ L.objective, o < L.rows.length) ∧ ∀ c ∈ L.constraints, c < L.rows.length
  objective : L.objective.map f = M.objective
  constraints : L.constraints.map f = M.constraints

end Verif
