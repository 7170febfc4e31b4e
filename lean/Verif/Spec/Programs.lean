import Verif.Spec.Generated
import Verif.Model.Programs
import Verif.Lemmas.Declared
import Verif.Props.BasicIndexingDynamic
import Verif.Props.Build

/-!
# Specification: the programs for which models are shown to be right

The conditions below exclude what is known to go wrong (the theorems ending in `_fails` of C16, C23, C26, C30, C31, C32, C35, C36).
-/

namespace Verif

open Graph

/-- What is needed of a symbol beyond its constructor's own checks.
* Symbols of the catalog: `Kind.Regular`; shapes given by the user have no negative dimensions.
* `x[idx]` with integers and slices: the selection is contiguous.  For an array `x` of fixed size it ends inside the array.  For a
  dynamic array the first index is a slice with positive step, and either rows have one element or all rows are selected.
* `x[arrays]`: `x` has fixed size and is not empty; unless `x` is a constant, index arrays with a dimension are not separated by a
  slice behind a leading slice.
* `A[x, :][:, x]`: `A` is an n x n matrix, at least 1 x 1 and of at most 2^28 elements. -/
def Row.Regular (r : Row) : Prop :=
  match r.built with
  | .kind k => k.Regular (r.ins.map Info.shapes) ∧ k.GivenShapes
  | .basic sh idx P => P.contiguous = true ∧
      ((∀ d ∈ sh, 0 ≤ d ∧ d ≤ ssMax) ∧ (∀ i ∈ idx, i.Fits) ∧ P.start + shapeProd P.shape ≤ shapeProd sh ∨
       ∃ rest a b c more, sh = -1 :: rest ∧ idx = .slice a b c :: more ∧ DynIndex rest a b c more ∧
        (∀ d ∈ selectShape rest more, 0 < d) ∧ (shapeProd rest = 1 ∨ (a.getD 0 = 0 ∧ b = none)))
  | .advanced idx P base => (∀ d ∈ P.operand, 0 < d) ∧
      (base = none → ¬ (separated (idx.map Option.isSome) = true ∧ 0 < leading (idx.map Option.isSome) ∧
        ∃ f, idx.reduceOption.head? = some f ∧ f.shape ≠ []))
  | .permutation x => ∃ n : Nat, 0 < n ∧ 8 * (n * n) ≤ 2 ^ 31 ∧ x.shape = [(n : Int), (n : Int)]

/-- The symbol is what a step of a program asks for: the same kind, index or places for arrays, and the same operands. -/
def Row.Realises (r : Row) (step : Term × List Nat) : Prop :=
  r.ops = step.2 ∧
  match step.1 with
  | .kind k => r.built = .kind k
  | .basic idx => ∃ sh P, r.built = .basic sh idx P
  | .advanced slots => ∃ idx P base, r.built = .advanced idx P base ∧ idx.map Option.isSome = slots
  | .permutation => ∃ x, r.built = .permutation x

namespace Script

/-- The values of the decisions are admissible. -/
abbrev Chosen (s : Script) (A : Nat → Val) : Prop :=
  ∀ i < s.length, (s.row i).decision = true → (s.row i).node.ok [A i]

/-- All symbols have the values that follow from their operands' values, and decisions those that they are given. -/
abbrev Follows (s : Script) (A vals : Nat → Val) : Prop :=
  ∀ i < s.length, vals i = (s.row i).node.f (if (s.row i).decision then [A i] else (s.row i).ops.map vals)

/-- All values fit doubles, all arrays have fewer than 2^63 elements. -/
def Representable (s : Script) : Prop :=
  ∀ A vals, s.Chosen A → s.Follows A vals → ∀ i < s.length, ∀ a ∈ vals i, (a.data.length : Int) ≤ ssMax ∧ ∀ x ∈ a.data, Finite x

/-- A dynamic symbol that says how many elements it has without going through a slice: it is a symbol of the catalog that refers to
itself or to such a symbol, or is indexed by such a symbol, without slices. -/
inductive Unsliced (s : Script) : Nat → Prop where
  | self {i : Nat} {k : Kind} : i < s.length → (s.row i).built = .kind k → dynamicShape (s.row i).out.shape = true →
      (s.sizes i).array = some i →
      (∀ j p, k = .output j → (s.row i).ops = [p] → ∃ P N, (s.row p).built = .kind (.disjointLists P N)) → Unsliced s i
  | binary {i b : Nat} {op : BinaryOp} : i < s.length → (s.row i).built = .kind (.binary op) →
      dynamicShape (s.row i).out.shape = true → (s.sizes i).array = some b → Unsliced s b → Unsliced s i
  | advanced {i b : Nat} {idx : List (Option Indexer)} {P : Adv} {base : Option (Arr Rat)} : i < s.length →
      (s.row i).built = .advanced idx P base → dynamicShape (s.row i).out.shape = true → (∀ o ∈ idx, o.isSome = true) →
      (s.sizes i).array = some b → Unsliced s b → Unsliced s i

/-- The slices `x[a:b]` that say correctly how many elements they have: all except those with `a < 0 < b` and those with `b = 0`. -/
def SayingSlice (a b : Option Int) : Prop := b ≠ some 0 ∧ ¬ (a.getD 0 < 0 ∧ 0 < b.getD (-1))

/-- A symbol whose size can be compared with that of others: of fixed size, or unsliced, or a slice of an unsliced vector that refers
to itself. -/
inductive Measured (s : Script) (i : Nat) : Prop where
  | fixed : dynamicShape (s.row i).out.shape = false → Measured s i
  | unsliced : s.Unsliced i → Measured s i
  | slice {x : Nat} {a b : Option Int} {P : Parsed} : (s.row i).built = .basic [-1] [.slice a b none] P → (s.row i).ops = [x] →
      s.Unsliced x → (s.sizes x).array = some x → SayingSlice a b → Measured s i

/-- The symbols that are taken as orders `x` of `n` elements in `A[x, :][:, x]`: decisions `model.list(n)`, and constants that contain only
integers from 0 to n - 1.  (Others may report entries outside of this range for a moment.) -/
def TakenAsOrder (s : Script) (n : Int) (p : Nat) : Prop :=
  (s.row p).built = .kind (.collection n n n) ∨
  ∃ a, (s.row p).built = .kind (.constant a) ∧ ∀ v ∈ a.data, ∃ k : Nat, v = k ∧ (k : Int) < n

/-- The symbols in `T` declare ranges that can be relied on, and all index arrays are among them.
* Comparisons and logical operations declare the same whatever their operands are.
* Other symbols of the catalog have operands in `T` and are `Kind.Tame`; reductions and sizes are taken of arrays of fixed size or
  of unsliced ones.
* Indexing takes values from arrays in `T`.
* The orders in `A[x, :][:, x]` are as above. -/
structure Trusted (s : Script) (T : Nat → Prop) : Prop where
  indices : ∀ i < s.length, ∀ idx P base, (s.row i).built = .advanced idx P base → ∀ p ∈ (s.row i).ops.tail, T p ∧ s.Measured p
  operands : ∀ i < s.length, T i → ∀ k, (s.row i).built = .kind k → k.isTruth = false →
    (∀ p ∈ (s.row i).ops, T p) ∧
    (∀ cs, (s.row i).ins.mapM Info.claim = .ok cs → k.Tame cs ((s.row i).ins.map Info.shapes)) ∧
    ((∃ op init, k = .reduce op init) ∨ k = .size →
      ∀ p ∈ (s.row i).ops, dynamicShape (s.row p).out.shape = false ∨ s.Unsliced p)
  base : ∀ i < s.length, T i → (∀ k, (s.row i).built ≠ .kind k) → ∀ p ∈ (s.row i).ops.head?, T p
  orders : ∀ i < s.length, ∀ x, (s.row i).built = .permutation x → ∀ p ∈ (s.row i).ops.tail, s.TakenAsOrder (x.shape.headD 0) p

/-- All of the above. -/
structure Supported (s : Script) (T : Nat → Prop) : Prop where
  regular : ∀ i < s.length, (s.row i).Regular
  trusted : s.Trusted T
  representable : s.Representable

end Script

/-- The proposal moves decisions of the model, each at most once. -/
def Graph.Proposal.Allowed {V D M : Type} {sem : Nat → NodeSem V D} (g : Graph) (q : Graph.Proposal sem M) : Prop :=
  (q.moves.map Prod.fst).Nodup ∧ ∀ d ∈ q.moves.map Prod.fst, d ∈ g.decisions

/-- What the symbols can be seen to show: after the decisions have been given values which they accept and any history of
proposals, and during the next proposal, when the acceptance function is asked. -/
inductive Generated.Visible (M : Generated) (m : PyModel) : (Nat → Val) → Prop where
  | after {A : Nat → Val} {st : St M.rows.sem} {ps : List (Graph.Proposal M.rows.sem (List Move))} {r : St M.rows.sem × (Int → Bool)} :
      M.rows.Accepts m.g A → M.rows.Starts m.g A st → (∀ q ∈ ps, q.Allowed m.g) →
      Graph.history m.g [] M.rows.sem M.rows.act (st, fun _ => false) ps = .ok r → M.Visible m (M.rows.shown r.1)
  | during {A : Nat → Val} {st : St M.rows.sem} {ps : List (Graph.Proposal M.rows.sem (List Move))} {r : St M.rows.sem × (Int → Bool)}
      {q : Graph.Proposal M.rows.sem (List Move)} {moved seen : St M.rows.sem} {changed : List Nat × (Int → Bool)} :
      M.rows.Accepts m.g A → M.rows.Starts m.g A st → (∀ q ∈ ps, q.Allowed m.g) →
      Graph.history m.g [] M.rows.sem M.rows.act (st, fun _ => false) ps = .ok r → q.Allowed m.g →
      q.moves.foldlM (Graph.moveOne M.rows.sem M.rows.act) r.1 = .ok moved →
      m.g.descendants (fun _ => false) (q.moves.map Prod.fst) = .ok changed →
      Graph.propagateAll m.g M.rows.sem moved changed.1 = .ok seen → M.Visible m (M.rows.shown seen)

/-- The indices that `x[arrays]` takes from its index arrays are right: `x` has as many axes as there are places for arrays and slices; the
array in a place contains integers that are valid along that axis of `x`; all arrays have as many elements as the first. -/
def Row.InBounds (r : Row) (vals : Nat → Val) : Prop :=
  ∀ idx P base, r.built = .advanced idx P base → ∃ (x : Arr Rat) (ys : List (Arr Rat)),
    r.ops.map vals = [x] :: ys.map (fun y => [y]) ∧ idx.length = x.shape.length ∧
    List.Forall₂ (fun (d : Int) (y : Arr Rat) => ∀ v ∈ y.data, ∃ k : Nat, v = k ∧ (k : Int) < d)
      (((x.shape.zip (idx.map Option.isSome)).filter Prod.snd).map Prod.fst) ys ∧
    ∀ y ∈ ys, y.data.length = (ys.headD ⟨[], []⟩).data.length

end Verif
