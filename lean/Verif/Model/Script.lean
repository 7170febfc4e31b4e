import Verif.Model.Declared
import Verif.Model.PyModel
import Verif.Model.Build
import Verif.Model.Nodes.BasicIndexing
import Verif.Model.Nodes.AdvancedIndexing
import Verif.Model.Nodes.Permutation

/-!
# Programs that build models

The symbols of the catalog together with the indexing symbols, built one after the other as a Python program does.  Symbols are
numbered in the order in which they are made.  What a constructor finds out (shape, size, whether the symbol is a constant) is kept
with the symbol; `min()`, `max()` and `integral()` are computed only when they are asked for (`claim` may be `ub` or `throw` for a
symbol that is never asked).
-/

namespace Verif

/-- What other constructors can ask of a symbol: `shape()` (of all its outputs), `min()`, `max()`, `integral()`, `sizeinfo()` and,
for a `ConstantNode`, its value. -/
structure Info where
  shapes : List (List Int)
  claim : Res Claim
  size : SizeInfo
  const : Option (Arr Rat)

/-- The shape of an array symbol. -/
def Info.shape (i : Info) : List Int := Kind.shape1 i.shapes

/-- What a program asks for: a symbol of the catalog, `x[idx]` with integers and slices, `x[arrays]` where `true` stands for an index
array and `false` for an empty slice, `A[x, :][:, x]`. -/
inductive Term where
  | kind (k : Kind)
  | basic (idx : List BasicIndex)
  | advanced (slots : List Bool)
  | permutation

/-- What the constructors have made of it. -/
inductive Built where
  | kind (k : Kind)
  | basic (operand : List Int) (idx : List BasicIndex) (P : Parsed)
  | advanced (idx : List (Option Indexer)) (P : Adv) (base : Option (Arr Rat))
  | permutation (x : Arr Rat)

/-- A symbol: what it is, its predecessors, what they and it declare. -/
structure Row where
  built : Built
  ops : List Nat
  ins : List Info
  out : Info

namespace Kind

/-- The symbols whose `min()`, `max()` and `integral()` do not ask their operands: comparisons and logical operations,
mathematical.cpp 121-257, 1279-1472, 1754-1871. -/
def isTruth : Kind → Bool
  | binary .and | binary .or | binary .xor | binary .equal | binary .lessEqual => true
  | unary .not | unary .logical => true
  | reduce .all _ | reduce .any _ => true
  | _ => false

/-- The constructors that ask for the range of an operand, mathematical.cpp 44-50, 1714-1718. -/
def asks : Kind → Bool
  | unary (.squareRoot _) | binary .divide => true
  | _ => false

/-- The value of a constant. -/
def value : Kind → Option (Arr Rat)
  | constant a => some a
  | _ => none

end Kind

/-- What is known about the size of an operand, mathematical.cpp 1355-1365, 1442-1452. -/
def Info.known (sizes : Nat → SizeInfo) (i : Info) : Res SizeKnown :=
  if dynamicShape i.shape then do
    let t ← i.size.substitute sizes 100
    .ok t.known
  else .ok (.fixed i.shape.prod.toNat)

/-- An operand that is missing. -/
def Info.absent : Info := ⟨[], .ub, .fixed 0, none⟩

/-- `min()`, `max()` and `integral()` of a symbol of the catalog. -/
def Kind.claimFrom (k : Kind) (sizes : Nat → SizeInfo) (ins : List Info) : Res Claim :=
  if k.isTruth then .ok ⟨⟨0, 1⟩, true⟩
  else do
    let cs ← ins.mapM Info.claim
    k.claim cs (ins.headD .absent).size ((ins.headD .absent).known sizes) (ins.headD .absent).shape

/-- `sizeinfo()` of a symbol of the catalog (as `Symbols.sizeInfo`).  That of disjoint lists stands for the size of their outputs,
collections.cpp 737-741. -/
def Kind.sizeFrom (k : Kind) (self : Nat) (shapes : List (List Int)) (ops : List Nat) (ins : List Info) : SizeInfo :=
  if dynamicShape (Kind.shape1 shapes) then
    match k, ops, ins with
    | .binary _, [l, r], [li, _] => if dynamicShape li.shape then .of l none none else .of r none none
    | .collection _ lo hi, _, _ => .of self (some lo) (some hi)
    | .disjointLists P _, _, _ => .of self (some 0) (some P)
    | .output _, _, [p] => .of self p.size.min p.size.max
    | _, _, _ => .of self none none
  else .fixed (Kind.shape1 shapes).prod

/-- A constructor of the catalog. -/
def Kind.construct (k : Kind) (self : Nat) (sizes : Nat → SizeInfo) (ops : List Nat) (ins : List Info) : Res (Built × Info) := do
  let asked ← if k.asks then ins.mapM Info.claim else .ok []
  guardThrow (k.rangeChecks asked)
  let shapes ← k.make (ins.map Info.shapes)
  .ok (.kind k, ⟨shapes, k.claimFrom sizes ins, k.sizeFrom self shapes ops ins, k.value⟩)

/-- The loops of `array_shape_equal`, array.cpp 170-193, in one: as long as a side still refers to another array, go on to that
array.  Running out of `fuel` counts as undefined. -/
def shapeEqualLoop (sizes : Nat → SizeInfo) : Nat → Nat → SizeInfo → Nat → SizeInfo → Res Bool
  | 0, _, _, _, _ => .ub
  | fuel + 1, l, ls, r, rs =>
    if ls.beq rs then .ok true
    else
      match ls.array, rs.array with
      | some la, some ra =>
        if la ≠ l ∧ ra ≠ r then do
          let ls' ← ls.substitute sizes 1
          let rs' ← rs.substitute sizes 1
          shapeEqualLoop sizes fuel la ls' ra rs'
        else if la ≠ l then do
          let ls' ← ls.substitute sizes 1
          shapeEqualLoop sizes fuel la ls' r rs
        else if ra ≠ r then do
          let rs' ← rs.substitute sizes 1
          shapeEqualLoop sizes fuel l ls ra rs'
        else .ok false
      | _, _ => .ub

/-- `array_shape_equal`, array.cpp 165-197. -/
def shapeEqual (sizes : Nat → SizeInfo) (fuel l r : Nat) : Res Bool :=
  if (sizes l).beq (sizes r) then .ok true
  else if (sizes l).array = none ∨ (sizes r).array = none then .ok false
  else shapeEqualLoop sizes fuel l (sizes l) r (sizes r)

/-- What the constructor of `x[arrays]` asks of the index arrays, indexing.cpp 246-325.  All are asked here before anything is
checked, which makes a difference only if asking fails. -/
def indexers (sizes : Nat → SizeInfo) (fuel : Nat) : Option Nat → List Bool → List (Nat × Info) → Res (List (Option Indexer))
  | _, [], [] => .ok []
  | first, false :: slots, is => do
    let rest ← indexers sizes fuel first slots is
    .ok (none :: rest)
  | first, true :: slots, (i, info) :: is => do
    let s ← Kind.arrayShape info.shapes
    let c ← info.claim
    let b ← shapeEqual sizes fuel (first.getD i) i
    let rest ← indexers sizes fuel (some (first.getD i)) slots is
    .ok (some ⟨s, c.integral, c.range.lo, c.range.hi, b⟩ :: rest)
  | _, _, _ => .ub

/-- The constructors.
* `BasicIndexingNode`: indexing.cpp 940-1100 (`basicParse`); `min`, `max` and `integral` are those of the indexed array, 1502-1515;
  `sizeinfo` 1517-1583 is asked here at once, so that slices for which it fails are left out.
* `AdvancedIndexingNode`: indexing.cpp 456-475 (`advParse`); `sizeinfo` 643-650, which is asserted not to be asked when the indexed
  array is dynamic and follows the first index array's.
* `PermutationNode`: indexing.cpp 1601-1645. -/
def Term.construct (t : Term) (self : Nat) (sizes : Nat → SizeInfo) (ops : List Nat) (ins : List Info) : Res (Built × Info) :=
  match t, ops, ins with
  | .kind k, ops, ins => k.construct self sizes ops ins
  | .basic idx, [x], [i] => do
    let s ← Kind.arrayShape i.shapes
    let P ← basicParse s idx
    let z ← match P.axis0 with
      | some sl => SizeInfo.ofSlice x (shapeProd (s.drop 1)) (shapeProd (P.shape.drop 1)) sl
      | none => .ok (.fixed P.shape.prod)
    .ok (.basic s idx P, ⟨[P.shape], i.claim, z, none⟩)
  | .advanced slots, _ :: xs, i :: is => do
    let s ← Kind.arrayShape i.shapes
    let idx ← indexers sizes (self + 1) none slots (xs.zip is)
    let z ← i.size.substitute sizes (if i.size.array = none then 0 else 100)
    let P ← advParse s z.min idx
    .ok (.advanced idx P i.const,
      ⟨[P.shape], i.claim, if dynamicShape P.shape then .of (xs.headD 0) none none else .fixed P.shape.prod, none⟩)
  | .permutation, [_, _], [i, o] => do
    let s ← Kind.arrayShape i.shapes
    let t ← Kind.arrayShape o.shapes
    let c ← o.claim
    permMake i.const.isSome s ⟨t, c.integral, c.range.lo, c.range.hi, true⟩
    .ok (.permutation (i.const.getD ⟨[], []⟩), ⟨[s], i.claim, .fixed s.prod, none⟩)
  | _, _, _ => .ub

/-- A symbol whose first predecessor is a constant that it does not look at again. -/
@[reducible] def liftConst (x : Arr Rat) (N : NodeSem (Arr Rat) (List (Update Rat))) : NodeSem Val Dif where
  σ := N.σ
  f := fun xs => [N.f (xs.tail.map single)]
  ok := fun xs => ∃ ys, xs = [x] :: ys ∧ (∀ y ∈ ys, y.length = 1 ∧ (single y).WF) ∧ N.ok (ys.map single)
  init := fun xs => N.init (xs.tail.map single)
  propagate := fun s ins => N.propagate s (ins.tail.map fun p => (single p.1, Dif.at p.2 0))
  commit := N.commit
  revert := N.revert
  view := fun s => [N.view s]
  diff := fun s => tagged 0 (N.diff s)

namespace Built

/-- The behaviour of a symbol. -/
@[reducible] def node (b : Built) (ins : List Info) (out : Info) : NodeSem Val Dif :=
  match b with
  | .kind k => k.node (ins.map Info.shapes) out.shapes
  | .basic operand idx P => liftNode (basicNode operand idx P)
  | .advanced idx P none => liftNode (advNode idx P)
  | .advanced idx P (some x) => liftConst x (advConstantNode idx P x)
  | .permutation x => liftConst x (permNode x (permValue x) (OrderOk (x.shape.headD 0).toNat))

/-- Moves of decisions. -/
def step (b : Built) (ins : List Info) (out : Info) (s : (b.node ins out).σ) (m : Move) : Res (b.node ins out).σ :=
  match b with
  | .kind k => k.step (ins.map Info.shapes) out.shapes s m
  | .basic _ _ _ => .ub
  | .advanced _ _ none => .ub
  | .advanced _ _ (some _) => .ub
  | .permutation _ => .ub

/-- Whether it is a decision. -/
def decision : Built → Bool
  | .kind k => k.isDecision
  | _ => false

/-- `removable()`. -/
def removable : Built → Bool
  | .kind k => k.removable
  | _ => true

end Built

namespace Row

@[reducible] def node (r : Row) : NodeSem Val Dif := r.built.node r.ins r.out

def step (r : Row) (s : r.node.σ) (m : Move) : Res r.node.σ := r.built.step r.ins r.out s m

def decision (r : Row) : Bool := r.built.decision

/-- What an unused number stands for. -/
def unused : Row := ⟨.kind (.constant ⟨[], []⟩), [], [], .absent⟩

end Row

/-- The symbols made so far. -/
abbrev Script := List Row

namespace Script

/-- Symbol number `i`. -/
def row (s : Script) (i : Nat) : Row := s.getD i .unused

/-- What the symbols answer when asked for their size. -/
def sizes (s : Script) (i : Nat) : SizeInfo := (s.row i).out.size

/-- Make a symbol: the symbols with the new one, and its number.  Operands that do not exist are not expressible in the
program. -/
def add (s : Script) (t : Term) (ops : List Nat) : Res (Script × Nat) := do
  guardUB (∀ p ∈ ops, p < s.length)
  let b ← t.construct s.length s.sizes ops (ops.map fun p => (s.row p).out)
  .ok (s ++ [⟨b.1, ops, ops.map fun p => (s.row p).out, b.2⟩], s.length)

/-- What a symbol declares once it has other operands. -/
def reclaim (s : Script) (b : Built) (ins : List Info) : Res Claim :=
  match b with
  | .kind k => k.claimFrom s.sizes ins
  | _ => .ub

/-- `x += y` for a `NaryAddNode` (`NaryAdd.__iadd__`, symbols.pyx; `add_node`, mathematical.cpp 499-519): the operand is checked and
appended.  Symbols made from `x` before keep what `x` declared then; nothing asks for it afterwards in the programs considered
here. -/
def addOperand (s : Script) (x y : Nat) : Res Script := do
  guardUB (x < s.length ∧ y < s.length)
  guardThrow (dynamicShape (s.row y).out.shape = false)
  guardThrow ((s.row x).out.shape = (s.row y).out.shape)
  .ok (s.set x {
    built := (s.row x).built
    ops := (s.row x).ops ++ [y]
    ins := (s.row x).ins ++ [(s.row y).out]
    out := { (s.row x).out with claim := s.reclaim (s.row x).built ((s.row x).ins ++ [(s.row y).out]) } })

/-- The behaviour of the symbols. -/
@[reducible] def sem (s : Script) (i : Nat) : NodeSem Val Dif := (s.row i).node

/-- Several moves of a decision between two proposals. -/
def act (s : Script) (i : Nat) (ms : List Move) (st : (s.sem i).σ) : Res (s.sem i).σ := ms.foldlM (s.row i).step st

end Script

/-- A model that has been built: its symbols, objective and constraints. -/
structure Generated where
  rows : Script
  objective : Option Nat
  constraints : List Nat

namespace Generated

/-- `add_constraint`, _model.pyx 434-447, graph.cpp 177-189. -/
def addConstraint (M : Generated) (c : Nat) : Res Generated := do
  guardUB (c < M.rows.length)
  let a ← (M.rows.row c).out.claim
  guardThrow (a.logical = true)
  guardThrow (sizeOne (M.rows.row c).out.shape = true)
  .ok { M with constraints := M.constraints ++ [c] }

/-- `minimize`, _model.pyx 449-463, graph.cpp 169-175. -/
def minimize (M : Generated) (o : Nat) : Res Generated := do
  guardUB (o < M.rows.length)
  guardThrow (sizeOne (M.rows.row o).out.shape = true)
  .ok { M with objective := some o }

/-- The operations on the graph, in an order with the same effect: all symbols, then the operands that were added in place (these
are the ones made after the symbol they were added to), then objective and constraints, then `lock()`. -/
def ops (M : Generated) : List ModelOp :=
  (List.range M.rows.length).map (fun i =>
    if (M.rows.row i).decision then .decision i
    else .node i ((M.rows.row i).ops.filter (· < i)) (M.rows.row i).built.removable) ++
  (((List.range M.rows.length).flatMap fun i =>
    ((M.rows.row i).ops.filter (i ≤ ·)).map fun p => (i, p)).map (fun q => .addOperand q.1 q.2) ++
  (M.objective.toList.map .minimize ++ (M.constraints.map .addConstraint ++ [.lock])))

end Generated
end Verif
