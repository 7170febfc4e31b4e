import Verif.Model.Operations
import Verif.Spec.Val
import Verif.Spec.Values
import Verif.Model.Numbers
import Verif.Model.Collection
import Verif.Model.Disjoint
import Verif.Model.Nodes.Unary
import Verif.Model.Nodes.Binary
import Verif.Model.Nodes.Nary
import Verif.Model.Nodes.PartialReduce
import Verif.Model.Nodes.Reduce
import Verif.Model.Nodes.ReshapeSize
import Verif.Model.Nodes.Where
import Verif.Model.Nodes.Quadratic

/-!
# The catalog of symbols

All symbols modelled so far as nodes of one graph.  Values are lists of arrays (`Val`): one for arrays,
several for disjoint lists and disjoint bit sets.
-/

namespace Verif

/-! ## Array symbols as nodes of a graph -/

/-- Number the changes of one output. -/
def tagged (i : Nat) (us : List (Update Rat)) : Dif := us.map fun u => (i, u)

/-- Number the changes of all outputs. -/
def taggedAll (uss : List (List (Update Rat))) : Dif := uss.zipIdx.flatMap fun p => tagged p.2 p.1

/-- The only output of an array symbol. -/
def single (v : Val) : Arr Rat := v.headD ⟨[], []⟩

/-- An array symbol all of whose predecessors are arrays. -/
@[reducible] def liftNode (N : NodeSem (Arr Rat) (List (Update Rat))) : NodeSem Val Dif where
  σ := N.σ
  f := fun xs => [N.f (xs.map single)]
  ok := fun xs => (∀ x ∈ xs, x.length = 1 ∧ (single x).WF) ∧ N.ok (xs.map single)
  init := fun xs => N.init (xs.map single)
  propagate := fun s ins => N.propagate s (ins.map fun p => (single p.1, Dif.at p.2 0))
  commit := N.commit
  revert := N.revert
  view := fun s => [N.view s]
  diff := fun s => tagged 0 (N.diff s)

/-- `ConstantNode` (include/dwave-optimization/nodes/constants.hpp 30-120): no predecessors, no state;
`diff` is empty. -/
@[reducible] def constantNode (a : Arr Rat) : NodeSem Val Dif where
  σ := Unit
  f := fun _ => [a]
  ok := fun xs => xs = []
  init := fun _ => .ok ()
  propagate := fun s _ => .ok s
  commit := fun s => .ok s
  revert := fun s => .ok s
  view := fun _ => [a]
  diff := fun _ => []

/-- The state of an output node as seen through its predecessor. -/
structure OutputState where
  committed : Arr Rat
  current : Arr Rat
  diff : List (Update Rat)

/-- `DisjointListNode` and `DisjointBitSetNode` for output number `i`: `buff` and `diff` read the state
of the predecessor, collections.cpp 360-370, 712-746.  They have no state of their own; the state here is
what they show (as for `ReshapeNode`). -/
@[reducible] def outputNode (i : Nat) (shape : List Int) : NodeSem Val Dif where
  σ := OutputState
  f := fun xs => [(xs.headD []).getD i ⟨[], []⟩]
  ok := fun xs => ∃ x, xs = [x] ∧ i < x.length ∧ (x.getD i ⟨[], []⟩).shape = shape ∧
    (x.getD i ⟨[], []⟩).WF
  init := fun xs =>
    match xs with
    | [x] => (match x[i]? with
      | some a => .ok ⟨a, a, []⟩
      | none => .ub)
    | _ => .ub
  propagate := fun s ins =>
    match ins with
    | [(x, d)] => (match x[i]? with
      | some a => .ok { s with current := a, diff := Dif.at d i }
      | none => .ub)
    | _ => .ub
  commit := fun s => .ok ⟨s.current, s.current, []⟩
  revert := fun s => .ok ⟨s.committed, s.committed, []⟩
  view := fun s => [s.current]
  diff := fun s => tagged 0 s.diff

/-! ## Decisions

`Node::propagate` of a decision only notifies its successors (graph.hpp 228-241), except that
`DisjointListsNode::propagate` first asserts that the lists are a partition (collections.cpp 614-635). -/

/-- `IntegerNode` and `BinaryNode` with a given array shape. -/
@[reducible] def numberNode (shape : List Int) (c : NumNode) : NodeSem Val Dif where
  σ := ArrayState Rat
  f := fun xs => xs.headD []
  ok := fun xs => ∃ data : List Rat, xs = [[⟨shape, data⟩]] ∧ data.length = c.size ∧
    ∀ v ∈ data, InBounds c.lo c.hi v
  init := fun xs => c.init (single (xs.headD [])).data
  propagate := fun s _ => .ok s
  commit := fun s => .ok s.commit
  revert := fun s => .ok s.revert
  view := fun s => [⟨shape, s.buffer⟩]
  diff := fun s => tagged 0 s.updates

/-- The static shape of a collection, collections.hpp 84. -/
def collShape (c : CollNode) : List Int := if c.dynamic then [-1] else [(c.maxSize : Int)]

/-- `ListNode` and `SetNode`; `buff` and `size` show the visible part, collections.cpp 126-129, 205-210. -/
@[reducible] def collectionNode (c : CollNode) : NodeSem Val Dif where
  σ := CollState Rat
  f := fun xs => xs.headD []
  ok := fun xs => ∃ data : List Rat, xs = [[⟨collShape c, data⟩]] ∧ data.Nodup ∧
    (∀ v ∈ data, ∃ k : Nat, k < c.maxValue ∧ v = k) ∧ c.minSize ≤ data.length ∧ data.length ≤ c.maxSize
  init := fun xs => c.initExplicit (single (xs.headD [])).data
  propagate := fun s _ => .ok s
  commit := fun s => .ok s.commit
  revert := fun s => .ok s.revert
  view := fun s => [⟨collShape c, s.elements.take s.size⟩]
  diff := fun s => tagged 0 s.previous

/-- `DisjointListsNode`, collections.cpp 582-698. -/
@[reducible] def listsNode (P N : Nat) : NodeSem Val Dif where
  σ := List (ArrayState Rat)
  f := fun xs => xs.headD []
  ok := fun xs => ∃ lists : List (List Rat), xs = [lists.map fun l => ⟨[-1], l⟩] ∧ lists.length = N ∧
    lists.flatten.Perm ((List.range P).map fun i : Nat => (i : Rat))
  init := fun xs => Lists.mkExplicit P N ((xs.headD []).map Arr.data)
  propagate := fun s _ => do
    guardUB ((s.map ArrayState.buffer).flatten.Perm ((List.range P).map fun i : Nat => (i : Rat)))
    .ok s
  commit := fun s => Lists.run1 s .commit
  revert := fun s => Lists.run1 s .revert
  view := fun s => s.map fun l => ⟨[-1], l.buffer⟩
  diff := fun s => taggedAll (s.map ArrayState.updates)

/-- `DisjointBitSetsNode`, collections.cpp 317-354. -/
@[reducible] def bitSetsNode (P N : Nat) : NodeSem Val Dif where
  σ := BitSetsState
  f := fun xs => xs.headD []
  ok := fun xs => ∃ sets : List (List Rat), xs = [sets.map fun l => ⟨[(P : Int)], l⟩] ∧ sets.length = N ∧
    IsBitPartition P sets
  init := fun xs => BitSetsState.mkExplicit P N ((xs.headD []).map Arr.data)
  propagate := fun s _ => .ok s
  commit := fun s => .ok s.commit
  revert := fun s => .ok s.revert
  view := fun s => (List.range s.num).map fun k => ⟨[(P : Int)], s.view k⟩
  diff := fun s => taggedAll s.diffs

/-! ## The catalog -/

inductive NaryOp where
  | add | multiply | maximum | minimum
  deriving DecidableEq, Repr

inductive ReduceOp where
  | all | any | sum | prod
  deriving DecidableEq, Repr

inductive FoldOp where
  | max | min
  deriving DecidableEq, Repr

/-- A kind of symbol, with the arguments of its constructor other than predecessors. -/
inductive Kind where
  | integer (shape : List Int) (lo? hi? : Option Int)
  | binaryVar (shape : List Int)
  | collection (n lo hi : Int)
  | disjointLists (P N : Int)
  | disjointBitSets (P N : Int)
  | constant (a : Arr Rat)
  | output (i : Nat)
  | unary (op : UnaryOp)
  | binary (op : BinaryOp)
  | nary (op : NaryOp)
  | reduce (op : ReduceOp) (init : Rat)
  | fold (op : FoldOp) (init : Option Rat)
  | partialSum (axis : Nat) (init : Rat)
  | reshape (shape : List Int)
  | size
  | where_
  | quadratic (n : Nat) (ops : List BiasOp)

namespace Kind

/-- The kinds of decisions (`DecisionNode`s). -/
def isDecision : Kind → Bool
  | integer .. | binaryVar .. | collection .. | disjointLists .. | disjointBitSets .. => true
  | _ => false

/-- The shape of an array predecessor: constructors take `ArrayNode`s. -/
def arrayShape : List (List Int) → Res (List Int)
  | [s] => .ok s
  | _ => .ub

/-- The checks of the constructors: from the shapes of the outputs of the predecessors to the shapes of
the outputs, or an exception.  Wrong numbers of predecessors do not compile in the code (here: `ub`). -/
def make (k : Kind) (ps : List (List (List Int))) : Res (List (List Int)) :=
  match k, ps with
  | integer shape lo? hi?, [] => do       -- numbers.cpp 102-109
    let _ ← NumNode.make shape.prod.toNat lo? hi?
    .ok [shape]
  | binaryVar shape, [] => do             -- numbers.hpp 141-142
    let _ ← NumNode.makeBinary shape.prod.toNat
    .ok [shape]
  | collection n lo hi, [] => do          -- collections.hpp 83-97
    let c ← CollNode.make n lo hi
    .ok [collShape c]
  | disjointLists P N, [] => do           -- collections.cpp 582-586
    guardThrow (¬ P < 0)
    guardThrow (¬ N < 1)
    .ok (List.replicate N.toNat [-1])
  | disjointBitSets P N, [] => do         -- collections.cpp 317-321
    guardThrow (¬ P < 0)
    guardThrow (¬ N < 1)
    .ok (List.replicate N.toNat [P])
  | constant a, [] => .ok [a.shape]       -- constants.hpp 40-70
  | output i, [p] => do                   -- collections.cpp 700-710; the index is given here
    guardThrow (i < p.length)
    .ok [p.getD i []]
  | unary _, [p] => do                    -- mathematical.cpp 1713-1718
    let s ← arrayShape p
    .ok [s]
  | binary _, [p, q] => do                -- mathematical.cpp 27-54
    let l ← arrayShape p
    let r ← arrayShape q
    let s ← binaryShape l r
    .ok [s]
  | nary _, ps => do                      -- mathematical.cpp 486-519
    let ss ← ps.mapM arrayShape
    let s ← naryShape ss
    .ok [s]
  | reduce _ _, [p] => do                 -- mathematical.cpp 1159-1175
    let _ ← arrayShape p
    .ok [[]]
  | fold _ init, [p] => do                -- mathematical.cpp 1159-1191
    let s ← arrayShape p
    guardThrow (init = none → dynamicShape s = false ∧ 1 ≤ s.prod)
    .ok [[]]
  | partialSum axis _, [p] => do          -- mathematical.cpp 768-823; `erase` outside is undefined
    let s ← arrayShape p
    guardUB (axis < s.length)
    guardThrow (dynamicShape s = false)
    guardThrow (¬ s.prod < 1)
    .ok [s.eraseIdx axis]
  | reshape shape, [p] => do              -- manipulation.cpp 173-204
    let s ← arrayShape p
    let t ← reshapeShape s shape
    .ok [t]
  | size, [p] => do                       -- manipulation.cpp 228
    let _ ← arrayShape p
    .ok [[]]
  | where_, [p, q, r] => do               -- flow.cpp 110-131
    let c ← arrayShape p
    let x ← arrayShape q
    let y ← arrayShape r
    let s ← whereShape c x y
    .ok [s]
  | quadratic n ops, [p] => do            -- quadratic_model.cpp 265-271
    let s ← arrayShape p
    guardUB (∀ op ∈ ops, op.inRange n)      -- asserted, quadratic_model.cpp 91-154
    let q ← QModel.build n ops
    let t ← quadraticShape q s
    .ok [t]
  | _, _ => .ub

/-- The number node of a kind (numbers.cpp 102-109). -/
def numNode (shape : List Int) (lo? hi? : Option Int) : NumNode :=
  ⟨shape.prod.toNat, lo?.getD 0, hi?.getD 2000000000⟩

/-- The collection node of a kind. -/
def collNode (n lo hi : Int) : CollNode := ⟨n.toNat, lo.toNat, hi.toNat⟩

/-- The quadratic model of a kind. -/
def qModel (n : Nat) (ops : List BiasOp) : QModel :=
  match QModel.build n ops with
  | .ok q => q
  | _ => ⟨n, [], [], []⟩

/-- The shape of the only output. -/
def shape1 (p : List (List Int)) : List Int := p.headD []

/-- The node built from a kind, given the shapes of the outputs of its predecessors and its own. -/
@[reducible] def node (k : Kind) (ps : List (List (List Int))) (out : List (List Int)) : NodeSem Val Dif :=
  match k with
  | integer shape lo? hi? => numberNode shape (numNode shape lo? hi?)
  | binaryVar shape => numberNode shape ⟨shape.prod.toNat, 0, 1⟩
  | collection n lo hi => collectionNode (collNode n lo hi)
  | disjointLists P N => listsNode P.toNat N.toNat
  | disjointBitSets P N => bitSetsNode P.toNat N.toNat
  | constant a => constantNode a
  | output i => outputNode i (shape1 out)
  | unary op => liftNode (unaryNode op.func (shape1 out))
  | binary op => liftNode (binaryNode op.func (shape1 (ps.getD 0 [])) (shape1 (ps.getD 1 [])) (shape1 out))
  | nary .add => liftNode (naryNode (· + ·) (some plusInv) (shape1 out))
  | nary .multiply => liftNode (naryNode (· * ·) (some timesInv) (shape1 out))
  | nary .maximum => liftNode (naryNode max none (shape1 out))
  | nary .minimum => liftNode (naryNode min none (shape1 out))
  | reduce .all init => liftNode (allNode init)
  | reduce .any init => liftNode (anyNode init)
  | reduce .sum init => liftNode (sumNode init)
  | reduce .prod init => liftNode (prodNode init)
  | fold .max init => liftNode (maxNode init)
  | fold .min init => liftNode (minNode init)
  | partialSum axis init => liftNode (partialSumNode (shape1 (ps.getD 0 [])) axis init)
  | reshape shape => liftNode (reshapeNode (shape1 (ps.getD 0 [])) shape)
  | size => liftNode sizeNode
  | where_ => liftNode (whereNode (shape1 (ps.getD 0 [])) (shape1 out))
  | quadratic n ops => liftNode (quadraticNode (qModel n ops) fun x =>
      (biasesOf ops).value n fun i => x.getD i 0)

end Kind

namespace Kind

/-- What is needed of the constructor's arguments beyond its own checks:
* decisions of fixed size and constants with as many elements as their shape says (guaranteed by the Python
  layer, _model.pyx 150-420, and by the constructors that copy the data);
* no dynamic array next to a one-element array of as many dimensions or more (see `C23_…_fails`);
* the axis of a partial sum is a smaller number than the size of the array (see `C26_…_fails`). -/
def Regular (k : Kind) (ps : List (List (List Int))) : Prop :=
  match k with
  | integer shape _ _ => dynamicShape shape = false
  | binaryVar shape => dynamicShape shape = false
  | constant a => a.WF
  | binary _ => (dynamicShape (shape1 (ps.getD 0 [])) = true →
        (shape1 (ps.getD 1 [])).length < (shape1 (ps.getD 0 [])).length) ∧
      (dynamicShape (shape1 (ps.getD 1 [])) = true →
        (shape1 (ps.getD 0 [])).length < (shape1 (ps.getD 1 [])).length)
  | partialSum axis _ => (axis : Int) < (shape1 (ps.getD 0 [])).prod
  | _ => True

end Kind

/-! ## Moves -/

/-- What a user can do to a decision between proposals. -/
inductive Move where
  /-- numbers and collections -/
  | exchange (i j : Nat)
  /-- integers; a rejected value leaves the symbol as it is -/
  | setValue (i : Nat) (v : Int)
  /-- binary variables -/
  | flip (i : Nat)
  | setOne (i : Nat)
  | unset (i : Nat)
  /-- collections -/
  | rotate (dest src : Nat)
  | grow
  | shrink
  /-- disjoint bit sets -/
  | swapBetween (fromSet toSet element : Nat)
  /-- disjoint lists -/
  | rotateIn (list dest src : Nat)
  | swapIn (list i j : Nat)
  | popTo (fromList i toList j : Nat)
  deriving DecidableEq, Repr

namespace Move

/-- Moves of an `IntegerNode`, numbers.cpp 82-84, 134-139. -/
def integer (c : NumNode) (s : ArrayState Rat) : Move → Res (ArrayState Rat)
  | exchange i j => c.run1 s (.exchange i j)
  | setValue i v => NumNode.caught (fun s => c.run1 s (.setValue i v)) s
  | _ => .ub

/-- Moves of a `BinaryNode`, numbers.cpp 82-84, 134-139, 153-168. -/
def binary (c : NumNode) (s : ArrayState Rat) : Move → Res (ArrayState Rat)
  | exchange i j => c.runBin1 s (.num (.exchange i j))
  | setValue i v => NumNode.caught (fun s => c.runBin1 s (.num (.setValue i v))) s
  | flip i => c.runBin1 s (.flip i)
  | setOne i => c.runBin1 s (.setOne i)
  | unset i => c.runBin1 s (.unset i)
  | _ => .ub

/-- Moves of a collection, collections.cpp 135-149, 187, 199-203. -/
def collection (c : CollNode) (s : CollState Rat) : Move → Res (CollState Rat)
  | exchange i j => c.run1 s (.exchange i j)
  | rotate d e => c.run1 s (.rotate d e)
  | grow => c.run1 s .grow
  | shrink => c.run1 s .shrink
  | _ => .ub

/-- Moves of disjoint lists, collections.cpp 637-663. -/
def lists (s : List (ArrayState Rat)) : Move → Res (List (ArrayState Rat))
  | rotateIn k d e => Lists.run1 s (.rotate k d e)
  | swapIn k i j => Lists.run1 s (.swap k i j)
  | popTo f i t j => Lists.run1 s (.pop f i t j)
  | _ => .ub

/-- Moves of disjoint bit sets, collections.cpp 350-354.  The code does not check the arguments; numbers
of sets or elements that do not exist count as undefined (the code would read past the sets or, for an
element number that is too large, change another element and report a wrong position). -/
def bitSets (s : BitSetsState) : Move → Res BitSetsState
  | swapBetween f t e => do
    guardUB (f < s.num ∧ t < s.num ∧ e < s.primary)
    s.run1 (.swap f t e)
  | _ => .ub

end Move

namespace Kind

/-- Moves of a decision; other symbols cannot be moved. -/
def step (k : Kind) (ps : List (List (List Int))) (out : List (List Int)) (s : (k.node ps out).σ) (m : Move) :
    Res (k.node ps out).σ :=
  match k with
  | integer shape lo? hi? => m.integer (numNode shape lo? hi?) s
  | binaryVar shape => m.binary ⟨shape.prod.toNat, 0, 1⟩ s
  | collection n lo hi => m.collection (collNode n lo hi) s
  | disjointLists _ _ => m.lists s
  | disjointBitSets _ _ => m.bitSets s
  | _ => .ub

end Kind

end Verif
