import Verif.Model.Declared
import Verif.Model.Objective
import Verif.Model.PyModel
import Verif.Model.Nodes.Concatenate

/-!
# Building a model: constructors with everything they leave behind when they throw

A constructor is a sequence of checks and of calls of `add_predecessor`.  If a check fails, the new node
is destroyed (graph.hpp 322-323), but the operands it has already been entered with as a successor are
not told.

`_model.pyx` and `symbols.pyx` are thin: a symbol's Python constructor checks that its operands belong to
the same model and calls `emplace_node`.
-/

namespace Verif

instance (op : UnaryOp) (r : Range) : Decidable (op.accepts r) := by
  cases op <;> unfold UnaryOp.accepts <;> infer_instance

instance (op : BinaryOp) (r : Range) : Decidable (op.accepts r) := by
  cases op <;> unfold BinaryOp.accepts <;> infer_instance

instance (k : Kind) (ins : List Claim) : Decidable (k.rangeChecks ins) := by
  unfold Kind.rangeChecks
  split <;> infer_instance

/-- One step in the body of a constructor. -/
inductive Act where
  /-- throw unless -/
  | require (b : Bool)
  /-- undefined unless -/
  | assume (b : Bool)
  /-- `add_predecessor(p)` -/
  | link (p : Nat)
  deriving DecidableEq, Repr

namespace Act

/-- `add_predecessor`, graph.hpp 265-270, by a node `a` under construction (its index is -1). -/
def linkOne (mem : Nat → GNode) (a p : Nat) : Nat → GNode :=
  upd (upd mem p { mem p with succs := (mem p).succs ++ [a] }) a
    { (upd mem p { mem p with succs := (mem p).succs ++ [a] }) a with
      preds := ((upd mem p { mem p with succs := (mem p).succs ++ [a] }) a).preds ++ [p] }

/-- The body of the constructor of `a`: the memory it leaves and how it ends. -/
def run (a : Nat) : List Act → (Nat → GNode) → (Nat → GNode) × Res Unit
  | [], mem => (mem, .ok ())
  | require b :: acts, mem => if b then run a acts mem else (mem, .throw)
  | assume b :: acts, mem => if b then run a acts mem else (mem, .ub)
  | link p :: acts, mem => run a acts (linkOne mem a p)

end Act

namespace Kind

/-- Whether symbols of the kind are arrays (`ArrayNode`s). -/
def isArray : Kind → Bool
  | disjointLists .. | disjointBitSets .. => false
  | _ => true

/-- Whether the operands are of the C++ type the constructor takes; otherwise it does not compile. -/
def typed (k : Kind) (kinds : List Kind) : Bool :=
  match k with
  | output _ => kinds.all fun p => !p.isArray
  | _ => kinds.all isArray

/-- The number of an output is how many successors its operand has already, collections.cpp 703,
collections.hpp 160. -/
def resolve (k : Kind) (mem : Nat → GNode) (preds : List Nat) : Kind :=
  match k, preds with
  | output _, [p] => output (mem p).succs.length
  | k, _ => k

/-- `removable()`, graph.hpp 299, 343, collections.hpp 187, 281. -/
def removable : Kind → Bool
  | output _ => false
  | k => !k.isDecision

/-- The body of `NaryOpNode(std::span<ArrayNode*>)`, mathematical.cpp 494-519: each operand is checked and
entered before the next one is looked at. -/
def naryBody (shapes : Nat → List (List Int)) (preds : List Nat) : List Act :=
  .require (!preds.isEmpty) ::
    preds.flatMap fun p =>
      [.require (!dynamicShape (shape1 (shapes p))),
       .require (decide (shape1 (shapes (preds.headD 0)) = shape1 (shapes p))), .link p]

/-- The bodies of the constructors: all others make all their checks first (mathematical.cpp 27-54, 797-823,
1158-1191, 1713-1720, manipulation.cpp 173-207, 228, flow.cpp 110-131, quadratic_model.cpp 265-275,
collections.cpp 700-710, collections.hpp 157-165; decisions and constants have no operands). -/
def body (k : Kind) (claim : Nat → Claim) (shapes : Nat → List (List Int)) (preds : List Nat) : List Act :=
  match k with
  | nary _ => naryBody shapes preds
  | k =>
    .assume (decide (k.make (preds.map shapes) ≠ .ub)) ::
    .require (decide (k.make (preds.map shapes) ≠ .throw)) ::
    .require (decide (k.rangeChecks (preds.map claim))) :: preds.map .link

/-- The shapes found by a constructor that has not failed. -/
def shapesOf (k : Kind) (ps : List (List (List Int))) : List (List Int) :=
  match k.make ps with
  | .ok out => out
  | _ => []

end Kind

/-- The body of `ConcatenateNode`, manipulation.cpp 31-51: the check that an operand has a fixed size comes
after the previous operand has been entered. -/
def concatBody (axis : Nat) (shapes : Nat → List (List Int)) (preds : List Nat) : List Act :=
  .assume (decide (concatShape (preds.map fun p => Kind.shape1 (shapes p)) axis ≠ .ub)) ::
  .require (decide (concatShape (preds.map fun p => Kind.shape1 (shapes p)) axis ≠ .throw)) ::
    preds.flatMap fun p => [.require (!dynamicShape (Kind.shape1 (shapes p))), .link p]

/-- A model and its symbols. -/
structure Draft where
  m : PyModel
  S : Symbols

/-- What a user can do to a model. -/
inductive BuildOp where
  /-- make a symbol at the unused address `a` -/
  | construct (a : Nat) (k : Kind) (preds : List Nat)
  /-- `n += p` or `n *= p` on a symbol with a variable number of operands -/
  | addOperand (n p : Nat)
  | minimize (o : Nat)
  | constraint (c : Nat)
  | reference (v : Nat) (b : Bool)
  | lock
  | unlock
  | removeUnused

namespace Draft

/-- A new model. -/
def new : Draft := ⟨PyModel.new, ⟨fun _ => .constant ⟨[], []⟩, fun _ => [[]]⟩⟩

/-- The graph changed by a function that may fail; a failure changes nothing. -/
def onModel (d : Draft) (op : ModelOp) : Draft × Res Unit :=
  match d.m.step op with
  | .ok m => ({ d with m := m }, .ok ())
  | .throw => (d, .throw)
  | .ub => (d, .ub)

/-- `nodes_.emplace_back` and, for decisions, `decisions_.emplace_back`, graph.hpp 326-334. -/
def enter (d : Draft) (a : Nat) (k : Kind) (preds : List Nat) (mem : Nat → GNode) : Draft where
  m := { d.m with g := { d.m.g with
    mem := if k.isDecision then upd mem a { mem a with topo := d.m.g.decisions.length } else mem
    nodes := d.m.g.nodes ++ [a]
    decisions := if k.isDecision then d.m.g.decisions ++ [a] else d.m.g.decisions } }
  S := ⟨upd d.S.kind a k, upd d.S.shapes a (k.shapesOf (preds.map d.S.shapes))⟩

/-- The model with other memory. -/
def withMem (d : Draft) (mem : Nat → GNode) : Draft :=
  { d with m := { d.m with g := { d.m.g with mem := mem } } }

/-- `emplace_node`, graph.hpp 313-337, with a given constructor body.  When the constructor throws, the
memory of the node is released; what is left in it does not matter. -/
def emplaceWith (d : Draft) (a : Nat) (k : Kind) (preds : List Nat) (body : List Act) : Draft × Res Unit :=
  if d.m.g.sorted then (d, .throw)
  else if a ∈ d.m.g.nodes ∨ ∃ p ∈ preds, p ∉ d.m.g.nodes then (d, .ub)
  else
    match Act.run a body (upd d.m.g.mem a { removable := k.removable }) with
    | (mem, .ok _) => (d.enter a k preds mem, .ok ())
    | (mem, .throw) => (d.withMem (upd mem a (d.m.g.mem a)), .throw)
    | (_, .ub) => (d, .ub)

/-- `emplace_node` of a kind of symbol. -/
def emplace (d : Draft) (claim : Nat → Claim) (a : Nat) (k : Kind) (preds : List Nat) : Draft × Res Unit :=
  d.emplaceWith a (k.resolve d.m.g.mem preds) preds
    (.assume (k.typed (preds.map d.S.kind)) ::
      (k.resolve d.m.g.mem preds).body claim d.S.shapes preds)

/-- `NaryOpNode::add_node`, mathematical.cpp 503-519; the order of its checks. -/
def addNode (d : Draft) (n p : Nat) : Draft × Res Unit :=
  match d.S.kind n with
  | .nary _ =>
    if n ∉ d.m.g.nodes ∨ p ∉ d.m.g.nodes ∨ (d.S.kind p).isArray = false then (d, .ub)
    else if 0 ≤ (d.m.g.mem n).topo ∧ 0 ≤ (d.m.g.mem p).topo ∧ (d.m.g.mem n).topo < (d.m.g.mem p).topo then
      (d, .throw)
    else if dynamicShape (Kind.shape1 (d.S.shapes p)) then (d, .throw)
    else if Kind.shape1 (d.S.shapes n) ≠ Kind.shape1 (d.S.shapes p) then (d, .throw)
    else d.onModel (.addOperand n p)
  | _ => (d, .ub)

/-- Symbols that are gone. -/
def forget (d : Draft) : Draft :=
  { d with S := ⟨fun v => if v ∈ d.m.g.nodes then d.S.kind v else .constant ⟨[], []⟩, d.S.shapes⟩ }

/-- One operation.  `decl` are the answers of `min()`, `max()` and `integral()`. -/
def perform (decl : Symbols → Graph → Nat → Claim) (d : Draft) : BuildOp → Draft × Res Unit
  | .construct a k preds => d.emplace (decl d.S d.m.g) a k preds
  | .addOperand n p => d.addNode n p
  | .minimize o => if d.S.scalar o then d.onModel (.minimize o) else (d, .throw)
  | .constraint c =>
    if (decl d.S d.m.g c).logical && d.S.scalar c then d.onModel (.addConstraint c) else (d, .throw)
  | .reference v b => d.onModel (.reference v b)
  | .lock => d.onModel .lock
  | .unlock => d.onModel .unlock
  | .removeUnused =>
    match d.m.step .removeUnused with
    | .ok m => (forget { d with m := m }, .ok ())
    | .throw => (d, .throw)
    | .ub => (d, .ub)

/-- A whole history: exceptions are caught and the user goes on with the model as it was left.  As in
`PyModel.perform`, the state after a failed sort is not modelled and the history ends there. -/
def run (decl : Symbols → Graph → Nat → Claim) (d : Draft) : List BuildOp → Res Draft
  | [] => .ok d
  | op :: ops =>
    match d.perform decl op with
    | (d', .ok _) => d'.run decl ops
    | (_, .ub) => .ub
    | (d', .throw) =>
      match d.m.isLocked, op with
      | false, .lock => .throw
      | false, .removeUnused => .throw
      | _, _ => d'.run decl ops

end Draft
end Verif
