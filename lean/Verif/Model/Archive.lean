import Verif.Model.Build

/-!
# Saving and loading models
(/repo/dwave/optimization/_model.pyx 112-359, symbols.pyx `_into_zipfile`, `_from_zipfile`, `_state_into_zipfile`,
`_state_from_zipfile`)

The zip archive, JSON and NumPy's format are taken to give back what was put in: `Archive` has one field per file.
The adjacency list is modelled as text.  `nodetypes.txt` is a list of class names, one per line.  Numbers read from
JSON are integers (anything else is refused by the code).

A loaded symbol gets the address given by the number of symbols before it.
-/

namespace Verif

/-! ## Text -/

/-- The digit for a number below ten. -/
def digitChar (n : Nat) : Char := Char.ofNat (48 + n)

/-- `f"{n}"` for a natural number, _model.pyx 326, 328. -/
def decimal (n : Nat) : List Char :=
  if n < 10 then [digitChar n] else decimal (n / 10) ++ [digitChar (n % 10)]
  termination_by n
  decreasing_by omega

/-- The value of a digit. -/
def digitValue (c : Char) : Option Nat :=
  if 48 ≤ c.toNat ∧ c.toNat ≤ 57 then some (c.toNat - 48) else none

/-- The digits read so far and the next one. -/
def addDigit (n : Nat) (c : Char) : Option Nat := (digitValue c).map fun d => 10 * n + d

/-- A non-empty string of digits. -/
def parseNat : List Char → Option Nat
  | [] => none
  | cs => cs.foldlM addDigit 0

/-- Blanks that `int(…)` ignores at both ends. -/
def isBlank (c : Char) : Bool := c = ' ' || c = '\n' || c = '\t' || c = '\r'

/-- A string without blanks at both ends. -/
def strip (cs : List Char) : List Char := ((cs.dropWhile isBlank).reverse.dropWhile isBlank).reverse

/-- `int(…)` of a string, except that underscores between digits are refused here. -/
def parseInt (cs : List Char) : Option Int :=
  match strip cs with
  | '-' :: ds => (parseNat ds).map fun n => -(n : Int)
  | '+' :: ds => (parseNat ds).map fun n => (n : Int)
  | ds => (parseNat ds).map fun n => (n : Int)

/-- `split(b" ")`, _model.pyx 159. -/
def splitBlank : List Char → List (List Char)
  | [] => [[]]
  | c :: cs =>
    if c = ' ' then [] :: splitBlank cs
    else match splitBlank cs with
      | [] => [[c]]
      | w :: ws => (c :: w) :: ws

/-- The lines of a file, with their ends. -/
def splitLines : List Char → List (List Char)
  | [] => []
  | c :: cs =>
    if c = '\n' then ['\n'] :: splitLines cs
    else match splitLines cs with
      | [] => [[c]]
      | l :: ls => (c :: l) :: ls

/-- A line of the adjacency list, _model.pyx 325-329. -/
def adjLine (id : Nat) (preds : List Nat) : List Char :=
  decimal id ++ preds.flatMap (fun p => ' ' :: decimal p) ++ ['\n']

/-- `map(int, adjlist.split(b" "))`, _model.pyx 159. -/
def parseLine (line : List Char) : Option (List Int) := (splitBlank line).mapM parseInt

/-! ## The files -/

/-- The names of the classes of symbols, symbols.pyx. -/
inductive ClassName where
  | integerVariable | binaryVariable | listVariable | setVariable | disjointLists | disjointBitSets
  | constant | disjointList | disjointBitSet
  | unary (op : UnaryOp) | binary (op : BinaryOp) | nary (op : NaryOp)
  | reduce (op : ReduceOp) | fold (op : FoldOp)
  | partialSum | reshape | size | where_ | quadraticModel
  /-- a name that is not the name of a symbol class -/
  | unknown

/-- What is in the directory of a symbol. -/
inductive Payload where
  | nothing
  /-- `shape.json` of `BinaryVariable` and `Reshape` -/
  | shape (s : List Int)
  /-- `shape.json` of `IntegerVariable` -/
  | bounds (s : List Int) (lb ub : Int)
  /-- `shape.json` of `ListVariable` and `SetVariable` -/
  | sizes (maxValue minSize maxSize : Int)
  /-- `shape.json` of `DisjointLists` and `DisjointBitSets` -/
  | parts (P N : Int)
  /-- `array.npy` of `Constant` -/
  | array (a : Arr Rat)
  /-- `index.json` of `DisjointList` and `DisjointBitSet` -/
  | index (i : Int)
  /-- `axes.json` of `PartialSum` -/
  | axes (l : List Int)
  /-- `linear.npy`, `quadratic.npy` and `coords.npy` of `QuadraticModel` -/
  | biases (linear : List Rat) (terms : List (Int × Int × Rat))

/-- The header, which is also the content of `info.json`, _model.pyx 218-234. -/
structure Header where
  decisionStateSize : Int
  numNodes : Int
  stateSize : Int
  numStates : Int
  deriving DecidableEq, Repr

/-- A saved model. -/
structure Archive where
  header : Header
  info : Header
  /-- `nodetypes.txt` -/
  types : List ClassName
  /-- `adj.adjlist` -/
  adj : List Char
  /-- `nodes/<i>/` -/
  payload : Nat → Payload
  objective : Option Int
  constraints : List Int
  /-- `nodes/<i>/states/<j>/`: the arrays there -/
  state : Int → Nat → List (Arr Rat)

namespace Symbols

/-- What a symbol answers, asked with enough stack: `min()`, `max()` and `integral()` call those of the operands.
(Answers of symbols that cannot answer are not used.) -/
def answer (S : Symbols) (g : Graph) : Nat → Nat → Claim
  | 0, _ => ⟨.default, false⟩
  | n + 1, v => match S.claimOf g (S.answer g n) v with
    | .ok c => c
    | _ => ⟨.default, false⟩

/-- The declarations of all symbols. -/
def declared (S : Symbols) (g : Graph) (v : Nat) : Claim := S.answer g g.nodes.length v

/-- `state_size()` of a symbol, _model.pyx 1022-1043, 1472-1503; `itemsize()` is 8. -/
def stateSize (S : Symbols) (g : Graph) (v : Nat) : Res Int :=
  if (S.kind v).isArray = false then .ok 0
  else if dynamicShape (Kind.shape1 (S.shapes v)) = false then .ok ((Kind.shape1 (S.shapes v)).prod * 8)
  else do
    let info ← if (S.sizeInfo g v).array ≠ some v then
        (S.sizeInfo g v).substitute (S.sizeInfo g) g.nodes.length
      else .ok (S.sizeInfo g v)
    match info.max with
    | none => .throw
    | some m => .ok (m * 8)

/-- The sum of the state sizes of some symbols, _model.pyx 108, 636. -/
def sizeOfStates (S : Symbols) (g : Graph) (vs : List Nat) : Res Int := do
  let sizes ← vs.mapM (S.stateSize g)
  .ok sizes.sum

end Symbols

namespace Kind

/-- The default initial values of the reductions, mathematical.hpp 400-490; those the Python classes use. -/
def defaultInit : ReduceOp → Rat
  | .all => 1
  | .any => 0
  | .sum => 0
  | .prod => 1

/-- `ldata`, symbols.pyx 2741. -/
def savedLinear (n : Nat) (ops : List BiasOp) : List Rat :=
  (List.range n).map fun i => (qModel n ops).linear.getD i 0

/-- The interactions, symbols.pyx 2751 (`exportQuadratic` is defined for all models made by the library). -/
def exported (q : QModel) : List (Nat × Nat × Rat) :=
  match q.exportQuadratic with
  | .ok l => l
  | _ => []

/-- `qdata` and `coords`, symbols.pyx 2743-2748: first the squares, then the interactions. -/
def savedTerms (n : Nat) (ops : List BiasOp) : List (Int × Int × Rat) :=
  ((List.range n).map fun i : Nat => ((i : Int), (i : Int), (qModel n ops).square.getD i 0)) ++
    (exported (qModel n ops)).map fun t => ((t.1 : Int), (t.2.1 : Int), t.2.2)

/-- The class of a symbol and what it saves about itself: `_into_zipfile` in symbols.pyx 725-734 (binary),
1011-1013 (constant), 1128-1136, 1390-1396 (disjoint sets and lists), 1293-1295, 1546-1548 (their parts), 1689-1700
(integer), 1815-1827 (list), 2463-2465 (partial sum), 2725-2760 (quadratic model), 2821-2823 (reshape), 2879-2894
(set); the others save nothing.  `isList` tells lists and sets apart; `parent` is the kind of the first operand;
`shape` is `shape()`. -/
def saved (k : Kind) (isList : Bool) (parent : Kind) (shape : List Int) : ClassName × Payload :=
  match k with
  | integer _ lo? hi? => (.integerVariable, .bounds shape (lo?.getD 0) (hi?.getD 2000000000))
  | binaryVar _ => (.binaryVariable, .shape shape)
  | collection n lo hi => (if isList then .listVariable else .setVariable, .sizes n lo hi)
  | disjointLists P N => (.disjointLists, .parts P N)
  | disjointBitSets P N => (.disjointBitSets, .parts P N)
  | constant a => (.constant, .array a)
  | output i => (match parent with
      | disjointLists _ _ => .disjointList
      | _ => .disjointBitSet, .index i)
  | unary op => (.unary op, .nothing)
  | binary op => (.binary op, .nothing)
  | nary op => (.nary op, .nothing)
  | reduce op _ => (.reduce op, .nothing)
  | fold op _ => (.fold op, .nothing)
  | partialSum axis _ => (.partialSum, .axes [(axis : Int)])
  | reshape _ => (.reshape, .shape shape)
  | size => (.size, .nothing)
  | where_ => (.where_, .nothing)
  | quadratic n ops => (.quadraticModel, .biases (savedLinear n ops) (savedTerms n ops))

/-- The number of sets or lists of a disjoint decision. -/
def numParts : Kind → Nat
  | disjointLists _ N => N.toNat
  | disjointBitSets _ N => N.toNat
  | _ => 0

end Kind

namespace Draft

/-- The symbol at a position. -/
def at_ (d : Draft) (i : Nat) : Nat := d.m.g.nodes.getD i 0

/-- `topological_index()` of a symbol. -/
def pos (d : Draft) (v : Nat) : Int := (d.m.g.mem v).topo

/-- `state_size` in the header, _model.pyx 222-232. -/
def savedSize (d : Draft) (onlyDecision : Bool) (decisionSize : Int) : Res Int :=
  if onlyDecision then .ok decisionSize else d.S.sizeOfStates d.m.g d.m.g.nodes

/-- `_header_data` of a model with `numStates` states (to be saved), _model.pyx 218-234. -/
def headerData (d : Draft) (onlyDecision : Bool) (numStates : Nat) : Res Header := do
  let dss ← d.S.sizeOfStates d.m.g d.m.g.decisions
  let ss ← d.savedSize onlyDecision dss
  .ok ⟨dss, if onlyDecision then d.m.g.decisions.length else d.m.g.nodes.length, ss, numStates⟩

/-- The arrays saved for a state of a decision: its value (`state()`), or, for disjoint sets and lists, the value
of each successor, symbols.pyx 1184-1192, 1437-1445, _model.pyx 1462-1470.  `A` is the value of the symbol,
if its state is initialised. -/
def savedState (d : Draft) (A : Option Val) (v : Nat) : List (Arr Rat) :=
  match A with
  | none => []
  | some x =>
    if (d.S.kind v).isArray then x.take 1
    else (d.m.g.mem v).succs.map fun w =>
      match d.S.kind w with
      | .output j => x.getD j ⟨[], []⟩
      | _ => ⟨[], []⟩

/-- `into_file` of a locked model, _model.pyx 236-359.  `isList` are the symbols that are lists (rather than sets);
`states j v` is the value of the decision `v` in state `j`, if it is initialised; the first `numStates` states are
saved. -/
def save (d : Draft) (isList : Nat → Bool) (onlyDecision : Bool) (numStates : Nat)
    (states : Nat → Nat → Option Val) : Res Archive := do
  let h ← d.headerData onlyDecision numStates
  let stop := if onlyDecision then d.m.g.decisions.length else d.m.g.nodes.length
  let item := fun v => (d.S.kind v).saved (isList v) (d.S.kind ((d.m.g.mem v).preds.headD 0))
    (Kind.shape1 (d.S.shapes v))
  .ok {
    header := h
    info := h
    types := (d.m.g.nodes.take stop).map fun v => (item v).1
    adj := (d.m.g.nodes.take stop).flatMap fun v =>
      adjLine (d.pos v).toNat ((d.m.g.mem v).preds.map fun p => (d.pos p).toNat)
    payload := fun i => (item (d.at_ i)).2
    objective := (d.m.g.objective.filter fun o => decide (d.pos o < stop)).map d.pos
    constraints := (d.m.g.constraints.filter fun c => decide (d.pos c < stop)).map d.pos
    state := fun i j =>
      if 0 ≤ i ∧ i.toNat < d.m.g.decisions.length ∧ j < numStates then
        d.savedState (states j (d.at_ i.toNat)) (d.at_ i.toNat)
      else [] }

/-! ## Loading -/

/-- The value, or an exception. -/
def orThrow {α : Type} : Option α → Res α
  | some a => .ok a
  | none => .throw

/-- The requests `_init_from_coords` makes, symbols.pyx 2583-2640; `binary` is `x.array_ptr.logical()`. -/
def loadedBiases (binary : Bool) (linear : List Rat) (terms : List (Int × Int × Rat)) : List BiasOp :=
  linear.zipIdx.map (fun p => .addLinear p.2 p.1) ++
    terms.map fun t =>
      if binary ∧ t.1 = t.2.1 then .addLinear t.1.toNat t.2.2 else .addQuadratic t.1.toNat t.2.1.toNat t.2.2

/-- The checks of `QuadraticModel.__init__` and `_init_from_coords`, symbols.pyx 2561-2620, for an operand of the
given shape. -/
def biasesFit (shape : List Int) (linear : List Rat) (terms : List (Int × Int × Rat)) : Prop :=
  dynamicShape shape = false ∧ shape.length = 1 ∧ 1 ≤ shape.prod ∧ (linear.length : Int) ≤ shape.prod ∧
    terms ≠ [] ∧ ∀ t ∈ terms, 0 ≤ t.1 ∧ t.1 < shape.prod ∧ 0 ≤ t.2.1 ∧ t.2.1 < shape.prod

instance (shape : List Int) (linear : List Rat) (terms : List (Int × Int × Rat)) :
    Decidable (biasesFit shape linear terms) := by
  unfold biasesFit; infer_instance

/-- `_from_zipfile` of a class: the constructor's arguments, or an exception if the files are not those expected
(symbols.pyx, at the places given at `Kind.saved`; `Symbol._from_zipfile`, _model.pyx 729-749, for the others).
`preds` are the operands. -/
def loadKind (d : Draft) (claim : Nat → Claim) (cls : ClassName) (pay : Payload) (preds : List Nat) : Res Kind :=
  match cls, pay with
  | .integerVariable, .bounds s lb ub => do
    guardThrow (preds = [])
    guardThrow (∀ n ∈ s, 0 ≤ n)           -- `_as_cppshape`, symbols.pyx 198-217
    .ok (.integer s (some lb) (some ub))
  | .binaryVariable, .shape s => do
    guardThrow (preds = [])
    guardThrow (∀ n ∈ s, 0 ≤ n)
    .ok (.binaryVar s)
  | .listVariable, .sizes n _ _ => do      -- symbols.pyx 1813: only `max_value` is used
    guardThrow (preds = [])
    .ok (.collection n n n)
  | .setVariable, .sizes n lo hi => do
    guardThrow (preds = [])
    .ok (.collection n lo hi)
  | .disjointLists, .parts P N => do
    guardThrow (preds = [])
    .ok (.disjointLists P N)
  | .disjointBitSets, .parts P N => do
    guardThrow (preds = [])
    .ok (.disjointBitSets P N)
  | .constant, .array a => do
    guardThrow (preds = [])
    .ok (.constant a)
  | .unary op, _ => do
    guardThrow (preds.length = 1)
    .ok (.unary op)
  | .binary op, _ => do
    guardThrow (preds.length = 2)
    .ok (.binary op)
  | .nary op, _ => .ok (.nary op)
  | .reduce op, _ => do
    guardThrow (preds.length = 1)
    .ok (.reduce op (Kind.defaultInit op))
  | .fold op, _ => do
    guardThrow (preds.length = 1)
    .ok (.fold op none)
  | .partialSum, .axes (a :: _) => do
    guardThrow (preds.length = 1)
    guardUB (0 ≤ a)
    .ok (.partialSum a.toNat 0)
  | .reshape, .shape s => do
    guardThrow (preds.length = 1)
    guardThrow (∀ n ∈ s, 0 ≤ n)
    .ok (.reshape s)
  | .size, _ => do
    guardThrow (preds.length = 1)
    .ok .size
  | .where_, _ => do
    guardThrow (preds.length = 3)
    .ok .where_
  | .quadraticModel, .biases linear terms => do
    guardThrow (preds.length = 1)
    guardThrow ((d.S.kind (preds.headD 0)).isArray = true)
    guardThrow (biasesFit (Kind.shape1 (d.S.shapes (preds.headD 0))) linear terms)
    .ok (.quadratic (Kind.shape1 (d.S.shapes (preds.headD 0))).prod.toNat
      (loadedBiases (claim (preds.headD 0)).logical linear terms))
  | _, _ => .throw

/-- A constructor called from Python: operands that are not arrays are refused. -/
def construct (decl : Symbols → Graph → Nat → Claim) (d : Draft) (k : Kind) (preds : List Nat) : Res Draft := do
  guardThrow (k.typed (preds.map d.S.kind) = true)
  match d.perform decl (.construct d.m.g.nodes.length k preds) with
  | (d', .ok _) => .ok d'
  | (_, .throw) => .throw
  | (_, .ub) => .ub

/-- Whether a part of the class can belong to the parent, symbols.pyx 1216, 1468. -/
def partOf : ClassName → Kind → Bool
  | .disjointList, .disjointLists _ _ => true
  | .disjointBitSet, .disjointBitSets _ _ => true
  | _, _ => false

/-- `DisjointBitSet(parent, index)` and `DisjointList(parent, index)`, symbols.pyx 1216-1238, 1468-1490: parts are made
in order; a part that exists already is found again. -/
def loadPart (decl : Symbols → Graph → Nat → Claim) (d : Draft) (cls : ClassName) (i : Int) (preds : List Nat) :
    Res Draft := do
  guardThrow (preds.length = 1)
  guardThrow (partOf cls (d.S.kind (preds.headD 0)) = true)
  guardThrow (0 ≤ i ∧ i < (d.S.kind (preds.headD 0)).numParts)
  guardThrow (i ≤ (d.m.g.mem (preds.headD 0)).succs.length)
  if i = (d.m.g.mem (preds.headD 0)).succs.length then d.construct decl (.output 0) preds else .ok d

/-- Making a symbol from its files. -/
def loadSymbol (decl : Symbols → Graph → Nat → Claim) (d : Draft) (cls : ClassName) (pay : Payload)
    (preds : List Nat) : Res Draft :=
  match cls, pay with
  | .disjointList, .index i => d.loadPart decl .disjointList i preds
  | .disjointBitSet, .index i => d.loadPart decl .disjointBitSet i preds
  | cls, pay => do
    let k ← d.loadKind (decl d.S d.m.g) cls pay preds
    d.construct decl k preds

/-- An operand given by its number in the file, _model.pyx 164-168: `nodes()[pid]` is not checked against the number
of symbols there are. -/
def loadOperand (d : Draft) (id : Int) (p : Int) : Res Nat := do
  guardThrow (0 ≤ p ∧ p < id)
  guardUB (p.toNat < d.m.g.nodes.length)
  .ok (d.at_ p.toNat)

/-- One turn of the loop _model.pyx 157-181; `l` is the class name with the line of the adjacency list and its
number. -/
def loadLine (decl : Symbols → Graph → Nat → Claim) (payload : Nat → Payload) (d : Draft)
    (l : (ClassName × List Char) × Nat) : Res Draft := do
  let ids ← orThrow (parseLine l.1.2)
  guardThrow (ids.headD (-1) = l.2)
  let preds ← ids.tail.mapM (d.loadOperand (ids.headD (-1)))
  d.loadSymbol decl l.1.1 (payload l.2) preds

/-- An operation of a user, called while loading: exceptions are not caught. -/
def must (decl : Symbols → Graph → Nat → Claim) (d : Draft) (op : BuildOp) : Res Draft :=
  match d.perform decl op with
  | (d', .ok _) => .ok d'
  | (_, .throw) => .throw
  | (_, .ub) => .ub

/-- _model.pyx 183-188: a negative number passes the check. -/
def loadObjective (decl : Symbols → Graph → Nat → Claim) (d : Draft) (o : Option Int) : Res Draft :=
  match o with
  | none => .ok d
  | some i => do
    guardThrow (i < d.m.g.nodes.length)
    guardUB (0 ≤ i)
    guardThrow ((d.S.kind (d.at_ i.toNat)).isArray = true)
    d.must decl (.minimize (d.at_ i.toNat))

/-- _model.pyx 190-191: the numbers are not checked. -/
def loadConstraint (decl : Symbols → Graph → Nat → Claim) (d : Draft) (i : Int) : Res Draft := do
  guardUB (0 ≤ i ∧ i.toNat < d.m.g.nodes.length)
  guardThrow ((d.S.kind (d.at_ i.toNat)).isArray = true)
  d.must decl (.constraint (d.at_ i.toNat))

/-- `_state_from_zipfile`: the new value of a symbol.  Arrays: _model.pyx 1443-1460; disjoint sets and lists:
symbols.pyx 1176-1182, 1429-1435, which need as many arrays as there are parts.  Symbols that are no decisions have
no `set_state`.  `set_state` converts the elements to integers, which changes nothing for integers. -/
def loadState (d : Draft) (v : Nat) (files : List (Arr Rat)) : Res (Option Val) :=
  if (d.S.kind v).isArray then
    match files with
    | [] => .ok none
    | a :: _ => do
      guardThrow ((d.S.kind v).isDecision = true)
      let s ← (d.S.sem d.m.g v).init [[a]]
      .ok (some ((d.S.sem d.m.g v).view s))
  else do
    guardThrow ((d.S.kind v).numParts ≤ files.length)
    let s ← (d.S.sem d.m.g v).init [files.take (d.S.kind v).numParts]
    .ok (some ((d.S.sem d.m.g v).view s))

end Draft

/-- A loaded model: which symbols are lists, and the values of the decisions (by position) in each state. -/
structure Loaded where
  d : Draft
  numStates : Nat
  /-- `states[i][j]`: state `j` of the decision at position `i` -/
  states : List (List (Option Val))

namespace Archive

/-- `from_file`, _model.pyx 139-216. -/
def load (decl : Symbols → Graph → Nat → Claim) (checkHeader : Bool) (a : Archive) : Res Loaded := do
  guardThrow (0 ≤ a.info.numNodes)
  let d ← (a.types.zip (splitLines a.adj)).zipIdx.foldlM (Draft.loadLine decl a.payload) Draft.new
  let d ← d.loadObjective decl a.objective
  let d ← a.constraints.foldlM (Draft.loadConstraint decl) d
  guardThrow (0 ≤ a.info.numStates)
  let states ← (d.m.g.nodes.take d.m.g.decisions.length).mapM fun v =>
    (List.range a.info.numStates.toNat).mapM fun j => d.loadState v (a.state (d.pos v) j)
  let l : Loaded := ⟨d, a.info.numStates.toNat, states⟩
  if checkHeader then do
    let h ← d.headerData false l.numStates
    guardThrow (h = a.header)
    .ok l
  else .ok l

end Archive

end Verif
