import Verif.Model.Programs

/-!
# `Symbol.equals` and `Symbol.maybe_equals`

_model.pyx 683-703, 885-948, 1291-1309 and symbols.pyx 1015-1027.
-/

namespace Verif

/-- The Python classes of symbols, symbols.pyx.  None is derived from another, so `isinstance(p, type(q))` says that they are equal. -/
inductive PyClass where
  | integerVariable | binaryVariable | listVariable | setVariable | disjointLists | disjointBitSets | constant | disjointList
  | absolute | logical | negative | not | square | squareRoot
  | binary (op : BinaryOp)
  | nary (op : NaryOp)
  | reduce (op : ReduceOp)
  | fold (op : FoldOp)
  | partialSum | reshape | size | where_ | quadraticModel | basicIndexing | advancedIndexing | permutation
  deriving DecidableEq, Repr

/-- All but `DisjointLists` and `DisjointBitSets` are derived from `ArraySymbol`. -/
def PyClass.isArray : PyClass → Bool
  | disjointLists | disjointBitSets => false
  | _ => true

/-- The class of a symbol.  Simplified: collections of one size only count as lists, others as sets; `DisjointList` and `DisjointBitSet`
are not told apart, since their predecessors are. -/
def Built.pyClass : Built → PyClass
  | .kind (.integer ..) => .integerVariable
  | .kind (.binaryVar _) => .binaryVariable
  | .kind (.collection _ lo hi) => if lo = hi then .listVariable else .setVariable
  | .kind (.disjointLists ..) => .disjointLists
  | .kind (.disjointBitSets ..) => .disjointBitSets
  | .kind (.constant _) => .constant
  | .kind (.output _) => .disjointList
  | .kind (.unary .absolute) => .absolute
  | .kind (.unary .logical) => .logical
  | .kind (.unary .negative) => .negative
  | .kind (.unary .not) => .not
  | .kind (.unary .square) => .square
  | .kind (.unary (.squareRoot _)) => .squareRoot
  | .kind (.binary op) => .binary op
  | .kind (.nary op) => .nary op
  | .kind (.reduce op _) => .reduce op
  | .kind (.fold op _) => .fold op
  | .kind (.partialSum ..) => .partialSum
  | .kind (.reshape _) => .reshape
  | .kind .size => .size
  | .kind .where_ => .where_
  | .kind (.quadratic ..) => .quadraticModel
  | .basic .. => .basicIndexing
  | .advanced .. => .advancedIndexing
  | .permutation _ => .permutation

/-- The value of a `Constant`. -/
def Built.constant? : Built → Option (Arr Rat)
  | .kind (.constant a) => some a
  | _ => none

/-- `NOT`, `MAYBE`, `DEFINITELY`. -/
inductive MaybeEqual where
  | not | maybe | definitely
  deriving DecidableEq, Repr

namespace Script

/-- `Symbol.maybe_equals`, _model.pyx 917-948, of the symbols `i` of `s` and `j` of `t`; `same`: `s` and `t` are the same model (object). -/
def maybeEqualsSymbol (s t : Script) (same : Bool) (i j : Nat) : MaybeEqual :=
  if (s.row i).built.pyClass ≠ (t.row j).built.pyClass then .not
  else if same = true ∧ i = j then .definitely
  else if (s.row i).ops.length ≠ (t.row j).ops.length then .not
  else if ((s.row i).ops.zip (t.row j).ops).any (fun p => (s.row p.1).built.pyClass ≠ (t.row p.2).built.pyClass) then .not
  else .maybe

/-- `ArraySymbol.maybe_equals`, _model.pyx 1291-1309. -/
def maybeEqualsArray (s t : Script) (same : Bool) (i j : Nat) : MaybeEqual :=
  match maybeEqualsSymbol s t same i j with
  | .maybe =>
    if (t.row j).built.pyClass.isArray = false then .not
    else if (s.row i).out.shape ≠ (t.row j).out.shape then .not
    else .maybe
  | r => r

/-- `Constant.maybe_equals`, symbols.pyx 1015-1027. -/
def maybeEqualsConstant (s t : Script) (same : Bool) (i j : Nat) (a : Arr Rat) : MaybeEqual :=
  match maybeEqualsArray s t same i j with
  | .maybe => if some a.data = (t.row j).built.constant?.map Arr.data then .definitely else .not
  | r => r

/-- `x.maybe_equals(y)`. -/
def maybeEquals (s t : Script) (same : Bool) (i j : Nat) : MaybeEqual :=
  match (s.row i).built.constant? with
  | some a => maybeEqualsConstant s t same i j a
  | none => if (s.row i).built.pyClass.isArray = true then maybeEqualsArray s t same i j else maybeEqualsSymbol s t same i j

/-- `Symbol.equals`, _model.pyx 697-703, with a bound on the depth of the recursion. -/
def equalsTo (s t : Script) (same : Bool) : Nat → Nat → Nat → Bool
  | 0, _, _ => false
  | n + 1, i, j =>
    match s.maybeEquals t same i j with
    | .not => false
    | .definitely => true
    | .maybe => ((s.row i).ops.zip (t.row j).ops).all fun p => equalsTo s t same n p.1 p.2

/-- `x.equals(y)`: predecessors have smaller numbers, so `i + 1` levels are enough. -/
def equals (s t : Script) (same : Bool) (i j : Nat) : Bool := s.equalsTo t same (i + 1) i j

end Script

end Verif
