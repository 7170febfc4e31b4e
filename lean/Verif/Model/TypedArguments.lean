import Verif.Spec.Res

/-!
# Model of the arguments of functions that take symbols
(/repo/dwave/optimization/symbols.pyx, constructors of the classes; mathematical.py 60-74, 146-156, 191-605; _model.pyx 57, 89-94, 434,
458-464, 1005-1010; states.pyx 301-311)

A parameter or variable of an extension type (`ArraySymbol x`) takes instances of the class *and `None`*; the compiler directive
`nonecheck` is not set, so an attribute of such a variable is read at its place in the structure without a look at the object.  For `None`
that is outside of the object: undefined.  Simplifications: what the C++ constructors check afterwards (shapes, locks) is left out, and so
are further arguments that are no symbols.  Symbols are taken to be alive (none has been removed from its model).
-/

namespace Verif

/-- A Python object, as far as it matters here. -/
inductive Handed where
  | none
  /-- an array symbol: its model and its node -/
  | array (model node : Nat)
  /-- a symbol that is no array (`DisjointBitSets`, `DisjointLists`) -/
  | plain (model node : Nat)
  /-- another object that has an attribute `model` -/
  | lookalike (model : Nat)
  /-- any other object -/
  | other
  deriving DecidableEq

/-- Classes with one typed operand.  In symbols.pyx: `Absolute` 238, `All` 310, `Any` 381, `_ArrayValidation` 402, `BasicIndexing` 567,
`Logical` 1865, `Max` 1900, `Min` 1978, `Negative` 2343, `Not` 2370, `PartialSum` 2435, `Prod` 2524, `QuadraticModel` 2561, `Reshape` 2790,
`Size` 2926, `Square` 2963, `SquareRoot` 2998, `Sum` 3072; `StateView`, states.pyx 301. -/
inductive OneOperand where
  | absolute | all | any | arrayValidation | basicIndexing | logical | max | min | negative | not | partialSum | prod | quadraticModel
  | reshape | size | square | squareRoot | sum | stateView
  deriving DecidableEq

/-- Classes with two typed operands: `Add` 273, `And` 336, `Divide` 1574, `Equal` 1612, `LessEqual` 1752, `Maximum` 1939, `Minimum` 2017,
`Modulus` 2056, `Multiply` 2094, `Or` 2397, `Subtract` 3034, `Xor` 3133. -/
inductive TwoOperands where
  | add | and | divide | equal | lessEqual | maximum | minimum | modulus | multiply | or | subtract | xor
  deriving DecidableEq

/-- Classes with untyped operands: `Concatenate` 804, `NaryAdd` 2135, `NaryMaximum` 2192, `NaryMinimum` 2242, `NaryMultiply` 2291. -/
inductive ManyOperands where
  | concatenate | naryAdd | naryMaximum | naryMinimum | naryMultiply
  deriving DecidableEq

/-- A call. -/
inductive SymbolCall where
  | one (c : OneOperand) (x : Handed)
  | two (c : TwoOperands) (l r : Handed)
  | many (c : ManyOperands) (xs : List Handed)
  /-- `Where(condition, x, y)` -/
  | choose (c x y : Handed)
  /-- `AdvancedIndexing(array, *indices)`; `none`: an empty slice -/
  | advanced (a : Handed) (indices : List (Option Handed))
  /-- `model.add_constraint(x)` -/
  | constraint (x : Handed)
  /-- `model.minimize(x)` -/
  | objective (x : Handed)
  /-- `symbol.shares_memory(x)`, where `symbol` has the given node -/
  | shares (node : Nat) (x : Handed)
  deriving DecidableEq

/-- What comes of it: the nodes that are handed on to C++, or an answer. -/
inductive CallResult where
  | nodes (l : List Nat)
  | answer (b : Bool)
  deriving DecidableEq

namespace Handed

/-- The check of a parameter or an assignment of type `ArraySymbol`. -/
def asArray : Handed → Res Handed
  | .none => .ok .none
  | .array m n => .ok (.array m n)
  | _ => .throw

/-- The check of an assignment of type `Symbol`. -/
def asSymbol : Handed → Res Handed
  | .none => .ok .none
  | .array m n => .ok (.array m n)
  | .plain m n => .ok (.plain m n)
  | _ => .throw

/-- `x.model` of a typed variable. -/
def field : Handed → Res Nat
  | .array m _ => .ok m
  | .plain m _ => .ok m
  | _ => .ub

/-- `x.array_ptr`, `x.node_ptr` or `x.id()` of a typed variable. -/
def pointer : Handed → Res Nat
  | .array _ n => .ok n
  | .plain _ n => .ok n
  | _ => .ub

/-- `x.model` of an untyped variable. -/
def modelOf : Handed → Res Nat
  | .array m _ => .ok m
  | .plain m _ => .ok m
  | .lookalike m => .ok m
  | _ => .throw

/-- `<ArraySymbol?>x`. -/
def cast : Handed → Res Handed
  | .array m n => .ok (.array m n)
  | _ => .throw

end Handed

/-- The loop of the classes with many operands, symbols.pyx 812-816, 2143-2147, 2200-2204, 2250-2254, 2299-2303. -/
def manyLoop (model : Nat) : List Handed → Res (List Nat)
  | [] => .ok []
  | x :: xs => do
    let m ← x.modelOf
    guardThrow (m = model)
    let y ← x.cast
    let p ← y.pointer
    let l ← manyLoop model xs
    .ok (p :: l)

/-- The loop of `AdvancedIndexing.__init__`, symbols.pyx 445-456. -/
def advancedLoop (model : Nat) : List (Option Handed) → Res (List Nat)
  | [] => .ok []
  | none :: xs => advancedLoop model xs
  | some x :: xs => do
    let y ← x.asArray
    let m ← y.field
    guardThrow (m = model)
    let p ← y.pointer
    let l ← advancedLoop model xs
    .ok (p :: l)

/-- A call up to the C++ code. -/
def SymbolCall.run : SymbolCall → Res CallResult
  | .one _ x => do
    let x ← x.asArray
    let _ ← x.field
    let p ← x.pointer
    .ok (.nodes [p])
  | .two _ l r => do
    let l ← l.asArray
    let r ← r.asArray
    let m ← l.field
    let k ← r.field
    guardThrow (m = k)
    let p ← l.pointer
    let q ← r.pointer
    .ok (.nodes [p, q])
  | .many _ xs =>
    match xs with
    | [] => .throw
    | x :: xs => do
      let m ← x.modelOf
      let l ← manyLoop m (x :: xs)
      .ok (.nodes l)
  | .choose c x y => do
    let c ← c.asArray
    let x ← x.asArray
    let y ← y.asArray
    let m ← c.field
    let k ← x.field
    guardThrow (m = k)
    let j ← y.field
    guardThrow (m = j)
    let p ← c.pointer
    let q ← x.pointer
    let r ← y.pointer
    .ok (.nodes [p, q, r])
  | .advanced a indices => do
    let a ← a.asArray
    let m ← a.field
    let l ← advancedLoop m indices
    let p ← a.pointer
    .ok (.nodes (p :: l))
  | .constraint x => do
    let x ← x.asArray
    guardThrow (x ≠ .none)
    let p ← x.pointer
    .ok (.nodes [p])
  | .objective x => do
    let x ← x.asArray
    guardThrow (x ≠ .none)
    let p ← x.pointer
    .ok (.nodes [p])
  | .shares node x =>
    match x.asSymbol with
    | .throw => .ok (.answer false)
    | .ub => .ub
    | .ok x => do
      let p ← x.pointer
      .ok (.answer (node = p))

/-- The functions of mathematical.py with a varying number of operands: `add`, `maximum`, `minimum`, `multiply` (60-74, 77-516). -/
inductive Operation where
  | add | maximum | minimum | multiply
  deriving DecidableEq

/-- The decorator `_op`, mathematical.py 60-74. -/
def Operation.call (o : Operation) : List Handed → Res CallResult
  | [] => .throw
  | [_] => .throw
  | [x, y] => (SymbolCall.two (match o with
    | .add => .add | .maximum => .maximum | .minimum => .minimum | .multiply => .multiply) x y).run
  | xs => (SymbolCall.many (match o with
    | .add => .naryAdd | .maximum => .naryMaximum | .minimum => .naryMinimum | .multiply => .naryMultiply) xs).run

end Verif
