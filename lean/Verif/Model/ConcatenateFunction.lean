import Verif.Model.Nodes.Concatenate

/-!
# Model of the function `concatenate` (/repo/dwave/optimization/mathematical.py 115-156, symbols.pyx 804-820, src/nodes/manipulation.cpp 31-52)

Simplifications: the model is not locked; of a symbol only its model and its present value are looked at.  What a refused construction
leaves behind is the subject of C48.
-/

namespace Verif

/-- An array symbol of some model, with the state it has. -/
structure ConcatOperand where
  model : Nat
  value : Arr Rat

/-- An element of a sequence: an array symbol, or anything else. -/
inductive ConcatItem where
  | symbol (x : ConcatOperand)
  | other

/-- What `concatenate` is called with: an array symbol, a sequence, or anything else. -/
inductive ConcatArg where
  | symbol (x : ConcatOperand)
  | sequence (l : List ConcatItem)
  | other

/-- What it returns: its argument, or a new symbol. -/
inductive ConcatSymbol where
  | same (x : ConcatOperand)
  | join (xs : List ConcatOperand) (axis : Nat) (shape : List Int)

/-- The loop of `Concatenate.__init__`, symbols.pyx 812-816: other objects have no `model`, or fail the cast. -/
def concatOperands (model : Nat) : List ConcatItem → Res (List ConcatOperand)
  | [] => .ok []
  | .other :: _ => .throw
  | .symbol x :: l => do
    guardThrow (x.model = model)
    let xs ← concatOperands model l
    .ok (x :: xs)

/-- `ConcatenateNode::ConcatenateNode`, manipulation.cpp 31-52.  A negative axis is none of the dimensions, so all must be the same
(89-120), and is refused then (126). -/
def concatConstruct (xs : List ConcatOperand) (axis : Int) : Res ConcatSymbol := do
  guardThrow (0 ≤ axis)
  let out ← concatShape (xs.map fun x => x.value.shape) axis.toNat
  guardThrow (∀ x ∈ xs, x.value.dynamic = false)
  .ok (.join xs axis.toNat out)

/-- `concatenate`, mathematical.py 146-156. -/
def pyConcatenate (arg : ConcatArg) (axis : Int) : Res ConcatSymbol :=
  match arg with
  | .symbol x => .ok (.same x)
  | .sequence [.symbol x] => .ok (.same x)
  | .sequence (.symbol x :: l) => do
    let xs ← concatOperands x.model (.symbol x :: l)
    concatConstruct xs axis
  | _ => .throw

/-- The state of the symbol, computed from those of its operands. -/
def ConcatSymbol.value : ConcatSymbol → Res (Arr Rat)
  | .same x => .ok x.value
  | .join xs axis shape => do
    let s ← (concatNode (xs.map fun x => x.value.shape) axis shape).init (xs.map ConcatOperand.value)
    .ok ((concatNode (xs.map fun x => x.value.shape) axis shape).view s)

end Verif
