import Verif.Spec.Numbers
import Verif.Model.ArrayState

/-!
# Model of `NumberNode`, `IntegerNode`, `BinaryNode`
(/repo/dwave/optimization/src/nodes/numbers.cpp, include/.../nodes/numbers.hpp)
-/

namespace Verif

/-- `NumberNode` members (numbers.hpp 77-78) and the static size of its shape. -/
structure NumNode where
  size : Nat
  lo : Int
  hi : Int
  deriving DecidableEq, Repr

namespace NumNode

/-- `IntegerNode` constructor, numbers.cpp 102-109 after the base constructor, numbers.hpp 64-69. -/
def make (size : Nat) (lo? hi? : Option Int) : Res NumNode := do
  let lo := lo?.getD 0
  let hi := hi?.getD 2000000000
  guardThrow (¬ hi < lo)
  guardThrow (¬ (lo < -2000000000 ∨ hi > 2000000000))
  pure ⟨size, lo, hi⟩

/-- `BinaryNode` constructor, numbers.hpp 141-142. -/
def makeBinary (size : Nat) : Res NumNode := make size (some 0) (some 1)

/-- `IntegerNode::is_valid`, numbers.cpp 117-119. -/
def isValid (c : NumNode) (v : Rat) : Bool :=
  decide (v ≥ (c.lo : Rat)) && decide (v ≤ (c.hi : Rat)) && v.den == 1

/-- `NumberNode::initialize_state(State&, vector<double>&&)`, numbers.cpp 45-60 (the checks of
numbers.hpp 87-94 are the same). -/
def init (c : NumNode) (values : List Rat) : Res (ArrayState Rat) := do
  guardThrow (values.length = c.size)
  guardThrow (∀ v ∈ values, c.isValid v = true)
  pure (ArrayState.mk' values)

/-- `IntegerNode::default_value`, numbers.cpp 126-128. -/
def defaultValue (c : NumNode) : Rat := if c.lo ≤ 0 ∧ c.hi ≥ 0 then 0 else c.lo

/-- `NumberNode::initialize_state(State&)`, numbers.cpp 62-69. -/
def initDefault (c : NumNode) : Res (ArrayState Rat) :=
  c.init (List.replicate c.size c.defaultValue)

/-- `NumberNode::initialize_state(State&, RngAdaptor&)`, numbers.cpp 71-79 with
`generate_value` 121-124: `draws` are the results of the distribution. -/
def initRandom (c : NumNode) (draws : List Int) : Res (ArrayState Rat) :=
  c.init (draws.map (fun i : Int => (i : Rat)))

/-- `IntegerNode::set_value`, numbers.cpp 134-139. -/
def setValue (c : NumNode) (s : ArrayState Rat) (i : Nat) (v : Int) : Res (ArrayState Rat) :=
  if ¬ c.isValid v then .throw else s.set i v

/-- `NumberNode::exchange`, numbers.cpp 82-84; commit and revert, 31-37. -/
def run1 (c : NumNode) (s : ArrayState Rat) : NumOp → Res (ArrayState Rat)
  | .exchange i j => s.exchange i j
  | .setValue i v => c.setValue s i v
  | .commit => .ok s.commit
  | .revert => .ok s.revert

/-- `BinaryNode::flip`, `set`, `unset`, numbers.cpp 153-168. -/
def runBin1 (c : NumNode) (s : ArrayState Rat) : BinOp → Res (ArrayState Rat)
  | .num op => c.run1 s op
  | .flip i => do
    let a ← s.get i
    if a ≠ 0 then s.set i 0 else s.set i 1
  | .setOne i => s.set i 1
  | .unset i => s.set i 0

/-- A caller who catches exceptions and goes on with the state as it is. -/
def caught (f : ArrayState Rat → Res (ArrayState Rat)) (s : ArrayState Rat) :
    Res (ArrayState Rat) :=
  match f s with
  | .throw => .ok s
  | r => r

def run (c : NumNode) (s : ArrayState Rat) (ops : List NumOp) : Res (ArrayState Rat) :=
  ops.foldlM (fun s op => caught (fun s => c.run1 s op) s) s

def runBin (c : NumNode) (s : ArrayState Rat) (ops : List BinOp) : Res (ArrayState Rat) :=
  ops.foldlM (fun s op => caught (fun s => c.runBin1 s op) s) s

end NumNode
end Verif
