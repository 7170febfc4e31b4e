import Verif.Model.Archive

/-!
# Saving and loading states
(/repo/dwave/optimization/states.pyx 140-172, 292-295)

States are saved in a file with a model that has only the decisions (`Draft.save` with `only_decision=True`).
-/

namespace Verif

/-- A number for each class, to compare them (all square roots are of one class). -/
def ClassName.key : ClassName → Nat × Nat
  | .integerVariable => (0, 0)
  | .binaryVariable => (0, 1)
  | .listVariable => (0, 2)
  | .setVariable => (0, 3)
  | .disjointLists => (0, 4)
  | .disjointBitSets => (0, 5)
  | .constant => (0, 6)
  | .disjointList => (0, 7)
  | .disjointBitSet => (0, 8)
  | .partialSum => (0, 9)
  | .reshape => (0, 10)
  | .size => (0, 11)
  | .where_ => (0, 12)
  | .quadraticModel => (0, 13)
  | .unknown => (0, 14)
  | .unary .absolute => (1, 0)
  | .unary .logical => (1, 1)
  | .unary .negative => (1, 2)
  | .unary .not => (1, 3)
  | .unary .square => (1, 4)
  | .unary (.squareRoot _) => (1, 5)
  | .binary op => (2, op.ctorIdx)
  | .nary op => (3, op.ctorIdx)
  | .reduce op => (4, op.ctorIdx)
  | .fold op => (5, op.ctorIdx)

namespace Draft

/-- `type(symbol)`. -/
def className (d : Draft) (isList : Nat → Bool) (v : Nat) : ClassName :=
  ((d.S.kind v).saved (isList v) (d.S.kind ((d.m.g.mem v).preds.headD 0)) (Kind.shape1 (d.S.shapes v))).1

/-- `model.states.to_file()` of a locked model with `numStates` states, states.pyx 292-295 (an unlocked model is locked for the duration
of the method, _model.pyx 264-267). -/
def saveStates (d : Draft) (isList : Nat → Bool) (numStates : Nat) (states : Nat → Nat → Option Val) : Res Archive :=
  d.save isList true numStates states

/-- `model.states.from_file(file)`, states.pyx 140-172: for each state the values that the decisions of the file's model have, if they
are initialised; entry number `i` of a state is later found by the symbol with topological index `i` (`Session.load` in Model/Sessions.lean).
No class of symbols is derived from another one, so `isinstance` compares classes; `zip` compares only as many symbols as the smaller model
has.  The symbols of the file's model have the classes named in the file, one each (see `C41_repeated_part_fails` for files with repeated
parts, which the library does not write). -/
def loadStates (decl : Symbols → Graph → Nat → Claim) (d : Draft) (isList : Nat → Bool) (a : Archive) (check : Bool) :
    Res (List (List (Option Val))) := do
  let l ← a.load decl check
  guardThrow (∀ p ∈ (a.types.take l.d.m.g.nodes.length).zip (d.m.g.nodes.map (d.className isList)), p.1.key = p.2.key)
  .ok ((List.range l.numStates).map fun j => l.states.map fun row => (row[j]?).join)

end Draft

end Verif
