import Verif.Model.Collection
import Verif.Model.NumberArguments

/-!
# Model of the arguments of `list`, `set`, `disjoint_lists` and `disjoint_bit_sets`
(/repo/dwave/optimization/model.py 159-228, 291-308, 382-406; symbols.pyx 1062-1070, 1215-1235, 1319-1327, 1788-1792, 2848-2850;
include/dwave-optimization/nodes/collections.hpp 83-97, 292-312; src/nodes/collections.cpp 317-321, 583-587, 700-710)

Simplification: the model is not locked.
-/

namespace Verif

/-- An argument of type `Py_ssize_t`. -/
inductive SizeArg where
  | int (n : Int)
  /-- what is no integer, floating point numbers among them -/
  | other
  deriving DecidableEq

/-- The conversion to `Py_ssize_t`. -/
def SizeArg.convert : SizeArg → Res Int
  | .int n => do
    guardThrow (fitsSsize n)
    .ok n
  | .other => .throw

/-- A `ListNode` or a `SetNode`. -/
structure CollVar where
  shape : List Int
  size : Int
  node : CollNode
  deriving DecidableEq

/-- The constructor of `CollectionNode`, collections.hpp 83-97. -/
def makeCollVar (n lo hi : Int) : Res CollVar := do
  let shape := [if lo = hi then hi else -1]
  let size ← cppSize shape
  let c ← CollNode.make n lo hi
  .ok ⟨shape, size, c⟩

/-- `list(n)`, model.py 291-308, symbols.pyx 1788-1792, collections.hpp 292. -/
def pyList (n : SizeArg) : Res CollVar := do
  let n ← n.convert
  makeCollVar n n n

/-- `set(n, min_size=0, max_size=None)`, model.py 382-406, symbols.pyx 2848-2850. -/
def pySet (n : SizeArg) (minSize maxSize : Option SizeArg) : Res CollVar := do
  let k ← n.convert
  let lo ← (minSize.getD (.int 0)).convert
  let hi ← (maxSize.getD n).convert
  makeCollVar k lo hi

/-- `DisjointBitSet(main, i)`, symbols.pyx 1215-1235, and `DisjointList(main, i)`, when `made` parts of `num` have been made: how many there are
then, and which part it is.  A new part has the next number, collections.cpp 703-707. -/
def makePart (num : Int) (made i : Nat) : Res (Nat × Nat) := do
  guardThrow ((i : Int) < num)
  guardThrow (i ≤ made)
  if i = made then do
    guardThrow ((made : Int) < num)
    .ok (made + 1, made)
  else .ok (made, i)

/-- `tuple(DisjointBitSet(main, i) for i in …)`, model.py 192. -/
def makeParts (num : Int) : Nat → List Nat → Res (List Nat)
  | _, [] => .ok []
  | made, i :: is => do
    let p ← makePart num made i
    let ps ← makeParts num p.1 is
    .ok (p.2 :: ps)

/-- The main symbol's two numbers and its parts. -/
structure Division where
  primary : Int
  num : Int
  parts : List Nat
  deriving DecidableEq

/-- `disjoint_bit_sets(primary_set_size, num_disjoint_sets)`, model.py 159-193, and `disjoint_lists`, 195-228. -/
def pyDisjoint (primary num : SizeArg) : Res Division := do
  let p ← primary.convert
  let n ← num.convert
  guardThrow (¬p < 0)
  guardThrow (¬n < 1)
  let parts ← makeParts n 0 (List.range n.toNat)
  .ok ⟨p, n, parts⟩

end Verif
