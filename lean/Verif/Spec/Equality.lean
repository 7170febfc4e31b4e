import Verif.Model.Equality
import Verif.Spec.Programs

/-! # Specification: what it means that two symbols are alike -/

namespace Verif

namespace Script

/-- The symbols are the same expression as far as class, shape of arrays and elements of constants go: they have predecessors
which are alike, in the same order. -/
inductive Alike (s t : Script) : Nat → Nat → Prop where
  | mk {i j : Nat} : (s.row i).built.pyClass = (t.row j).built.pyClass →
      ((s.row i).built.pyClass.isArray = true → (s.row i).out.shape = (t.row j).out.shape) →
      (s.row i).built.constant?.map Arr.data = (t.row j).built.constant?.map Arr.data →
      (s.row i).ops.length = (t.row j).ops.length →
      (∀ k a b : Nat, (s.row i).ops[k]? = some a → (t.row j).ops[k]? = some b → Alike s t a b) → Alike s t i j

/-- The symbols that stand in the same place when `i` of `s` and `j` of `t` are written as expressions. -/
inductive Matched (s t : Script) (i j : Nat) : Nat → Nat → Prop where
  | root : Matched s t i j i j
  | step {p q k a b : Nat} : Matched s t i j p q → (s.row p).ops[k]? = some a → (t.row q).ops[k]? = some b → Matched s t i j a b

end Script

/-- The symbols whose class and shape say what they compute from their predecessors: not indexing, quadratic models, sums along an
axis, and disjoint lists or sets.  Reductions have no initial values other than the usual ones (in Python they cannot have
others), and square roots are computed by `root`. -/
def Built.Plain (root : Rat → Rat) : Built → Prop
  | .kind (.unary (.squareRoot r)) => r = root
  | .kind (.reduce .all init) | .kind (.reduce .prod init) => init = 1
  | .kind (.reduce .any init) | .kind (.reduce .sum init) => init = 0
  | .kind (.fold _ init) => init = none
  | .kind (.disjointLists ..) | .kind (.disjointBitSets ..) | .kind (.output _) | .kind (.partialSum ..) | .kind (.quadratic ..) => False
  | .kind _ => True
  | _ => False

end Verif
