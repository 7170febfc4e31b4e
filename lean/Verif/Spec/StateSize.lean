import Verif.Model.StateSize
import Verif.Spec.Programs

/-! # Specification: the sizes of states -/

namespace Verif
namespace Script

/-- The number of bytes that the elements of the given array symbols take. -/
def bytes (vals : Nat → Val) (is : List Nat) : Int := (is.map fun i => 8 * ((single (vals i)).data.length : Int)).sum

/-- The symbols of varying size whose greatest size is known: sets, lists and disjoint lists, and what binary operations and indexing
make of them. -/
inductive Sized (s : Script) : Nat → Prop where
  | set {i : Nat} {n lo hi : Int} : i < s.length → (s.row i).built = .kind (.collection n lo hi) →
      dynamicShape (s.row i).out.shape = true → hi < ssMax → Sized s i
  | list {i j p : Nat} {P N : Int} : i < s.length → (s.row i).built = .kind (.output j) → (s.row i).ops = [p] →
      (s.row p).built = .kind (.disjointLists P N) → dynamicShape (s.row i).out.shape = true → P < ssMax → Sized s i
  | binary {i b : Nat} {op : BinaryOp} : i < s.length → (s.row i).built = .kind (.binary op) →
      dynamicShape (s.row i).out.shape = true → (s.sizes i).array = some b → Sized s b → Sized s i
  | advanced {i b : Nat} {idx : List (Option Indexer)} {P : Adv} {base : Option (Arr Rat)} : i < s.length →
      (s.row i).built = .advanced idx P base → dynamicShape (s.row i).out.shape = true → (∀ o ∈ idx, o.isSome = true) →
      (s.sizes i).array = some b → Sized s b → Sized s i

end Script
end Verif
