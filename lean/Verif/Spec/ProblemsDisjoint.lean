import Verif.Spec.Problems

/-!
# The problems of the generators that use disjoint collections
-/

namespace Verif

/-- `P` things in `N` sets, as disjoint bit sets show them: `into e` is the set of thing `e`. -/
def shownSets (P N : Nat) (into : List Nat) : Val :=
  (List.range N).map fun k => ⟨[(P : Int)], (List.range P).map fun e => if into.getD e 0 = k then 1 else 0⟩

/-- The bin packing problem: every item is put into one of as many bins as there are items, such that the weight in no bin is more
than the capacity; as few bins as possible are used. -/
def binPackingProblem (n : Nat) (weights : Arr Rat) (capacity : Rat) : Problem (List Nat) where
  valid := fun into => into.length = n ∧ ∀ k ∈ into, k < n
  values := fun into _ => shownSets n n into
  cost := fun into => (into.dedup.length : Rat)
  feasible := fun into => ∀ k < n, (((List.range n).filter fun e => into.getD e 0 = k).map weights.elem).sum ≤ capacity

end Verif
