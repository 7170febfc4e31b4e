import Verif.Spec.Rounding
import Verif.Spec.Node

/-!
# Specification: how far a value may drift

A symbol that continues from numbers it calculated earlier collects rounding errors.  `Drifts` says how far its value may be from the
exact one, depending on how many changes have been committed.
-/

namespace Verif

/-- How many changes are reported in a round. -/
def Round.changes (r : Round (Arr Rat) (List (Update Rat))) : Nat := (r.ins.map fun p => p.2.length).sum

/-- How many changes are reported in all rounds. -/
def allChanges (rounds : List (Round (Arr Rat) (List (Update Rat)))) : Nat := (rounds.map Round.changes).sum

/-- How many changes are committed. -/
def committedChanges (rounds : List (Round (Arr Rat) (List (Update Rat)))) : Nat :=
  allChanges (rounds.filter fun r => r.accept)

/-- After every history with at most `limit` changes, the value of the symbol, a number, differs from `f` of the operand's committed
value by at most `bound k`, where `k` changes have been committed; and nothing is pending.  After a further change the
same holds with the further changes counted, and the reported change leads from the symbol's former value to its present one.
None of this throws or has undefined behaviour. -/
def Drifts (relIn : Arr Rat → List (Update Rat) → Arr Rat → Prop) (N : NodeSem (Arr Rat) (List (Update Rat))) (f : Arr Rat → Rat)
    (ok : Arr Rat → Prop) (bound : Nat → Arr Rat → Rat) (limit : Nat) : Prop :=
  ∀ x0, ok x0 → ∀ rounds x, Legal relIn (fun xs => ∃ x, xs = [x] ∧ ok x) [x0] rounds [x] → allChanges rounds ≤ limit →
    ∃ s0 s v, N.init [x0] = .ok s0 ∧ rounds.foldlM N.round s0 = .ok s ∧
      N.view s = ⟨[], [v]⟩ ∧ N.diff s = [] ∧ |v - f x| ≤ bound (committedChanges rounds) x ∧
      ∀ d y, relIn x d y → ok y → allChanges rounds + d.length ≤ limit →
        ∃ s' w, N.propagate s [(y, d)] = .ok s' ∧ N.view s' = ⟨[], [w]⟩ ∧
          |w - f y| ≤ bound (committedChanges rounds + d.length) y ∧ ArrRel ⟨[], [v]⟩ (N.diff s') ⟨[], [w]⟩

/-- At most `n` elements, each a double and acceptable. -/
structure DoubleArr (n : Nat) (P : Rat → Prop) (x : Arr Rat) : Prop where
  size : x.data.length ≤ n
  double : ∀ v ∈ x.data, IsDouble v ∧ P v

/-- The change is reported exactly; new elements are acceptable doubles, and never more than `n` are in use. -/
structure DoubleRel (n : Nat) (P : Rat → Prop) (x : Arr Rat) (d : List (Update Rat)) (y : Arr Rat) : Prop where
  exact : ArrRel x d y
  index : ∀ u ∈ d, u.index < n
  new : ∀ u ∈ d, ∀ v, u.value = some v → IsDouble v ∧ P v

end Verif
