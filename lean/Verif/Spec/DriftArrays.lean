import Verif.Spec.Drift

/-!
# Specification: how far the elements of an array may drift
-/

namespace Verif

/-- How many changes the operands report. -/
def changesIn (ins : List (Arr Rat × List (Update Rat))) : Nat := (ins.map fun p => p.2.length).sum

/-- The arrays have the same shape and size, and each element of the first differs from that of the second, `w`, by at most `b w`. -/
def Near (b : Rat → Rat) (x y : Arr Rat) : Prop :=
  x.shape = y.shape ∧ x.data.length = y.data.length ∧
    ∀ (i : Nat) (v w : Rat), x.data[i]? = some v → y.data[i]? = some w → |v - w| ≤ b w

/-- As `Drifts`, for symbols that are arrays and have any number of operands: after every history with at most `limit` changes, the
symbol's elements differ from those of `f` of the operands' committed values by at most `bound k` of the exact element, where `k`
changes have been committed; and nothing is pending.  After further changes the same holds with these counted, and the reported change
leads from the symbol's former value to its present one.  None of this throws or has undefined behaviour. -/
def DriftsEverywhere (relIn : Arr Rat → List (Update Rat) → Arr Rat → Prop) (N : NodeSem (Arr Rat) (List (Update Rat)))
    (f : List (Arr Rat) → Arr Rat) (ok : List (Arr Rat) → Prop) (bound : Nat → Rat → Rat) (limit : Nat) : Prop :=
  ∀ xs0, ok xs0 → ∀ rounds xs, Legal relIn ok xs0 rounds xs → allChanges rounds ≤ limit →
    ∃ s0 s, N.init xs0 = .ok s0 ∧ rounds.foldlM N.round s0 = .ok s ∧
      Near (bound (committedChanges rounds)) (N.view s) (f xs) ∧ N.diff s = [] ∧
      ∀ ins ys, Ins relIn xs ins ys → ok ys → allChanges rounds + changesIn ins ≤ limit →
        ∃ s', N.propagate s ins = .ok s' ∧ Near (bound (committedChanges rounds + changesIn ins)) (N.view s') (f ys) ∧
          ArrRel (N.view s) (N.diff s') (N.view s')

end Verif
