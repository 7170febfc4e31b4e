import Verif.Spec.Arr
import Mathlib.Data.Rat.Defs

/-!
# Specification: the values of symbols with several outputs

Most symbols are arrays.  Disjoint lists and disjoint bit sets are symbols with several arrays as
outputs.  So the value of a symbol is a list of arrays, and a reported change says which of them changed.
-/

namespace Verif

/-- The outputs of a symbol. -/
abbrev Val := List (Arr Rat)

/-- Reported changes, each with the number of the output. -/
abbrev Dif := List (Nat × Update Rat)

/-- The changes of output number `i`. -/
def Dif.at (d : Dif) (i : Nat) : List (Update Rat) := (d.filter (fun p => p.1 = i)).map Prod.snd

/-- `d` correctly reports the change of all outputs. -/
structure ValRel (x : Val) (d : Dif) (y : Val) : Prop where
  length : x.length = y.length
  each : ∀ i a b, x[i]? = some a → y[i]? = some b → ArrRel a (Dif.at d i) b

/-- A shape as it can occur: only the first dimension may be open. -/
def GoodShape (s : List Int) : Prop := (∀ d ∈ s.drop 1, 0 ≤ d) ∧ ∀ d ∈ s.head?, -1 ≤ d

instance (s : List Int) : Decidable (GoodShape s) := by unfold GoodShape; infer_instance

end Verif
