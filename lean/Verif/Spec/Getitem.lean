import Verif.Model.Getitem
import Verif.Spec.Combined

/-! # Specification: what stands between the brackets of `x[...]` -/

namespace Verif

/-- What stands between the brackets, for NumPy. -/
def PyIndex.mixed : PyIndex → MixedIndex
  | int i => .at i
  | slice a b c => .slice a b c
  | symbol _ => .array
  | other => .array

/-- The array symbols between the brackets. -/
def PyIndex.symbols (idx : List PyIndex) : List Nat :=
  idx.filterMap fun i => match i with
    | symbol i => some i
    | _ => none

end Verif
