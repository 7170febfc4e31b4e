import Verif.Spec.Shape

/-!
# Specification: permuting all axes of an array at once
-/

namespace Verif

/-- The array whose element at `(i, j, ...)` is the element of `data` at `(order i, order j, ...)`. -/
def permSelect {α : Type} [Inhabited α] (shape : List Int) (data : List α) (order : Int → Int) : List α :=
  (allCoords shape).map fun c => data.getD (rowMajor shape (c.map order)).toNat default

end Verif
