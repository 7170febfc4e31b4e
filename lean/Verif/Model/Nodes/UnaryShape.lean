import Verif.Model.Nodes.Unary
import Verif.Model.Nodes.BinaryShape

/-!
# Model of what `UnaryOpNode` says about its size and shape (/repo/dwave/optimization/src/nodes/mathematical.cpp)
-/

namespace Verif

variable {α : Type} [DecidableEq α] [Inhabited α]

/-- `shape(state)`, mathematical.cpp 1900-1903. -/
def unaryShapeNow (x : Reporting α) : List Int := x.shape

/-- `size(state)`, mathematical.cpp 1905-1908. -/
def unarySizeNow (s : ArrayState α) : Int := s.buffer.length

/-- `size_diff(state)`, mathematical.cpp 1910-1913; also `BinaryOpNode`, mathematical.cpp 392-395. -/
def elementwiseSizeDiff (s : ArrayState α) : Int := s.sizeDiff

end Verif
