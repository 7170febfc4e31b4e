import Verif.Model.Nodes.AdvancedIndexing

/-!
# Model of what `AdvancedIndexingNode` says about its size and shape (/repo/dwave/optimization/src/nodes/indexing.cpp)

The dimensions of an indexed array of changing size are kept in the node, in `dynamic_shape_`, and not in the state.  All states of a
model share them.
-/

namespace Verif

namespace Adv

/-- `size(state)`, indexing.cpp 639-641. -/
def sizeNow (P : Adv) (s : AdvState) : Int :=
  if dynamicShape P.shape = true then s.data.length else shapeToSize P.shape

/-- `size_diff(state)`, indexing.cpp 902-909. -/
def sizeDiff (P : Adv) (s : AdvState) : Int :=
  if dynamicShape P.shape = true then (s.data.length : Int) - s.oldData else 0

/-- `dynamic_shape_` as the constructor leaves it, indexing.cpp 475-480. -/
def memory (P : Adv) : List Int := P.shape

/-- `shape(state)`, indexing.cpp 652-657: what it does to `dynamic_shape_`.  `strides()[0] / itemsize()` is `P.strides.headD 0`; a
division by zero or a failed assertion is `ub`. -/
def askShape (P : Adv) (mem : List Int) (s : AdvState) : Res (List Int) :=
  if dynamicShape P.shape = true then do
    guardUB (1 ≤ P.shape.length)
    guardUB (P.strides.headD 0 ≠ 0)
    .ok (mem.set 0 ((P.sizeNow s).tdiv (P.strides.headD 0)))
  else .ok mem

/-- What the span returned by `shape(state)` shows when it is read: the dimensions of the class for an array of fixed size, otherwise the
present content of `dynamic_shape_`. -/
def readShape (P : Adv) (mem : List Int) : List Int := if dynamicShape P.shape = true then mem else P.shape

end Adv

end Verif
