import Verif.Model.Bounds
import Verif.Model.Slice

/-!
# Model of `SizeInfo`
(/repo/dwave/optimization/include/dwave-optimization/array.hpp 42-68, src/array.cpp 19-102, 165-193)

`fraction` is `Rat` here (Model/Fraction.lean refines it, C12); converting it to `ssize_t` truncates.
Arrays are addresses.
-/

namespace Verif

/-- Members, array.hpp 61-67. -/
structure SizeInfo where
  array : Option Nat
  multiplier : Rat
  offset : Int
  min : Option Int
  max : Option Int
  deriving DecidableEq, Repr

namespace SizeInfo

/-- A fixed size, array.hpp 44-47. -/
def fixed (n : Int) : SizeInfo := ⟨none, 0, n, some n, some n⟩

/-- The size of another (or the same) array, array.cpp 19-23. -/
def of (a : Nat) (min max : Option Int) : SizeInfo := ⟨some a, 1, 0, min, max⟩

/-- The smaller of two upper bounds, array.cpp 67-73. -/
def capMax (mine theirs : Option Int) : Option Int :=
  match mine, theirs with
  | some m, some t => some (Min.min m t)
  | some m, none => some m
  | none, t => t

/-- The larger of two lower bounds, array.cpp 75-81. -/
def capMin (mine theirs : Option Int) : Option Int :=
  match mine, theirs with
  | some m, some t => some (Max.max m t)
  | some m, none => some m
  | none, t => t

/-- Scaling and shifting a bound, array.cpp 83-94. -/
def scale (multiplier : Rat) (offset : Int) (b : Int) : Int :=
  Max.max 0 ((if multiplier ≠ 1 then truncate (multiplier * b) else b) + offset)

/-- Whether substitution will do nothing, array.cpp 50-57. -/
def converged (s t : SizeInfo) : Bool :=
  decide (s.array = t.array ∧ t.multiplier = 1 ∧ t.offset = 0 ∧ t.min.getD ssMax ≤ s.min.getD (-ssMax) ∧
    s.max.getD ssMax ≤ t.max.getD (-ssMax))

/-- Joining a size to what the array it refers to says about its own, array.cpp 59-97 (without the
assertion that the product of multiplier and offset is an integer). -/
def join (s t : SizeInfo) : SizeInfo :=
  let max := (capMax s.max t.max).map (scale s.multiplier s.offset)
  let min := (capMin s.min t.min).map (scale s.multiplier s.offset)
  if min ≠ none ∧ min = max then ⟨t.array, 0, min.getD 0, min, max⟩
  else ⟨t.array, t.multiplier * s.multiplier, truncate (s.multiplier * t.offset) + s.offset, min, max⟩

/-- `SizeInfo::substitute`, array.cpp 45-102; `info` is what every array answers.  Without array it reads
through a null pointer. -/
def substitute (info : Nat → SizeInfo) : Nat → SizeInfo → Res SizeInfo
  | 0, s => .ok s
  | depth + 1, s =>
    match s.array with
    | none => .ub
    | some a =>
      if s.converged (info a) then .ok s
      else do
        guardUB ((s.multiplier * (info a).offset).den = 1)
        substitute info depth (s.join (info a))

/-- What the reductions learn from a size after substitution. -/
def known (s : SizeInfo) : SizeKnown := .dynamic s.min s.max

/-- `BasicIndexingNode::sizeinfo` of a dynamic result, indexing.cpp 1517-1583: `perRow` and `rowSize` are the
numbers of elements of a row of the array and of the result.  (A fixed result is `fixed`.) -/
def ofSlice (a : Nat) (perRow rowSize : Int) (s : Slice) : Res SizeInfo := do
  guardUB (s.step > 0)
  guardUB (s.start > 0 → ((1 / perRow * rowSize / s.step : Rat) * s.start).den = 1)
  .ok {
    array := some a
    multiplier := 1 / perRow * rowSize / s.step
    offset := (if s.start > 0 then -truncate ((1 / perRow * rowSize / s.step : Rat) * s.start) else 0) +
      (if s.stop > 0 ∧ s.stop ≠ ssMax then 0
       else if s.stop < 0 then truncate ((1 / perRow * rowSize / s.step : Rat) * s.stop) else 0)
    min := none
    max := if s.stop > 0 ∧ s.stop ≠ ssMax then some (truncate ((1 / perRow * rowSize / s.step : Rat) * s.stop))
      else if s.start < 0 then some (truncate ((1 / perRow * rowSize / s.step : Rat) * -1 * s.start))
      else none }

/-- `operator==`, array.cpp 25-43 (arrays that are compared are dynamic). -/
def beq (s t : SizeInfo) : Bool :=
  if t.multiplier = 0 then decide (s.multiplier = 0 ∧ s.offset = t.offset)
  else if s.multiplier = 0 then decide (t.multiplier = 0 ∧ t.offset = s.offset)
  else decide (s.array = t.array ∧ s.multiplier = t.multiplier ∧ s.offset = t.offset ∧
    s.min.getD 0 = t.min.getD 0 ∧ s.max = t.max)

end SizeInfo

end Verif
