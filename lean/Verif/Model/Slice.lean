import Verif.Spec.Res

/-!
# Model of `Slice` (/repo/dwave/optimization/include/dwave-optimization/array.hpp 71-172)
-/

namespace Verif

/-- `std::numeric_limits<ssize_t>::max()`. -/
def ssMax : Int := 9223372036854775807
/-- `std::numeric_limits<ssize_t>::lowest()`. -/
def ssMin : Int := -9223372036854775808
/-- The value fits `ssize_t`. -/
def IsSS (x : Int) : Prop := ssMin ≤ x ∧ x ≤ ssMax
instance (x : Int) : Decidable (IsSS x) := inferInstanceAs (Decidable (_ ∧ _))

/-- Members, array.hpp 169-171. -/
structure Slice where
  start : Int
  stop : Int
  step : Int
  deriving DecidableEq, Repr

namespace Slice

/-- Constructor, array.hpp 75-86. -/
def make (start stop step : Option Int) : Res Slice :=
  let st := step.getD 1
  if st = 0 then .throw
  else .ok ⟨start.getD (if st < 0 then ssMax else 0), stop.getD (if st < 0 then ssMin else ssMax), st⟩

/-- `fit`, array.hpp 109-141. -/
def fit (s : Slice) (size : Int) : Slice :=
  let start :=
    if s.start < 0 then
      let start := s.start + size
      if start < 0 then (if s.step < 0 then -1 else 0) else start
    else if s.start ≥ size then (if s.step < 0 then size - 1 else size)
    else s.start
  let stop :=
    if s.stop < 0 then
      let stop := s.stop + size
      if stop < 0 then (if s.step < 0 then -1 else 0) else stop
    else if s.stop ≥ size then (if s.step < 0 then size - 1 else size)
    else s.stop
  ⟨start, stop, s.step⟩

/-- `fit_at`, array.hpp 100-105. -/
def fitAt (s : Slice) (size : Int) : Res Slice := do
  guardThrow (¬ size < 0)
  guardThrow (s.step ≠ 0)
  pure (s.fit size)

/-- `size`, array.hpp 146-167.  The unsigned computations are modulo 2^64; a signed overflow is
undefined. -/
def size (s : Slice) : Res Int :=
  if s.step < 0 then
    if s.stop < s.start then
      if s.start > 0 then do
        guardUB (IsSS (-s.step))
        pure ((((s.start - s.stop - 1) % 2 ^ 64) / (-s.step) + 1) % 2 ^ 64)
      else do
        guardUB (IsSS (s.start - s.stop))
        guardUB (IsSS (-s.step))
        pure ((s.start - s.stop - 1) / (-s.step) + 1)
    else pure 0
  else
    if s.start < s.stop then
      if s.stop > 0 then
        pure ((((s.stop - s.start - 1) % 2 ^ 64) / s.step + 1) % 2 ^ 64)
      else do
        guardUB (IsSS (s.stop - s.start))
        pure ((s.stop - s.start - 1) / s.step + 1)
    else pure 0

/-- `empty`, array.hpp 97. -/
def isEmpty (s : Slice) : Bool := s = ⟨0, ssMax, 1⟩

end Slice
end Verif
