/-!
# Specification: Python slices

`pyIndices` is the documented behaviour of `slice(start, stop, step).indices(length)`, transcribed
from the reference implementation in CPython's own test suite (`test_slice.py`).
-/

namespace Verif

/-- `slice(start, stop, step).indices(length)` for a non-zero step. -/
def pyIndices (start stop : Option Int) (step : Int) (length : Int) : Int × Int × Int :=
  let lower := if step < 0 then -1 else 0
  let upper := if step < 0 then length - 1 else length
  let clamp (x : Int) : Int := if x < 0 then max (x + length) lower else min x upper
  let start' := match start with
    | none => if step < 0 then upper else lower
    | some x => clamp x
  let stop' := match stop with
    | none => if step < 0 then lower else upper
    | some x => clamp x
  (start', stop', step)

/-- `x` is on the near side of the end of `range(start, stop, step)`. -/
def beforeStop (stop step x : Int) : Prop := (0 < step → x < stop) ∧ (step < 0 → stop < x)

end Verif
