import Verif.Spec.States

/-!
# Model: `States` (dwave/optimization/states.pyx 26-294)

`σ` is one state (`cppState`, a vector of node states), `fresh` the empty vector.  The model the states belong to is alive.
-/

namespace Verif

/-- The fields `_states`, `_future` with `_result_hook` (states.pxd 37-46), and the calls of hooks made so far. -/
structure StatesObj (σ : Type) where
  states : List σ
  future : Option (Hook σ)
  called : List Nat

namespace StatesObj

variable {σ : Type}

/-- `resolve`, states.pyx 251-267: the future is removed before the hook is called.  `true` if the hook raised. -/
def resolve (s : StatesObj σ) : StatesObj σ × Bool :=
  match s.future with
  | none => (s, false)
  | some h => (⟨h.states s.states, h.next s.states, s.called ++ [h.id]⟩, h.raises s.states)

/-- `std::vector::resize`: cut off, or fill up with default values. -/
def vectorResize (fresh : σ) (n : Nat) (l : List σ) : List σ := l.take n ++ List.replicate (n - l.length) fresh

/-- `size`, states.pyx 269-282. -/
def size (s : StatesObj σ) : StatesObj σ × StatesOut σ :=
  if s.resolve.2 then (s.resolve.1, .error) else (s.resolve.1, .number s.resolve.1.states.length)

/-- `resize`, states.pyx 220-249. -/
def resize (fresh : σ) (s : StatesObj σ) (n : Int) : StatesObj σ × StatesOut σ :=
  if s.resolve.2 then (s.resolve.1, .error)
  else if n < 0 then (s.resolve.1, .error)
  else ({ s.resolve.1 with states := vectorResize fresh n.toNat s.resolve.1.states }, .done)

/-- `clear` and `detach_states`, states.pyx 103-139. -/
def clear (s : StatesObj σ) : StatesObj σ × StatesOut σ :=
  if s.resolve.2 then (s.resolve.1, .error) else ({ s.resolve.1 with states := [] }, .done)

/-- `from_future`, states.pyx 176-192. -/
def fromFuture (fresh : σ) (s : StatesObj σ) (h : Hook σ) : StatesObj σ × StatesOut σ :=
  match s.resize fresh 0 with
  | (s, .error) => (s, .error)
  | (s, _) => ({ s with future := some h }, .done)

/-- Access to one state: `Symbol.has_state` (_model.pyx 751-785) and `ArraySymbol.state` (_model.pyx 1400-1441) with negative
indices, `Symbol.reset_state` (_model.pyx 950-994) and the `set_state` methods built on it without.  All resolve first, then
compare the index with the size; `has_state`, `reset_state` and `StateView` resolve once more, which does nothing unless the hook
set another future. -/
def touch (fresh : σ) (s : StatesObj σ) (negative : Bool) (i : Int) (f : σ → σ) : StatesObj σ × StatesOut σ :=
  if s.resolve.2 then (s.resolve.1, .error)
  else if s.resolve.1.resolve.2 then (s.resolve.1.resolve.1, .error)
  else
    let s := s.resolve.1.resolve.1
    if negative = true ∧ ¬ (-(s.states.length : Int) ≤ i ∧ i < s.states.length) then (s, .error)
    else if negative = false ∧ ¬ (0 ≤ i ∧ i < s.states.length) then (s, .error)
    else
      let k := (if i < 0 then i + s.states.length else i).toNat
      ({ s with states := s.states.modify k f }, .state (f (s.states.getD k fresh)))

/-- `initialize` of a locked model (states.pyx 194-204) and `_reset_intermediate_states` (214-218): one function applied to every
state. -/
def each (s : StatesObj σ) (f : σ → σ) : StatesObj σ × StatesOut σ :=
  if s.resolve.2 then (s.resolve.1, .error) else ({ s.resolve.1 with states := s.resolve.1.states.map f }, .done)

/-- `from_file` of a matching file holding the states `new` (states.pyx 141-174), with `attach_states` (88-101). -/
def load (s : StatesObj σ) (new : List σ) : StatesObj σ × StatesOut σ :=
  if s.resolve.2 then (s.resolve.1, .error) else ({ s.resolve.1 with states := new, future := none }, .done)

/-- One operation. -/
def step (fresh : σ) (s : StatesObj σ) : StatesOp σ → StatesObj σ × StatesOut σ
  | .size => s.size
  | .resize n => s.resize fresh n
  | .clear => s.clear
  | .fromFuture h => s.fromFuture fresh h
  | .touch negative i f => s.touch fresh negative i f
  | .each f => s.each f
  | .load new => s.load new

/-- A sequence of operations: what is seen, and the object at the end. -/
def run (fresh : σ) : StatesObj σ → List (StatesOp σ) → List (StatesOut σ) × StatesObj σ
  | s, [] => ([], s)
  | s, o :: os => ((s.step fresh o).2 :: (run fresh (s.step fresh o).1 os).1, (run fresh (s.step fresh o).1 os).2)

/-- `States(model)`. -/
def new : StatesObj σ := ⟨[], none, []⟩

end StatesObj

end Verif
