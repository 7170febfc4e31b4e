/-!
# Specification: the list of states

A model's states seen as a plain list: what a user expects who does not think about futures.
-/

namespace Verif

/-- A pending computation of the states: called with the states held when it is resolved, it leaves states behind, may have set
another pending computation, and may raise an exception.  `id` identifies the call of `from_future`. -/
inductive Hook (σ : Type) where
  | mk (id : Nat) (states : List σ → List σ) (next : List σ → Option (Hook σ)) (raises : List σ → Bool)

/-- Identifier of the call. -/
def Hook.id {σ : Type} : Hook σ → Nat
  | mk i _ _ _ => i

/-- The states it leaves behind. -/
def Hook.states {σ : Type} : Hook σ → List σ → List σ
  | mk _ s _ _ => s

/-- The pending computation it leaves behind. -/
def Hook.next {σ : Type} : Hook σ → List σ → Option (Hook σ)
  | mk _ _ n _ => n

/-- Whether it raises an exception. -/
def Hook.raises {σ : Type} : Hook σ → List σ → Bool
  | mk _ _ _ r => r

/-- A computation which, called with the empty list, neither raises nor sets another one. -/
def Hook.Plain {σ : Type} (h : Hook σ) : Prop := h.next [] = none ∧ h.raises [] = false

/-- What a user can do.  `touch` is any access to one state through a symbol, which may change it; `negative` says whether
negative indices count from the end.  `each` changes all states, `load` replaces them. -/
inductive StatesOp (σ : Type) where
  | size
  | resize (n : Int)
  | clear
  | fromFuture (h : Hook σ)
  | touch (negative : Bool) (i : Int) (f : σ → σ)
  | each (f : σ → σ)
  | load (new : List σ)

/-- What a user sees. -/
inductive StatesOut (σ : Type) where
  | done
  | number (n : Nat)
  | state (s : σ)
  | error
  deriving DecidableEq, Repr

/-- The place of index `i` in a list of the given size. -/
def stateIndex (negative : Bool) (size : Nat) (i : Int) : Option Nat :=
  if 0 ≤ i ∧ i < size then some i.toNat
  else if negative = true ∧ -(size : Int) ≤ i ∧ i < 0 then some (i + size).toNat
  else none

/-- One operation on a plain list; a future computation is carried out at once. -/
def listStep {σ : Type} (fresh : σ) (l : List σ) : StatesOp σ → List σ × StatesOut σ
  | .size => (l, .number l.length)
  | .resize n => if n < 0 then (l, .error) else (l.take n.toNat ++ List.replicate (n.toNat - l.length) fresh, .done)
  | .clear => ([], .done)
  | .fromFuture h => (h.states [], .done)
  | .touch negative i f =>
    match stateIndex negative l.length i with
    | none => (l, .error)
    | some k => (l.modify k f, .state (f (l.getD k fresh)))
  | .each f => (l.map f, .done)
  | .load new => (new, .done)

/-- What a user sees of a sequence of operations. -/
def listRun {σ : Type} (fresh : σ) : List σ → List (StatesOp σ) → List (StatesOut σ)
  | _, [] => []
  | l, o :: os => (listStep fresh l o).2 :: listRun fresh (listStep fresh l o).1 os

end Verif
