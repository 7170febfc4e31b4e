import Verif.Spec.Diff
import Mathlib.Algebra.Order.Ring.Rat

/-!
# Specification for C66: arrays that say what they do

A symbol that watches an array symbol sees what it shows at every event of the life of a state.
-/

namespace Verif

/-- What an array shows: its elements, its shape, its size, by how much its size has changed since the last commit, and the changes it
reports. -/
structure Observation where
  view : List Rat
  shape : List Int
  size : Int
  sizeDiff : Int
  diff : List (Update Rat)

/-- What it has declared: its shape (with -1 in front if its size varies), and what its elements are. -/
structure Declaration where
  shape : List Int
  lo : Rat
  hi : Rat
  integral : Bool

/-- Size and elements are as declared. -/
structure Declaration.FitsContents (d : Declaration) (o : Observation) : Prop where
  size : o.size = o.view.length
  range : ∀ x ∈ o.view, d.lo ≤ x ∧ x ≤ d.hi ∧ (d.integral = true → x.den = 1)

/-- And so is the shape. -/
structure Declaration.Fits (d : Declaration) (o : Observation) : Prop extends d.FitsContents o where
  ndim : o.shape.length = d.shape.length
  product : o.shape.prod = o.view.length
  fixed : ∀ (i : Nat) (n : Int), d.shape[i]? = some n → 0 ≤ n → o.shape[i]? = some n

/-- What happens to a state after it has been initialised, and what the array shows then. -/
inductive WatchEvent where
  | propagated (o : Observation)
  | committed (o : Observation)
  | reverted (o : Observation)

/-- The array says what it does: after a propagation the reported changes lead exactly from the last committed contents to the present
ones, and the change of the size is right.  After a commit it has the contents it had before, after a reversal those of the last commit, and
no changes are reported.  `base` are the last committed contents, `cur` the last seen. -/
def Honest (fits : Observation → Prop) : List Rat → List Rat → List WatchEvent → Prop
  | _, _, [] => True
  | base, _, .propagated o :: es =>
    Replays base o.diff o.view ∧ o.sizeDiff = (o.view.length : Int) - base.length ∧ fits o ∧ Honest fits base o.view es
  | _, cur, .committed o :: es => o.diff = [] ∧ o.sizeDiff = 0 ∧ o.view = cur ∧ fits o ∧ Honest fits cur cur es
  | base, _, .reverted o :: es => o.diff = [] ∧ o.sizeDiff = 0 ∧ o.view = base ∧ fits o ∧ Honest fits base base es

/-- From the start. -/
def HonestFrom (fits : Observation → Prop) (o : Observation) (es : List WatchEvent) : Prop :=
  o.diff = [] ∧ o.sizeDiff = 0 ∧ fits o ∧ Honest fits o.view o.view es

/-- After a propagation there is a commit or a reversal before the next one. -/
def Alternating : List WatchEvent → Prop
  | .propagated _ :: .propagated _ :: _ => False
  | _ :: es => Alternating es
  | [] => True

end Verif
