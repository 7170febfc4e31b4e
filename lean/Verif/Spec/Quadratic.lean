import Mathlib.Algebra.BigOperators.Group.Finset.Basic
import Mathlib.Data.Rat.Defs
import Mathlib.Algebra.Order.Ring.Rat

/-!
# Specification: quadratic polynomials

A quadratic polynomial in the variables `x 0, …, x (n-1)`: a linear and a square bias per variable,
and for each unordered pair of distinct variables possibly an interaction.
-/

namespace Verif

/-- The biases of a quadratic model.  `pair u v = none` if the two variables do not interact. -/
structure Biases where
  linear : Nat → Rat
  square : Nat → Rat
  pair : Nat → Nat → Option Rat

namespace Biases

/-- No biases at all. -/
def zero : Biases := ⟨fun _ => 0, fun _ => 0, fun _ _ => none⟩

/-- The bias of the product `x u * x v`. -/
def quadratic (b : Biases) (u v : Nat) : Rat := if u = v then b.square u else (b.pair u v).getD 0

/-- Replace the linear bias of one variable. -/
def onLinear (b : Biases) (v : Nat) (f : Rat → Rat) : Biases :=
  { b with linear := fun w => if w = v then f (b.linear w) else b.linear w }

/-- Replace the bias of `x u * x v`; an absent interaction counts as 0. -/
def onQuadratic (b : Biases) (u v : Nat) (f : Rat → Rat) : Biases :=
  if u = v then { b with square := fun w => if w = v then f (b.square w) else b.square w }
  else { b with pair := fun x y =>
    if (x = u ∧ y = v) ∨ (x = v ∧ y = u) then some (f ((b.pair x y).getD 0)) else b.pair x y }

/-- The value of the polynomial: linear terms, square terms, and one term per pair `j < i`. -/
def value (b : Biases) (n : Nat) (x : Nat → Rat) : Rat :=
  ∑ i ∈ Finset.range n, b.linear i * x i + ∑ i ∈ Finset.range n, b.square i * (x i * x i) +
    ∑ i ∈ Finset.range n, ∑ j ∈ Finset.range i, (b.pair i j).getD 0 * (x i * x j)

end Biases

/-- A request to change the biases. -/
inductive BiasOp where
  | setLinear (v : Nat) (bias : Rat)
  | addLinear (v : Nat) (bias : Rat)
  | setQuadratic (u v : Nat) (bias : Rat)
  | addQuadratic (u v : Nat) (bias : Rat)

/-- The variables named exist. -/
def BiasOp.inRange (n : Nat) : BiasOp → Prop
  | .setLinear v _ => v < n
  | .addLinear v _ => v < n
  | .setQuadratic u v _ => u < n ∧ v < n
  | .addQuadratic u v _ => u < n ∧ v < n

instance (n : Nat) (op : BiasOp) : Decidable (op.inRange n) := by
  cases op <;> unfold BiasOp.inRange <;> infer_instance

/-- What the request means. -/
def BiasOp.apply (b : Biases) : BiasOp → Biases
  | .setLinear v c => b.onLinear v (fun _ => c)
  | .addLinear v c => b.onLinear v (fun a => a + c)
  | .setQuadratic u v c => b.onQuadratic u v (fun _ => c)
  | .addQuadratic u v c => b.onQuadratic u v (fun a => a + c)

/-- The biases after a sequence of requests. -/
def biasesOf (ops : List BiasOp) : Biases := ops.foldl BiasOp.apply Biases.zero

end Verif
