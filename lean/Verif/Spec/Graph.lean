import Mathlib.Logic.Relation
import Mathlib.Data.List.Nodup

/-!
# Directed graphs: reachability, cycles, topological orders
-/

namespace Verif

/-- `w` can be reached from `v` along at least one edge. -/
def ReachesPlus (succs : Nat → List Nat) (v w : Nat) : Prop :=
  Relation.TransGen (fun a b => b ∈ succs a) v w

/-- `w` can be reached from `v` along zero or more edges. -/
def Reaches (succs : Nat → List Nat) (v w : Nat) : Prop :=
  Relation.ReflTransGen (fun a b => b ∈ succs a) v w

/-- Some node can be reached from itself. -/
def HasCycle (succs : Nat → List Nat) (nodes : List Nat) : Prop :=
  ∃ v ∈ nodes, ReachesPlus succs v v

/-- `index` numbers the `n` nodes `0 .. n-1` without repetition, decisions first with the number they
have in the list of decisions, and every edge leads from a smaller to a larger number. -/
structure IsTopological (succs : Nat → List Nat) (nodes decisions : List Nat) (index : Nat → Int) :
    Prop where
  range : ∀ v ∈ nodes, 0 ≤ index v ∧ index v < nodes.length
  inj : ∀ v ∈ nodes, ∀ w ∈ nodes, index v = index w → v = w
  decision : ∀ i (h : i < decisions.length), index decisions[i] = i
  edge : ∀ v ∈ nodes, ∀ w ∈ succs v, index v < index w

/-- The nodes a user can still need, given the `roots` which must be kept: the roots and everything
they (transitively) depend on. -/
inductive Needed (preds : Nat → List Nat) (roots : Nat → Prop) : Nat → Prop
  | root {v} : roots v → Needed preds roots v
  | pred {v w} : Needed preds roots v → w ∈ preds v → Needed preds roots w

end Verif
