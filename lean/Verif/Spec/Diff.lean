/-!
# Specification: edit scripts

The contract between a node and its successors: the list of updates a node reports is an exact
edit script leading from its last committed contents to its current contents.  This is the rule
which the project's own run-time oracle checks (`ArrayValidationNode::propagate`,
/repo/dwave/optimization/src/nodes/testing.cpp 81-186).
-/

namespace Verif

/-- One reported change (`Update`, include/dwave-optimization/array.hpp 174-238).  The C++ encodes
"nothing" as NaN; here it is `none`. -/
structure Update (α : Type _) where
  index : Nat
  old : Option α
  value : Option α
  deriving DecidableEq, Repr

namespace Update

variable {α : Type _}

/-- array.hpp 181-183. -/
@[reducible] def placement (i : Nat) (v : α) : Update α := ⟨i, none, some v⟩
/-- array.hpp 188-190. -/
@[reducible] def removal (i : Nat) (v : α) : Update α := ⟨i, some v, none⟩
/-- The three-argument constructor with proper values, array.hpp 175-176. -/
@[reducible] def change (i : Nat) (a b : α) : Update α := ⟨i, some a, some b⟩
/-- array.hpp 209-212. -/
def placed (u : Update α) : Bool := u.old.isNone
/-- array.hpp 215-218. -/
def removed (u : Update α) : Bool := u.value.isNone
/-- array.hpp 221. -/
def null (u : Update α) : Bool := u.old.isNone && u.value.isNone
/-- array.hpp 230; comparing NaN with NaN is false. -/
def identity [DecidableEq α] (u : Update α) : Bool :=
  match u.old, u.value with
  | some a, some b => a = b
  | _, _ => false

/-- Carry out one update on a list, refusing it when it is not legal at that moment:
* a placement must be at the end;
* a removal must remove the last element, and name it;
* a change must be in range, and name the present element. -/
def step [DecidableEq α] (l : List α) (u : Update α) : Option (List α) :=
  match u.old, u.value with
  | none, some v => if u.index = l.length then some (l ++ [v]) else none
  | some o, none => if u.index + 1 = l.length ∧ l[u.index]? = some o then some l.dropLast else none
  | some o, some v => if l[u.index]? = some o then some (l.set u.index v) else none
  | none, none => none

end Update

/-- `Replays before diff after`: carrying out the updates of `diff` one after another on `before`
is legal at every moment and ends in `after`. -/
def Replays {α : Type _} [DecidableEq α] (before : List α) (diff : List (Update α))
    (after : List α) : Prop :=
  diff.foldlM Update.step before = some after

instance {α : Type _} [DecidableEq α] (b : List α) (d : List (Update α)) (a : List α) :
    Decidable (Replays b d a) := inferInstanceAs (Decidable (_ = _))

end Verif

namespace Verif

/-- `NetEffect before ds after`: `ds` lists the net change of each changed position: indices are
strictly increasing, each entry gives the element before and after (`none` where there is none, but
not both), and positions without entry are unchanged. -/
structure NetEffect {α : Type _} (before : List α) (ds : List (Update α)) (after : List α) :
    Prop where
  increasing : ds.Pairwise (fun u v => u.index < v.index)
  entries : ∀ u ∈ ds, u.old = before[u.index]? ∧ u.value = after[u.index]? ∧
    ¬ (u.old = none ∧ u.value = none)
  complete : ∀ i : Nat, (∀ u ∈ ds, u.index ≠ i) → before[i]? = after[i]?

end Verif
