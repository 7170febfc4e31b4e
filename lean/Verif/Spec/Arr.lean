import Verif.Spec.Diff
import Verif.Spec.Node

/-!
# Specification: array values and the changes arrays report

An array symbol has a static shape, in which a first dimension `-1` stands for a run-time size, and
at each moment its elements in row-major order.
-/

namespace Verif

/-- The value of an array symbol. -/
structure Arr (α : Type) where
  shape : List Int
  data : List α
  deriving DecidableEq, Repr

/-- A shape with a negative first dimension. -/
def dynamicShape (shape : List Int) : Bool :=
  match shape with
  | d :: _ => decide (d < 0)
  | [] => false

/-- Exactly one element, by the static shape (a dynamic array does not count, whatever its present size). -/
def sizeOne (shape : List Int) : Bool := !dynamicShape shape && decide (shape.prod = 1)

/-- The number of elements belonging to one index of the first axis. -/
def rowSize (shape : List Int) : Int := (shape.drop 1).prod

namespace Arr

variable {α : Type}

def dynamic (a : Arr α) : Bool := dynamicShape a.shape

/-- The number of elements is the one given by the shape; when the first dimension is open it is a
multiple of the size of one row. -/
def WF (a : Arr α) : Prop :=
  if a.dynamic then rowSize a.shape ∣ (a.data.length : Int)
  else (a.data.length : Int) = a.shape.prod

instance (a : Arr α) : Decidable a.WF := by unfold WF; infer_instance

end Arr

/-- The update changes the value of an existing element. -/
def Update.isChange {α : Type} (u : Update α) : Bool := u.old.isSome && u.value.isSome

/-- `d` correctly reports the change of an array from `x` to `y`: it is an exact edit script, and
arrays of fixed size report no placements or removals. -/
structure ArrRel {α : Type} [DecidableEq α] (x : Arr α) (d : List (Update α)) (y : Arr α) : Prop where
  shape : x.shape = y.shape
  replays : Replays x.data d y.data
  fixed : x.dynamic = false → ∀ u ∈ d, u.isChange = true

instance {α : Type} [DecidableEq α] (x : Arr α) (d : List (Update α)) (y : Arr α) :
    Decidable (ArrRel x d y) :=
  decidable_of_iff (x.shape = y.shape ∧ Replays x.data d y.data ∧
    (x.dynamic = false → ∀ u ∈ d, u.isChange = true))
    ⟨fun h => ⟨h.1, h.2.1, h.2.2⟩, fun h => ⟨h.1, h.2, h.3⟩⟩

end Verif
