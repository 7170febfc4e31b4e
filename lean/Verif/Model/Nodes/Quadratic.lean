import Verif.Model.NodeBase
import Verif.Spec.Quadratic

/-!
# Model of `QuadraticModel` and `QuadraticModelNode`
(/repo/dwave/optimization/src/nodes/quadratic_model.cpp)

Biases and values are rationals, arithmetic is exact (`long double` and `double_kahan` are read as the
number they denote).  Variables are natural numbers: the negative indices excluded by the assertions do
not exist here.
-/

namespace Verif

/-- `std::lower_bound` on a sorted vector: the number of leading elements less than `v`.  (The library
searches by bisection; on a sorted vector, which the callers keep, the result is the same.) -/
def lowerBound : List Nat → Nat → Nat
  | [], _ => 0
  | x :: xs, v => if x < v then lowerBound xs v + 1 else 0

/-- One entry of `adj_`: `neighbors`, `biases` and `num_smaller_neighbors`. -/
structure Neighborhood where
  neighbors : List Nat
  biases : List Rat
  smaller : Nat

namespace Neighborhood

def empty : Neighborhood := ⟨[], [], 0⟩

/-- `asymmetric_quadratic_ref(u, v)` on the entry of `u`, quadratic_model.cpp 106-121, followed by a
change `f` of the number referred to (`= bias` lines 130-131, `+= bias` lines 142-143). -/
def onRef (N : Neighborhood) (u v : Nat) (f : Rat → Rat) : Neighborhood :=
  if N.neighbors[lowerBound N.neighbors v]? = some v then
    { N with biases := N.biases.modify (lowerBound N.neighbors v) f }
  else
    { neighbors := N.neighbors.insertIdx (lowerBound N.neighbors v) v
      biases := N.biases.insertIdx (lowerBound N.neighbors v) (f 0)
      smaller := if v < u then N.smaller + 1 else N.smaller }

/-- quadratic_model.cpp 158-168. -/
def get (N : Neighborhood) (v : Nat) : Res Rat :=
  if N.neighbors[lowerBound N.neighbors v]? = some v then
    match N.biases[lowerBound N.neighbors v]? with
    | some b => .ok b
    | none => .ub
  else .ok 0

end Neighborhood

/-- `QuadraticModel`. -/
structure QModel where
  n : Nat
  linear : List Rat
  square : List Rat
  adj : List Neighborhood

namespace QModel

/-- The constructor, quadratic_model.cpp 70-78. -/
def mk' (numVariables : Int) : Res QModel := do
  guardThrow (0 ≤ numVariables)
  .ok ⟨numVariables.toNat, List.replicate numVariables.toNat 0, List.replicate numVariables.toNat 0,
    List.replicate numVariables.toNat Neighborhood.empty⟩

/-- `num_interactions`, quadratic_model.cpp 82-88. -/
def numInteractions (q : QModel) : Nat := (q.adj.map Neighborhood.smaller).sum

/-- `set_linear`, `add_linear`, quadratic_model.cpp 90-98. -/
def onLinear (q : QModel) (v : Nat) (f : Rat → Rat) : Res QModel := do
  guardUB (v < q.n)
  .ok { q with linear := q.linear.modify v f }

/-- `get_linear`, quadratic_model.cpp 100-103. -/
def getLinear (q : QModel) (v : Nat) : Res Rat := do
  guardUB (v < q.n)
  match q.linear[v]? with
  | some b => .ok b
  | none => .ub

/-- `set_quadratic`, `add_quadratic`, quadratic_model.cpp 123-145. -/
def onQuadratic (q : QModel) (u v : Nat) (f : Rat → Rat) : Res QModel := do
  guardUB (u < q.n ∧ v < q.n)
  if u = v then .ok { q with square := q.square.modify u f }
  else .ok { q with adj := (q.adj.modify u (fun N => N.onRef u v f)).modify v (fun N => N.onRef v u f) }

/-- `get_quadratic(u, v)`, quadratic_model.cpp 147-169. -/
def getQuadratic (q : QModel) (u v : Nat) : Res Rat := do
  guardUB (u < q.n ∧ v < q.n)
  if u = v then
    match q.square[v]? with
    | some b => .ok b
    | none => .ub
  else
    match q.adj[u]? with
    | some N => N.get v
    | none => .ub

/-- The public methods that change biases.  The bulk versions `add_linear(const bias_type*)`,
`add_squares` and `add_quadratic(n, row, col, quad)` (quadratic_model.cpp 171-175, 183-187, 195-205) are
loops over these. -/
def run1 (q : QModel) : BiasOp → Res QModel
  | .setLinear v c => q.onLinear v (fun _ => c)
  | .addLinear v c => q.onLinear v (fun a => a + c)
  | .setQuadratic u v c => q.onQuadratic u v (fun _ => c)
  | .addQuadratic u v c => q.onQuadratic u v (fun a => a + c)

/-- A model built by a sequence of requests. -/
def build (n : Int) (ops : List BiasOp) : Res QModel := do
  let q ← mk' n
  ops.foldlM run1 q

/-- One row of `get_quadratic(row, col, quad)`, quadratic_model.cpp 210-218. -/
def exportRow (i : Nat) (N : Neighborhood) : List (Nat × Nat × Rat) :=
  ((N.neighbors.zip N.biases).filter (fun p => decide (i < p.1))).map (fun p => (i, p.1, p.2))

/-- `get_quadratic(row, col, quad)`, quadratic_model.cpp 207-222: the triples written, in order; the
assertion at the end. -/
def exportQuadratic (q : QModel) : Res (List (Nat × Nat × Rat)) := do
  guardUB ((q.adj.zipIdx.flatMap (fun p => exportRow p.2 p.1)).length = q.numInteractions)
  .ok (q.adj.zipIdx.flatMap (fun p => exportRow p.2 p.1))

/-- `state[neighbors[j]] * biases[j]`. -/
def interact (state : List Rat) (p : Nat × Rat) : Res Rat :=
  match state[p.1]? with
  | some x => .ok (x * p.2)
  | none => .ub

/-- `get_effective_linear_bias`, quadratic_model.cpp 224-235. -/
def effectiveLinearBias (q : QModel) (u : Nat) (state : List Rat) : Res Rat := do
  guardUB (state.length = q.n)
  match q.linear[u]?, q.adj[u]? with
  | some l, some N => do
    let terms ← (N.neighbors.zip N.biases).mapM (interact state)
    .ok (l + terms.sum)
  | _, _ => .ub

/-- One term of `compute_value`, quadratic_model.cpp 241-250: only the first `num_smaller_neighbors`
neighbours are visited, and variables that are 0 are skipped. -/
def valueTerm (q : QModel) (state : List Rat) (i : Nat) : Res Rat :=
  match state[i]?, q.linear[i]?, q.square[i]?, q.adj[i]? with
  | some x, some l, some s, some N =>
    if x = 0 then .ok 0
    else do
      let terms ← ((N.neighbors.zip N.biases).take N.smaller).mapM (interact state)
      .ok (x * (l + s * x + terms.sum))
  | _, _, _, _ => .ub

/-- `compute_value`, quadratic_model.cpp 237-254. -/
def computeValue (q : QModel) (state : List Rat) : Res Rat := do
  guardUB (state.length = q.n)
  let terms ← (List.range q.n).mapM (q.valueTerm state)
  .ok terms.sum

end QModel

/-- `QuadraticModelNodeData`, quadratic_model.cpp 26-68. -/
structure QState where
  valueOld : Rat
  value : Rat
  previous : List Rat
  changes : List (Nat × Rat)
  deriving DecidableEq

namespace QState

/-- quadratic_model.cpp 35-45. -/
def diff (s : QState) : List (Update Rat) :=
  if s.valueOld ≠ s.value then [Update.change 0 s.valueOld s.value] else []

/-- quadratic_model.cpp 47-50. -/
def commit (s : QState) : QState := { s with valueOld := s.value, changes := [] }

/-- `previous_state_[change.first] = change.second`. -/
def undo (prev : List Rat) (c : Nat × Rat) : List Rat := prev.set c.1 c.2

/-- quadratic_model.cpp 51-57. -/
def revert (s : QState) : QState :=
  { s with value := s.valueOld, previous := s.changes.foldl undo s.previous, changes := [] }

end QState

/-- The loop body of `propagate`, quadratic_model.cpp 317-331 (and 334-348, the same for operands that
are not contiguous). -/
def quadraticStep (q : QModel) (current : List Rat) (s : QState) (u : Update Rat) : Res QState :=
  match current[u.index]?, s.previous[u.index]? with
  | some neo, some old =>
    if neo ≠ old then do
      let sq ← q.getQuadratic u.index u.index
      let lin ← q.effectiveLinearBias u.index s.previous
      .ok { s with
        changes := s.changes ++ [(u.index, old)]
        value := s.value + (neo - old) * (sq * (neo + old) + lin)
        previous := s.previous.set u.index neo }
    else .ok s
  | _, _ => .ub

/-- The shape check of the constructor, quadratic_model.cpp 265-271. -/
def quadraticShape (q : QModel) (shape : List Int) : Res (List Int) := do
  guardThrow (shape = [(q.n : Int)])
  .ok []

/-- `QuadraticModelNode`, quadratic_model.cpp 265-355; `f` is its meaning. -/
@[reducible] def quadraticNode (q : QModel) (f : List Rat → Rat) : NodeSem (Arr Rat) (List (Update Rat)) where
  σ := QState
  f := fun xs => ⟨[], [f (xs.headD ⟨[], []⟩).data]⟩
  ok := fun xs => ∃ x : Arr Rat, xs = [x] ∧ quadraticShape q x.shape = .ok [] ∧ x.WF
  init := fun xs =>
    match xs with
    | [x] => do
      let v ← q.computeValue x.data
      .ok ⟨v, v, x.data, []⟩
    | _ => .ub
  propagate := fun s ins =>
    match ins with
    | [(x, d)] => if d = [] then .ok s else d.foldlM (quadraticStep q x.data) s
    | _ => .ub
  commit := fun s => .ok s.commit
  revert := fun s => .ok s.revert
  view := fun s => ⟨[], [s.value]⟩
  diff := fun s => s.diff

end Verif
