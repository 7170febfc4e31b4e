import Verif.Model.NodeBase
import Verif.Spec.Values

/-!
# Model of `NaryOpNode` (/repo/dwave/optimization/src/nodes/mathematical.cpp 439-760)

The operation `func` and its inverse (`InverseOp`, mathematical.cpp 441-470) are parameters: `inv` is
`none` when there is no inverse operation, and `inv x y = none` when its result is NaN or infinite.
-/

namespace Verif

variable {α : Type} [DecidableEq α] [Inhabited α]

/-- The checks of `add_node`, mathematical.cpp 502-519, for each operand in turn; the output shape is
that of the first operand (mathematical.cpp 494-500).  (The check of the topological order concerns
operands added later, see `Graph.addPredecessor`.) -/
def naryShape : List (List Int) → Res (List Int)
  | [] => .throw
  | s :: rest => do
    (s :: rest).forM fun t => do
      guardThrow (dynamicShape t = false)
      guardThrow (s = t)
    .ok s

/-- The fold over the operands at one index: `val = *it0; val = func(*it, val)` for the others,
mathematical.cpp 682-690 and 750-753. -/
def naryFold (func : α → α → α) (i : Nat) : List (Arr α) → Res α
  | [] => .ub
  | x :: xs => do
    let v ← x.read i
    xs.foldlM (fun val y => do .ok (func (← y.read i) val)) v

/-- `NaryOpNode::initialize_state`, mathematical.cpp 661-695: one turn for each element of the first
operand. -/
def naryInit (func : α → α → α) (xs : List (Arr α)) : Res (List α) :=
  match xs with
  | [] => .ub
  | x :: _ => (List.range x.data.length).mapM fun i => naryFold func i xs

/-- The loop over one operand's diff when there is an inverse, mathematical.cpp 722-735.  The second
component of the state is `recompute_indices`. -/
def naryInverse (func : α → α → α) (inv : α → α → Option α) (st : ArrayState α × List Nat)
    (u : Update α) : Res (ArrayState α × List Nat) :=
  match st.1.buffer[u.index]?, u.old, u.value with
  | some cur, some old, some new =>
    match inv cur old with
    | none => .ok (st.1, st.2 ++ [u.index])
    | some q => do
      let s ← st.1.write u.index (func q new)
      .ok (s, st.2)
  | _, _, _ => .ub

/-- The full recomputation of one index, mathematical.cpp 747-758. -/
def naryRecompute (func : α → α → α) (xs : List (Arr α)) (s : ArrayState α) (i : Nat) :
    Res (ArrayState α) := do
  let v ← naryFold func i xs
  s.set i v

/-- `NaryOpNode::propagate`, mathematical.cpp 697-760. -/
def naryPropagate (func : α → α → α) (inv : Option (α → α → Option α)) (s : ArrayState α)
    (ins : List (Arr α × List (Update α))) : Res (ArrayState α) := do
  let (s, recompute) ← match inv with
    | none => .ok (s, ins.flatMap fun x => x.2.map Update.index)
    | some inv => ins.foldlM (fun st x => x.2.foldlM (naryInverse func inv) st) (s, [])
  recompute.foldlM (naryRecompute func (ins.map Prod.fst)) s

/-- `NaryOpNode` with operands of the given fixed shape. -/
def naryNode (func : α → α → α) (inv : Option (α → α → Option α)) (shape : List Int) :
    NodeSem (Arr α) (List (Update α)) :=
  arrayNode shape (naryValue func)
    (fun xs => xs ≠ [] ∧ ∀ x ∈ xs, x.shape = shape ∧ x.WF)
    (naryInit func) (naryPropagate func inv)

/-- `InverseOp<std::plus>`, mathematical.cpp 452-456. -/
def plusInv (x y : Rat) : Option Rat := some (x - y)
/-- `InverseOp<std::multiplies>`, mathematical.cpp 466-470; dividing by zero gives NaN or infinity. -/
def timesInv (x y : Rat) : Option Rat := if y = 0 then none else some (x / y)

end Verif
