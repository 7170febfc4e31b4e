import Verif.Model.NodeBase

/-!
# Model of `UnaryOpNode` (/repo/dwave/optimization/src/nodes/mathematical.cpp 1711-1913)

The function applied is a parameter; `square_root`, for one, is any function here.
-/

namespace Verif

variable {α : Type} [DecidableEq α] [Inhabited α]

/-- One turn of the loop of `UnaryOpNode::propagate`, mathematical.cpp 1872-1884. -/
def unaryStep (func : α → α) (s : ArrayState α) (u : Update α) : Res (ArrayState α) :=
  if u.placed then do
    guardUB (u.index = s.buffer.length)
    match u.value with
    | some v => .ok (s.emplaceBack (func v))
    | none => .ub
  else if u.removed then do
    guardUB (u.index + 1 = s.buffer.length)
    s.popBack
  else match u.value with
    | some v => s.set u.index (func v)
    | none => .ub

/-- `UnaryOpNode::propagate`, mathematical.cpp 1873-1893.  (`Node::propagate` only notifies the
successors, which ignore it: graph.hpp 228-241.) -/
def unaryPropagate (func : α → α) (s : ArrayState α) :
    List (Arr α × List (Update α)) → Res (ArrayState α)
  | [(_, d)] => d.foldlM (unaryStep func) s
  | _ => .ub

/-- `UnaryOpNode::initialize_state`, mathematical.cpp 1737-1752. -/
def unaryInit (func : α → α) : List (Arr α) → Res (List α)
  | [x] => .ok (x.data.map func)
  | _ => .ub

/-- `UnaryOpNode`: its shape is that of its predecessor (mathematical.cpp 1713-1714). -/
def unaryNode (func : α → α) (shape : List Int) : NodeSem (Arr α) (List (Update α)) :=
  arrayNode shape (fun xs => (xs.headD ⟨[], []⟩).data.map func)
    (fun xs => xs.map Arr.shape = [shape]) (unaryInit func) (unaryPropagate func)

end Verif
