import Verif.Model.Nodes.AdvancedIndexing
import Verif.Spec.Permute

/-!
# Model: `PermutationNode` (dwave/optimization/src/nodes/indexing.cpp 1599-1751)

The permuted array is a constant; the only operand that changes is the order.  Arithmetic on `ssize_t` and `double` is exact, but
the `int` accumulator of `std::inner_product` (line 1671) is modelled.
-/

namespace Verif

/-- Conversion to `int`: reduction modulo 2^32 into the range from -2^31 to 2^31 - 1. -/
def wrap32 (v : Int) : Int := (v + 2 ^ 31) % 2 ^ 32 - 2 ^ 31

/-- The checks of the constructor, indexing.cpp 1601-1638: the array's kind and shape, and what the order declares. -/
def permMake (constant : Bool) (shape : List Int) (order : Indexer) : Res Unit := do
  guardThrow (constant = true)
  guardThrow (1 ≤ shape.length)
  guardThrow (∀ d ∈ shape, d = shape.headD 0)
  guardThrow (¬ dynamicShape order.shape = true)
  guardThrow (order.integral = true)
  guardThrow (order.shape.length = 1)
  guardThrow (shape.headD 0 = shapeProd order.shape)
  guardThrow (¬ order.max > (shapeProd shape : Rat))

/-- `IndexingNodeData`, indexing.cpp 29-76; `old_size` is left out as the size never changes. -/
structure PermState where
  offsets : List Int
  data : List Rat
  diff : List (Update Rat)
  oldOffsets : List Int
  deriving DecidableEq, Repr

/-- `std::inner_product(o.begin(), o.end(), strides.begin(), 0)`, indexing.cpp 1671: the accumulator has the type of the
initial value, `int`. -/
def innerProduct32 : Int → List Int → List Int → Int
  | acc, o :: os, st :: strides => innerProduct32 (wrap32 (acc + o * st)) os strides
  | acc, _, _ => acc

/-- The offset of the element with the given coordinates, indexing.cpp 1671-1672: the `int` is converted to `size_t` for the
division. -/
def permOffset (strides o : List Int) : Int := (innerProduct32 0 o strides % 2 ^ 64) / 8

namespace PermState

/-- `initialize_state`, indexing.cpp 1651-1699.  The do-while loop visits all coordinates in row-major order (`allCoords`); it
starts by reading `order[0]`. -/
def init (x : Arr Rat) (order : Arr Rat) : Res PermState := do
  guardUB (order.data ≠ [])
  let o : Int → Int := fun i => toSS (order.data.getD i.toNat 0)
  let offsets := (allCoords x.shape).map fun c => permOffset (shapeToStrides x.shape) (c.map o)
  guardUB (∀ p ∈ offsets, 0 ≤ p ∧ p.toNat < x.data.length)
  .ok ⟨offsets, offsets.map fun p => x.data.getD p.toNat 0, [], []⟩

/-- The body of the innermost loop, indexing.cpp 1726-1738. -/
def cell (x : List Rat) (delta : Rat) (s : PermState) (i : Nat) : Res PermState :=
  match s.offsets[i]?, s.data[i]? with
  | some o, some v => do
    let p := toSS ((o : Rat) + delta)
    guardUB (0 ≤ p ∧ p.toNat < x.length)
    .ok {
      offsets := s.offsets.set i p
      data := s.data.set i (x.getD p.toNat 0)
      diff := s.diff ++ [Update.change i v (x.getD p.toNat 0)]
      oldOffsets := s.oldOffsets ++ [o] }
  | _, _ => .ub

/-- The loop over `i`, indexing.cpp 1723-1739; a NaN cannot be converted. -/
def update (x : List Rat) (n mul step : Nat) (stride : Int) (s : PermState) (u : Update Rat) : Res PermState :=
  match u.old, u.value with
  | some old, some neo => (List.range n).foldlM (fun s k => cell x ((stride : Rat) * (neo - old)) s (u.index * mul + k * step)) s
  | _, _ => .ub

/-- The loop over the dimensions, indexing.cpp 1719-1744. -/
def dims (x : List Rat) (n : Nat) (d : List (Update Rat)) : (mul step : Nat) → List Int → PermState → Res PermState
  | _, _, [], s => .ok s
  | mul, step, st :: strides, s => do
    let s ← d.foldlM (update x n mul step st) s
    dims x n d (mul / n) (step * n) strides s

/-- `propagate`, indexing.cpp 1701-1749. -/
def propagate (x : Arr Rat) (s : PermState) (d : List (Update Rat)) : Res PermState := do
  guardUB (s.diff = [])
  if d = [] then .ok s
  else dims x.data (x.shape.headD 0).toNat d ((x.shape.headD 0).toNat ^ (x.shape.length - 1)) 1 (itemStrides x.shape) s

/-- `commit`, indexing.cpp 33-37. -/
def commit (s : PermState) : PermState := { s with diff := [], oldOffsets := [] }

/-- One step of the loop of `revert`, indexing.cpp 48-52. -/
def undo (s : PermState) (p : Update Rat × Int) : Res PermState := do
  guardUB (p.1.index < s.offsets.length ∧ p.1.index < s.data.length)
  .ok { s with offsets := s.offsets.set p.1.index p.2, data := s.data.set p.1.index (p.1.old.getD 0) }

/-- `revert`, indexing.cpp 39-63. -/
def revert (s : PermState) : Res PermState := do
  guardUB (s.diff.length ≤ s.oldOffsets.length)
  let s' ← (s.diff.reverse.zip s.oldOffsets.reverse).foldlM undo s
  .ok { s' with diff := [], oldOffsets := [] }

end PermState

/-- `n` integers from 0 to `n - 1`. -/
def IsOrder (n : Nat) (a : List Rat) : Prop := a.length = n ∧ ∀ v ∈ a, v.den = 1 ∧ 0 ≤ v ∧ v < n

/-- The entries of an order as coordinates. -/
def orderOf (order : Arr Rat) (i : Int) : Int := toSS (order.data.getD i.toNat 0)

/-- The order: `n` integers from 0 to `n - 1`. -/
def OrderOk (n : Nat) (xs : List (Arr Rat)) : Prop := ∃ o, xs = [o] ∧ o.shape = [(n : Int)] ∧ IsOrder n o.data

/-- The symbol's value: `A[order, :][:, order]`. -/
def permValue (x : Arr Rat) (xs : List (Arr Rat)) : Arr Rat := ⟨x.shape, permSelect x.shape x.data (orderOf (xs.headD ⟨[], []⟩))⟩

/-- The node; its operand is the order. -/
@[reducible] def permNode (x : Arr Rat) (f : List (Arr Rat) → Arr Rat) (ok : List (Arr Rat) → Prop) :
    NodeSem (Arr Rat) (List (Update Rat)) where
  σ := PermState
  f := f
  ok := ok
  init := fun xs =>
    match xs with
    | [order] => PermState.init x order
    | _ => .ub
  propagate := fun s ins =>
    match ins with
    | [(_, d)] => s.propagate x d
    | _ => .ub
  commit := fun s => .ok s.commit
  revert := fun s => s.revert
  view := fun s => ⟨x.shape, s.data⟩
  diff := fun s => s.diff

end Verif
