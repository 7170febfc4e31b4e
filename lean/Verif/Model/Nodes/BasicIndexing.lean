import Verif.Model.NodeBase
import Verif.Model.Slice
import Verif.Model.Shape
import Verif.Spec.Indexing

/-!
# Model of `BasicIndexingNode` (/repo/dwave/optimization/src/nodes/indexing.cpp 911-1596)

Strides are in bytes, starts in doubles, as in the code.  The indexed array is taken to be laid out with the
strides of its shape.
-/

namespace Verif

/-- `slice_or_int`, indexing.hpp 153. -/
inductive SliceOrInt where
  | int (i : Int)
  | slice (s : Slice)
  deriving DecidableEq, Repr

/-- `BasicIndexing.cppslice`, symbols.pyx 582-596. -/
def BasicIndex.make : BasicIndex → Res SliceOrInt
  | .at i => .ok (.int i)
  | .slice a b c => do .ok (.slice (← Slice.make a b c))

/-- The loop over the indices, symbols.pyx 571-576. -/
def BasicIndex.makeAll : List BasicIndex → Res (List SliceOrInt)
  | [] => .ok []
  | i :: is => do
    let i ← i.make
    let is ← makeAll is
    .ok (i :: is)

/-- What the parser finds (indexing.cpp 1021-1027). -/
structure Parsed where
  shape : List Int
  strides : List Int
  start : Int
  axis0 : Option Slice
  deriving DecidableEq, Repr

/-- The loop of the parser over axes of known size, indexing.cpp 947-1018: shape, strides and start. -/
def parseAxes : List Int → List Int → List SliceOrInt → Res (List Int × List Int × Int)
  | [], [], [] => .ok ([], [], 0)
  | d :: shape, st :: strides, .slice s :: idx => do
    guardThrow (s.step ≠ 0)
    guardThrow (¬ s.step < 0)
    guardUB (0 ≤ d)
    let k ← (s.fit d).size
    let r ← parseAxes shape strides idx
    .ok (k :: r.1, (s.fit d).step * st :: r.2.1, ((s.fit d).start * st).tdiv 8 + r.2.2)
  | d :: shape, st :: strides, .int i :: idx => do
    guardThrow (¬ ((if i < 0 then i + d else i) < 0 ∨ d ≤ (if i < 0 then i + d else i)))
    let r ← parseAxes shape strides idx
    .ok (r.1, r.2.1, ((if i < 0 then i + d else i) * st).tdiv 8 + r.2.2)
  | _, _, _ => .throw

/-- `IndexParser_`, indexing.cpp 916-1019, for an indexed array that is contiguous (otherwise it throws,
926-929). -/
def parseIndex (shape : List Int) (idx : List SliceOrInt) : Res Parsed := do
  guardThrow (idx.length = shape.length)
  match dynamicShape shape, shape, shapeToStrides shape, idx with
  | true, _ :: shape, st :: strides, .slice s :: idx => do
    guardThrow (s.step ≠ 0)
    guardThrow (¬ s.step < 0)
    let r ← parseAxes shape strides idx
    .ok ⟨-1 :: r.1, s.step * st :: r.2.1, r.2.2, some s⟩
  | true, _, _, _ => .throw
  | false, shape, strides, idx => do
    let r ← parseAxes shape strides idx
    .ok ⟨r.1, r.2.1, r.2.2, none⟩

/-- The constructor, from the indices given in Python (symbols.pyx 567-580, indexing.cpp 1030-1043). -/
def basicParse (shape : List Int) (idx : List BasicIndex) : Res Parsed := do
  parseIndex shape (← BasicIndex.makeAll idx)

namespace Parsed

/-- `size_ < 0`. -/
def dynamic (P : Parsed) : Bool := decide (shapeToSize P.shape < 0)

/-- `contiguous_`, indexing.cpp 1041. -/
def contiguous (P : Parsed) : Bool := isContiguous P.shape P.strides

/-- `axis0_slice_.value()`. -/
def slice (P : Parsed) : Slice := P.axis0.getD ⟨0, 0, 1⟩

end Parsed

/-- `BasicIndexingNodeData`, indexing.cpp 1045-1076.  The node is a view: it reads the indexed array's buffer.
`now` and `committed` are that array's present and committed contents and shape, as seen through it (`ThroughState`
does the same for `ReshapeNode`). -/
structure BasicState (α : Type) where
  now : Arr α
  committed : Arr α
  diff : List (Update α)
  previousSize : Int
  /-- `dynamic_shape[0]` -/
  dim0 : Int
  fitted : Slice
  cache : List α
  deriving DecidableEq, Repr

namespace BasicState

variable {α : Type} [DecidableEq α] [Inhabited α]

/-- `update_dynamic_shape`, indexing.cpp 1078-1093. -/
def updateShape (P : Parsed) (s : BasicState α) : Res (BasicState α) := do
  let k ← (P.slice.fit (s.now.shapeNow.headD 0)).size
  .ok { s with fitted := P.slice.fit (s.now.shapeNow.headD 0), dim0 := k }

/-- `shape(state)`, indexing.cpp 1592-1596. -/
def dims (P : Parsed) (s : BasicState α) : List Int :=
  if P.dynamic then s.dim0 :: P.shape.drop 1 else P.shape

/-- `size(state)`, indexing.cpp 1511-1515. -/
def size (P : Parsed) (s : BasicState α) : Int :=
  if P.dynamic then shapeToSize (s.dim0 :: P.shape.drop 1) else shapeToSize P.shape

/-- `buff(state)` relative to the indexed array's buffer, indexing.cpp 1095-1103, 1195-1197. -/
def offset (P : Parsed) (s : BasicState α) : Int :=
  if P.dynamic then P.start + (s.fitted.start * P.strides.headD 0).tdiv 8 else P.start

/-- The elements from `begin(state)` to `end(state)`, array.hpp 763-767: a plain pointer for contiguous arrays,
the strided iterator otherwise (`C14_iterator_row_major`: its `k`-th element is the one with the `k`-th
coordinates).  Elements outside the indexed array's buffer stand as `default`. -/
def elements (P : Parsed) (s : BasicState α) : List α :=
  if P.contiguous then
    (List.range (s.size P).toNat).map fun (i : Nat) => s.now.data.getD (s.offset P + i).toNat default
  else
    (allCoords (s.dims P)).map fun c => s.now.data.getD (s.offset P + (byteOffset P.strides c).tdiv 8).toNat default

/-- `initialize_state`, indexing.cpp 1175-1193. -/
def init (P : Parsed) (x : Arr α) : Res (BasicState α) :=
  if P.dynamic then do
    let s ← updateShape P ⟨x, x, [], 0, 0, ⟨0, 0, 1⟩, []⟩
    .ok { s with previousSize := s.size P, cache := if P.slice.start < 0 then s.elements P else [] }
  else .ok ⟨x, x, [], 0, 0, ⟨0, 0, 1⟩, []⟩

/-- `commit`, indexing.cpp 1105-1111. -/
def commit (P : Parsed) (s : BasicState α) : BasicState α :=
  { s with diff := [], previousSize := s.size P, cache := s.elements P, committed := s.now }

/-- `revert`, indexing.cpp 1497-1509, when the indexed array has been reverted. -/
def revert (P : Parsed) (s : BasicState α) : Res (BasicState α) :=
  if P.dynamic then do
    let s ← updateShape P { s with diff := [], now := s.committed }
    if P.slice.start < 0 then do
      guardUB (P.contiguous = true)
      .ok { s with cache := resizeVec s.cache s.previousSize.toNat }
    else .ok s
  else .ok { s with diff := [], now := s.committed }

end BasicState

variable {α : Type} [DecidableEq α] [Inhabited α]

/-- `get_smallest_size_during_diff`, indexing.cpp 1199-1213. -/
def smallestLoop : List (Update α) → (size minimum : Int) → Res Int
  | [], _, minimum => .ok minimum
  | u :: us, size, minimum =>
    if u.placed then smallestLoop us (size + 1) minimum
    else if u.removed then do
      guardUB (0 ≤ size - 1)
      smallestLoop us (size - 1) (min (size - 1) minimum)
    else smallestLoop us size minimum

/-- The fitted slice, or an empty one, indexing.cpp 1322-1329. -/
def fitOrEmpty (s : Slice) (n : Int) : Res Slice := do
  let k ← (s.fit n).size
  .ok (if k = 0 then ⟨s.start, s.start, 1⟩ else s.fit n)

/-- The ranges used by the third branch of `propagate`, all relative to the indexed array. -/
structure Ranges where
  start : Int
  growing : Bool
  shrinking : Bool
  deltaStart : Int
  deltaStop : Int
  falseStart : Int
  falseSize : Int
  deriving DecidableEq, Repr

/-- indexing.cpp 1321-1348. -/
def ranges (s : Slice) (oldSize newSize : Int) (d : List (Update α)) : Res Ranges := do
  let previous ← fitOrEmpty s oldSize
  let new ← fitOrEmpty s newSize
  let smallest ← smallestLoop d oldSize oldSize
  let a ← previous.size
  let b ← new.size
  let delta : Int × Int :=
    if b > a then (previous.stop, new.stop) else if b < a then (new.stop, previous.stop) else (new.stop, new.stop)
  .ok ⟨new.start, b > a, b < a, delta.1, delta.2, max smallest new.start, max 0 (delta.1 - max smallest new.start)⟩

/-- The delta part of the diff and the part for false removals, before the updates are looked at, indexing.cpp
1350-1374. -/
def Ranges.initial (r : Ranges) (x : List α) : List (Update α) :=
  (if r.growing then
    (List.range (r.deltaStop - r.deltaStart).toNat).map fun (i : Nat) =>
      (⟨(r.deltaStart + i - r.start).toNat, none, some (x.getD (r.deltaStart + i).toNat default)⟩ : Update α)
  else if r.shrinking then
    (List.range (r.deltaStop - r.deltaStart).toNat).map fun (i : Nat) =>
      ⟨(r.deltaStop - 1 - i - r.start).toNat, none, none⟩
  else []) ++
  (List.range r.falseSize.toNat).map fun (i : Nat) => ⟨(r.falseStart + i - r.start).toNat, none, none⟩

/-- One update of the indexed array, indexing.cpp 1376-1408. -/
def Ranges.update (r : Ranges) (diff : List (Update α)) (u : Update α) : Res (List (Update α)) :=
  if r.shrinking ∧ r.deltaStart ≤ u.index ∧ u.index < r.deltaStop then
    match diff[(r.deltaStop - u.index - 1).toNat]? with
    | none => .ub
    | some e =>
      if e.old.isNone then do
        guardUB ((e.index : Int) = u.index - r.start)
        .ok (diff.set (r.deltaStop - u.index - 1).toNat { e with old := u.old })
      else .ok diff
  else if u.index < r.deltaStart ∧ r.falseStart ≤ u.index then
    match diff[((r.deltaStop - r.deltaStart) + u.index - r.falseStart).toNat]? with
    | none => .ub
    | some e => do
      guardUB (u.index - r.falseStart < r.falseSize)
      guardUB ((e.index : Int) = u.index - r.start)
      guardUB (e.old.isNone → u.old.isSome)
      .ok (diff.set ((r.deltaStop - r.deltaStart) + u.index - r.falseStart).toNat
        { e with old := if e.old.isNone then u.old else e.old, value := u.value })
  else if u.index < r.deltaStart ∧ r.start ≤ u.index then
    .ok (diff ++ [⟨((u.index : Int) - r.start).toNat, u.old, u.value⟩])
  else .ok diff

/-- Missing old values of removals, indexing.cpp 1410-1420. -/
def Ranges.finish (r : Ranges) (x : List α) (diff : List (Update α)) : List (Update α) :=
  if r.shrinking then
    diff.mapIdx fun i e =>
      if i < (r.deltaStop - r.deltaStart).toNat ∧ e.old.isNone then
        { e with old := some (x.getD (r.deltaStop - i - 1).toNat default) }
      else e
  else diff

/-- The loop over the strides, indexing.cpp 1469-1482; division by zero is undefined. -/
def strideLoop : List Int → Int → Res (Option Int)
  | [], index => .ok (some index)
  | st :: strides, index => do
    guardUB (st.tdiv 8 ≠ 0)
    if index.tmod (st.tdiv 8) ≠ 0 then .ok none else strideLoop strides (index.tdiv (st.tdiv 8))

/-- The loop over the updates for strided views, indexing.cpp 1462-1488. -/
def stridedDiff (P : Parsed) (size stop : Int) : List (Update α) → Res (List (Update α))
  | [] => .ok []
  | u :: us =>
    if u.index < P.start ∨ stop ≤ u.index then stridedDiff P size stop us
    else do
      let i ← strideLoop P.strides (u.index - P.start)
      match i with
      | none => stridedDiff P size stop us
      | some i => do
        guardUB (0 ≤ i ∧ i < size)
        let rest ← stridedDiff P size stop us
        .ok (⟨i.toNat, u.old, u.value⟩ :: rest)

namespace BasicState

/-- `&*end - &*begin`, indexing.cpp 1453: after `size` steps the iterator is at the start of the row after the
last one (`C14_iterator_row_major`). -/
def extent (P : Parsed) (s : BasicState α) : Int :=
  if s.size P = 0 then 0 else (s.dims P).headD 0 * (P.strides.headD 0).tdiv 8

/-- `propagate`, indexing.cpp 1215-1495.  `size()` and `size_diff()` of the indexed array are those of its
contents. -/
def propagate (P : Parsed) (s : BasicState α) (x : Arr α) (d : List (Update α)) : Res (BasicState α) := do
  guardUB (s.diff = [])
  if P.contiguous && P.dynamic && decide (P.slice.start < 0) then do
    guardUB (P.start = 0)
    let k ← (P.slice.fit (s.now.data.length : Int)).size
    guardUB ((s.cache.length : Int) = k)
    let s ← updateShape P { s with now := x }
    let new := s.elements P
    let overlap := min s.cache.length new.length
    .ok { s with diff := ArrayState.assignOverlap 0 s.cache new
        ++ ArrayState.placements overlap (new.drop overlap) ++ ArrayState.removals overlap (s.cache.drop overlap) }
  else if P.contiguous && P.dynamic then do
    guardUB (P.start = 0)
    let r ← ranges P.slice (s.now.data.length : Int) (x.data.length : Int) d
    let diff ← d.foldlM r.update (r.initial x.data)
    updateShape P { s with now := x, diff := r.finish x.data diff }
  else if P.contiguous then do
    guardUB (0 ≤ P.start ∧ 0 ≤ s.size P ∧ P.start + s.size P ≤ (x.data.length : Int))
    .ok { s with
      now := x
      diff := (d.filter fun u => !(decide ((u.index : Int) < P.start) || decide (P.start + s.size P ≤ u.index))).map
        fun u => ⟨((u.index : Int) - P.start).toNat, u.old, u.value⟩ }
  else if !P.dynamic || (decide (0 ≤ P.slice.start) && decide (0 ≤ P.slice.stop)) then do
    let s ← if P.dynamic then updateShape P { s with now := x } else .ok { s with now := x }
    guardUB (0 ≤ P.start ∧ P.start ≤ s.extent P ∧ P.shape ≠ [] ∧
      s.extent P ≤ (x.data.length : Int) + (P.strides.headD 0).tdiv 8)
    let diff ← stridedDiff P (s.size P) (s.extent P) d
    .ok { s with diff := diff }
  else .ub

end BasicState

/-- The node, given what its parser found for an indexed array of static shape `operand` (whose size fits
`ssize_t`). -/
@[reducible] def basicNode (operand : List Int) (idx : List BasicIndex) (P : Parsed) :
    NodeSem (Arr α) (List (Update α)) where
  σ := BasicState α
  f := fun xs => ⟨P.shape, basicSelect (xs.headD ⟨[], []⟩).shapeNow (xs.headD ⟨[], []⟩).data idx⟩
  ok := fun xs => ∃ x, xs = [x] ∧ x.shape = operand ∧ x.WF ∧ (x.data.length : Int) ≤ ssMax
  init := fun xs =>
    match xs with
    | [x] => BasicState.init P x
    | _ => .ub
  propagate := fun s ins =>
    match ins with
    | [(x, d)] => s.propagate P x d
    | _ => .ub
  commit := fun s => .ok (s.commit P)
  revert := fun s => s.revert P
  view := fun s => ⟨P.shape, s.elements P⟩
  diff := fun s => s.diff

end Verif
