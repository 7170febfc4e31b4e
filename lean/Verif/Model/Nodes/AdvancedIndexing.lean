import Verif.Model.NodeBase
import Mathlib.Data.List.Forall2
import Verif.Model.Dedup
import Verif.Model.Shape
import Verif.Spec.Advanced

/-!
# Model of `AdvancedIndexingNode` (/repo/dwave/optimization/src/nodes/indexing.cpp 78-909)

Simplifications.  Strides and offsets are counted in doubles where the code counts bytes (all of them are multiples of 8).
The indexed array is taken to be laid out with the strides of its shape.  Offsets are `Int`, not `ssize_t`; values of index
arrays are numbers whose integer part is taken when they become a `ssize_t`, also before they are multiplied by a stride
(607, 745), which makes no difference for integers, and the constructor demands integers (260).  The NaN of `Update` is
`none`.  Converting the NaN of a removal to `ssize_t` (754, 803) and reading an element that is not used afterwards (536, for
removals) are taken as harmless, although the standard leaves both undefined.
-/

namespace Verif

/-- What the constructor looks at in an index array: its static shape, `integral()`, `min()`, `max()`, and the answer of
`array_shape_equal(first_array, this)` (array.cpp 165-197; see `C21` for its algorithm). -/
structure Indexer where
  shape : List Int
  integral : Bool
  min : Rat
  max : Rat
  agrees : Bool
  deriving DecidableEq, Repr

/-- What the parser finds (indexing.cpp 436-444), and the static shape of the indexed array. -/
structure Adv where
  /-- `holds_alternative<ArrayNode*>` for each index -/
  kinds : List Bool
  bullet1 : Bool
  /-- `indexing_arrays_ndim` -/
  indexNdim : Nat
  /-- `first_array_index` -/
  first : Nat
  operand : List Int
  shape : List Int
  subspace : Int
  deriving DecidableEq, Repr

/-- The strides of a contiguous array in doubles (indexing.cpp 359-362). -/
def itemStrides (shape : List Int) : List Int := (shapeToStrides shape).map (· / 8)

/-- The flags of the loop, indexing.cpp 239-241, 320. -/
structure AdvScan where
  first : Option (Nat × Indexer)
  sliceAfter : Bool
  separated : Bool
  deriving DecidableEq, Repr

/-- The check of the largest index, indexing.cpp 278-302: `minSize` is the minimum of the indexed array's size info. -/
def advBound (stride0 : Int) (minSize : Option Int) (axis : Nat) (d : Int) (largest : Rat) : Res Unit :=
  if axis = 0 ∧ d < 0 then
    match minSize with
    | none => .throw
    | some m => do
      guardUB (stride0 ≠ 0)
      guardThrow (¬ (((m * 8).tdiv stride0 : Int) : Rat) ≤ largest)
  else guardThrow (¬ (d : Rat) ≤ largest)

/-- The comparison with the first index array, indexing.cpp 304-315. -/
def advAgrees (first : Option (Nat × Indexer)) (i : Indexer) : Res Unit :=
  match first with
  | none => .ok ()
  | some f => do
    guardThrow (i.agrees = true)
    guardThrow (i.shape.length = f.2.shape.length)

/-- The loop over the indices, indexing.cpp 246-325. -/
def advScan (stride0 : Int) (minSize : Option Int) :
    Nat → List Int → List (Option Indexer) → AdvScan → Res AdvScan
  | axis, _ :: shape, none :: idx, s =>
    advScan stride0 minSize (axis + 1) shape idx { s with sliceAfter := s.sliceAfter || s.first.isSome }
  | axis, d :: shape, some i :: idx, s => do
    guardThrow (i.integral = true)
    guardThrow (¬ i.min < 0)
    advBound stride0 minSize axis d i.max
    advAgrees s.first i
    advScan stride0 minSize (axis + 1) shape idx
      { s with first := s.first.or (some (axis, i)), separated := s.separated || s.sliceAfter }
  | _, _, _, s => .ok s

/-- The dimensions of the slices, indexing.cpp 372-383. -/
def advSlices : List Int → List (Option Indexer) → List Int
  | _ :: shape, some _ :: idx => advSlices shape idx
  | d :: shape, none :: idx => d :: advSlices shape idx
  | _, _ => []

/-- The shape when the index arrays' dimension stays in place, indexing.cpp 391-411. -/
def advShape2 (arrays : List Int) : (hit : Bool) → List Int → List (Option Indexer) → List Int
  | hit, d :: shape, none :: idx => d :: advShape2 arrays hit shape idx
  | false, _ :: shape, some _ :: idx => arrays ++ advShape2 arrays true shape idx
  | true, _ :: shape, some _ :: idx => advShape2 arrays true shape idx
  | _, _, _ => []

/-- `subspace_stride`, indexing.cpp 244, 422-428. -/
def advSubspace (shape : List Int) (indexNdim : Nat) (bullet1 : Bool) (first : Nat) : Int :=
  match shape with
  | [] => 1
  | d :: _ =>
    if indexNdim = 0 then (itemStrides shape).headD 0 * d
    else (itemStrides shape).getD (if bullet1 then indexNdim - 1 else first) 0

/-- `IndexParser_`, indexing.cpp 214-430; with the index arrays' dimension first the shape is theirs followed by the
slices' (367-371).  Without axes the parser returns early and the node is built from
uninitialised members (237, 461-462). -/
def advParse (shape : List Int) (minSize : Option Int) (idx : List (Option Indexer)) : Res Adv := do
  guardThrow (idx.length = shape.length)
  guardUB (shape ≠ [])
  let s ← advScan ((shapeToStrides shape).headD 0) minSize 0 shape idx ⟨none, false, false⟩
  match s.first with
  | none => .throw
  | some (k, f) => do
    guardThrow (¬ (s.separated ∧ dynamicShape shape ∧ k ≠ 0))
    guardThrow (f.shape.length ≤ 1)
    let bullet1 := s.separated || k == 0 || f.shape.isEmpty
    guardThrow (bullet1 = false → ∀ i ∈ idx.reduceOption, ¬ dynamicShape i.shape = true)
    let out := if bullet1 then f.shape ++ advSlices shape idx else advShape2 f.shape false shape idx
    .ok ⟨idx.map Option.isSome, bullet1, f.shape.length, k, shape, out, advSubspace out f.shape.length bullet1 k⟩

/-- The integer a value of an index array becomes. -/
def toSS (v : Rat) : Int := v.num.tdiv v.den

/-- `AdvancedIndexingNodeData`, indexing.cpp 80-212.  `reverse` is `reverse_offsets`, where an offset without entry has the
empty list. -/
structure AdvState where
  data : List (Option Rat)
  diff : List (Update Rat)
  offsets : List Int
  offsetsDiff : List (Update Int)
  reverse : Int → List Nat
  oldOffsets : Nat
  oldData : Nat
  /-- `maintain_reverse_offset_map` -/
  track : Bool

namespace AdvState

/-- `delete_from_reverse`, indexing.cpp 184-199. -/
def deleteReverse (s : AdvState) (index : Nat) (offset : Int) : Res AdvState :=
  if s.track then
    match (s.reverse offset).getLast? with
    | none => .ub
    | some back => do
      guardUB (back = index ∨ index ∈ s.reverse offset)
      .ok { s with reverse := fun o =>
        if o = offset then
          (if back = index then s.reverse offset else (s.reverse offset).replace index back).dropLast
        else s.reverse o }
  else .ok s

/-- `add_to_reverse`, indexing.cpp 201-205. -/
def addReverse (s : AdvState) (index : Nat) (offset : Int) : AdvState :=
  if s.track then
    { s with reverse := fun o => if o = offset then s.reverse offset ++ [index] else s.reverse o }
  else s

/-- `add_to_offset`, indexing.cpp 137-144. -/
def addToOffset (s : AdvState) (index : Nat) (delta : Int) : Res AdvState :=
  match s.offsets[index]? with
  | none => .ub
  | some old => do
    let s ← { s with
      offsets := s.offsets.set index (old + delta)
      offsetsDiff := s.offsetsDiff ++ [Update.change index old (old + delta)] }.deleteReverse index old
    .ok (s.addReverse index (old + delta))

/-- `place_offset`, indexing.cpp 146-150. -/
def placeOffset (s : AdvState) (offset : Int) : AdvState :=
  let s' := { s with offsetsDiff := s.offsetsDiff ++ [Update.placement s.offsets.length offset] }.addReverse
    s.offsets.length offset
  { s' with offsets := s.offsets ++ [offset] }

/-- `remove_offset`, indexing.cpp 152-158. -/
def removeOffset (s : AdvState) : Res AdvState :=
  match s.offsets.getLast? with
  | none => .ub
  | some o => do
    let s' ← { s with offsetsDiff := s.offsetsDiff ++ [Update.removal (s.offsets.length - 1) o] }.deleteReverse
      (s.offsets.length - 1) o
    .ok { s' with offsets := s.offsets.dropLast }

/-- The constructor, indexing.cpp 82-92. -/
def make (offsets : List Int) (values : List (Option Rat)) (track : Bool) : AdvState :=
  offsets.zipIdx.foldl (fun s p => s.addReverse p.2 p.1)
    ⟨values, [], offsets, [], fun _ => [], offsets.length, values.length, track⟩

/-- `commit`, indexing.cpp 94-99. -/
def commit (s : AdvState) : AdvState :=
  { s with diff := [], offsetsDiff := [], oldOffsets := s.offsets.length, oldData := s.data.length }

/-- `if (!update.removed()) delete_from_reverse(update.index, update.value)`, indexing.cpp 115. -/
def undoValue (s : AdvState) (index : Nat) (value : Option Int) : Res AdvState :=
  match value with
  | some v => s.deleteReverse index v
  | none => .ok s

/-- `if (!update.placed()) add_to_reverse(update.index, update.old)`, indexing.cpp 116. -/
def undoOld (s : AdvState) (index : Nat) (old : Option Int) : AdvState :=
  match old with
  | some o => s.addReverse index o
  | none => s

/-- One step of the first loop of `revert`, indexing.cpp 112-117; the offset written for a placement is cut off
afterwards (124-126). -/
def revertOffset (s : AdvState) (u : Update Int) : Res AdvState := do
  guardUB (u.index < s.offsets.length)
  let s ← { s with offsets := s.offsets.set u.index (u.old.getD 0) }.undoValue u.index u.value
  .ok (s.undoOld u.index u.old)

/-- One step of the second loop of `revert`, indexing.cpp 119-121. -/
def revertData (s : AdvState) (u : Update Rat) : Res AdvState := do
  guardUB (u.index < s.data.length)
  .ok { s with data := s.data.set u.index u.old }

/-- `revert`, indexing.cpp 101-135. -/
def revert (s : AdvState) : Res AdvState := do
  let s := { s with
    offsets := s.offsets ++ List.replicate (s.oldOffsets - s.offsets.length) 0
    data := s.data ++ List.replicate (s.oldData - s.data.length) (some 0) }
  let s ← s.offsetsDiff.reverse.foldlM revertOffset s
  let s ← s.diff.reverse.foldlM revertData s
  .ok { s with offsets := s.offsets.take s.oldOffsets, data := s.data.take s.oldData, diff := [], offsetsDiff := [] }

end AdvState

/-- The places visited by `fill_subspace_recurse`, indexing.cpp 551-580, in the order of its loops when not removing: offset in
the indexed array and in the data.  `strides` and `out` are the strides of the remaining axes. -/
def cells (bullet1 : Bool) (first : Nat) :
    Nat → List Bool → List Int → List Int → List Int → List (Int × Int)
  | axis, true :: kinds, _ :: shape, _ :: strides, out =>
    cells bullet1 first (axis + 1) kinds shape strides (if bullet1 = false ∧ axis = first then out.drop 1 else out)
  | axis, false :: kinds, n :: shape, st :: strides, o :: out =>
    (List.range n.toNat).flatMap fun (i : Nat) =>
      (cells bullet1 first (axis + 1) kinds shape strides out).map fun c => ((i : Int) * st + c.1, (i : Int) * o + c.2)
  | _, [], _, _, _ => [(0, 0)]
  | _, _, _, _, _ => []

/-- What is done at a visited place (the template parameters of `fill_subspace_recurse`). -/
inductive FillMode where
  | silent | change | place | remove
  deriving DecidableEq, Repr

/-- The base case, indexing.cpp 533-550. -/
def fillCell (mode : FillMode) (x : List Rat) (s : AdvState) (c : Int × Int) : Res AdvState :=
  match mode with
  | .remove => do
    guardUB (s.data ≠ [] ∧ c.2 = (s.data.length : Int) - 1)
    .ok { s with
      diff := s.diff ++ [⟨s.data.length - 1, s.data.getLast?.join, none⟩]
      data := s.data.dropLast }
  | .place => do
    guardUB (0 ≤ c.1 ∧ c.1.toNat < x.length)
    guardUB (c.2 = (s.data.length : Int))
    .ok { s with
      diff := s.diff ++ [⟨s.data.length, none, x[c.1.toNat]?⟩]
      data := s.data ++ [x[c.1.toNat]?] }
  | .change => do
    guardUB (0 ≤ c.1 ∧ c.1.toNat < x.length)
    guardUB (0 ≤ c.2 ∧ c.2.toNat < s.data.length)
    .ok { s with
      diff := s.diff ++ [⟨c.2.toNat, s.data[c.2.toNat]?.join, x[c.1.toNat]?⟩]
      data := s.data.set c.2.toNat x[c.1.toNat]? }
  | .silent => do
    guardUB (0 ≤ c.1 ∧ c.1.toNat < x.length)
    guardUB (0 ≤ c.2 ∧ c.2.toNat < s.data.length)
    .ok { s with data := s.data.set c.2.toNat x[c.1.toNat]? }

namespace Adv

/-- The strides of the node (indexing.cpp 422). -/
def strides (P : Adv) : List Int := itemStrides P.shape

/-- The places of one subspace, relative to its start. -/
def subspaceCells (P : Adv) (dims : List Int) : List (Int × Int) :=
  cells P.bullet1 P.first 0 P.kinds dims (itemStrides P.operand) (if P.bullet1 then P.strides.drop P.indexNdim else P.strides)

/-- `fill_subspace`, indexing.cpp 490-508. -/
def fillSubspace (P : Adv) (mode : FillMode) (x : Arr Rat) (s : AdvState) (offset : Int) (index : Nat) : Res AdvState :=
  let cs := (P.subspaceCells x.shapeNow).map fun c => (offset + c.1, (index : Int) * P.subspace + c.2)
  (if mode = .remove then cs.reverse else cs).foldlM (fillCell mode x.data) s

/-- `fill_axis0_subspace`, indexing.cpp 510-521. -/
def fillAxis0 (P : Adv) (mode : FillMode) (x : Arr Rat) (axis0 : Nat) (s : AdvState) (offset : Int) (index : Nat) :
    Res AdvState := do
  guardUB (P.bullet1 = false)
  let cs := (cells P.bullet1 P.first 1 (P.kinds.drop 1) (x.shapeNow.drop 1) ((itemStrides P.operand).drop 1)
    (P.strides.drop 1)).map fun c => ((axis0 : Int) * (itemStrides P.operand).headD 0 + offset + c.1,
      (axis0 : Int) * P.strides.headD 0 + (index : Int) * P.subspace + c.2)
  (if mode = .remove then cs.reverse else cs).foldlM (fillCell mode x.data) s

/-- `*it += index_val * stride` for all elements, indexing.cpp 605-609. -/
def addAll (acc : List Int) (values : List Rat) (stride : Int) : Res (List Int) := do
  guardUB (values.length ≤ acc.length)
  .ok (acc.zipWith (fun o v => o + toSS v * stride) values ++ acc.drop values.length)

/-- The loop over the indices, indexing.cpp 598-611. -/
def initOffsets : List Bool → List Int → List (Arr Rat) → List Int → Res (List Int)
  | true :: kinds, st :: strides, x :: xs, acc => do
    let acc ← addAll acc x.data st
    initOffsets kinds strides xs acc
  | false :: kinds, _ :: strides, xs, acc => initOffsets kinds strides xs acc
  | _, _, _, acc => .ok acc

/-- The offsets at the beginning, indexing.cpp 592-612. -/
def startOffsets (kinds : List Bool) (strides : List Int) (indexers : List (Arr Rat)) (size : Nat) : Res (List Int) :=
  if size = 0 then .ok [] else initOffsets kinds strides indexers (List.replicate size 0)

/-- `initialize_state`, indexing.cpp 583-629; a negative size makes `std::vector` throw (619). -/
def init (P : Adv) (track : Bool) (x : Arr Rat) (indexers : List (Arr Rat)) : Res AdvState := do
  let size := (indexers.headD ⟨[], []⟩).data.length
  let offsets ← startOffsets P.kinds (itemStrides P.operand) indexers size
  guardUB ((itemStrides P.operand).headD 0 ≠ 0)
  let dataSize : Int :=
    if P.bullet1 then (size : Int) * P.subspace
    else (x.data.length : Int).tdiv ((itemStrides P.operand).headD 0) * P.strides.headD 0
  guardThrow (0 ≤ dataSize)
  let s : AdvState := ⟨List.replicate dataSize.toNat (some 0), [], [], [], fun _ => [], 0, 0, track⟩
  let s ← offsets.zipIdx.foldlM (fun s p => P.fillSubspace .silent x s p.1 p.2) s
  .ok (AdvState.make offsets s.data track)

/-- One update of an index array, indexing.cpp 733-765. -/
def offsetUpdate (stride : Int) (newSize : Nat) (isFirst : Bool) (s : AdvState) (u : Update Rat) : Res AdvState :=
  if newSize ≤ u.index then .ok s
  else if u.index = s.offsets.length then do
    guardUB (u.placed = true)
    guardUB (isFirst = true)
    .ok (s.placeOffset (stride * u.value.elim 0 toSS))
  else do
    guardUB (u.index < s.offsets.length)
    s.addToOffset u.index (stride * (u.value.elim 0 toSS - u.old.elim 0 toSS))

/-- Removals after the first index array, indexing.cpp 767-773. -/
def shrink (newSize : Nat) (s : AdvState) : Res AdvState :=
  (List.range (s.offsets.length - newSize)).foldlM (fun s _ => s.removeOffset) s

/-- The loop over the index arrays, indexing.cpp 724-774. -/
def offsetsLoop (first newSize : Nat) :
    Nat → List Bool → List Int → List (Arr Rat × List (Update Rat)) → AdvState → Res AdvState
  | axis, true :: kinds, st :: strides, (y, d) :: ins, s => do
    guardUB (newSize = y.data.length)
    let s ← d.foldlM (offsetUpdate st newSize (axis == first)) s
    let s ← if axis = first then shrink newSize s else .ok s
    offsetsLoop first newSize (axis + 1) kinds strides ins s
  | axis, false :: kinds, _ :: strides, ins, s => offsetsLoop first newSize (axis + 1) kinds strides ins s
  | _, _, _, _, s => .ok s

/-- `get_mapped_index`, indexing.cpp 659-688: offset and index within the subspace.  `out` are the strides of the result from
`mapped_axis` on. -/
def mapIndex (indexNdim : Nat) (u : Nat) : List Bool → List Int → List Int → List Int → (hit : Bool) → Res (Int × Int)
  | [], [], [], _, _ => .ok (0, 0)
  | true :: kinds, st :: strides, n :: shape, out, hit => do
    guardUB (st ≠ 0 ∧ n ≠ 0)
    let r ← mapIndex indexNdim u kinds strides shape (if hit then out else out.drop indexNdim) true
    .ok ((u / st) % n * st + r.1, r.2)
  | false :: kinds, st :: strides, n :: shape, o :: out, hit => do
    guardUB (st ≠ 0 ∧ n ≠ 0)
    let r ← mapIndex indexNdim u kinds strides shape out hit
    .ok (r.1, (u / st) % n * o + r.2)
  | _, _, _, _, _ => .ub

/-- `get_offset_idxs`, indexing.cpp 163-170. -/
def offsetIdxs (s : AdvState) (offset : Int) : Res (List Nat) := do
  guardUB (s.track = true)
  .ok (s.reverse offset)

/-- One index affected by an update of the indexed array, indexing.cpp 821-826. -/
def applyUpdate1 (P : Adv) (updated : List Nat) (u : Update Rat) (sub : Int) (s : AdvState) (idx : Nat) : Res AdvState :=
  if idx ∈ updated then .ok s
  else
    match s.data[((idx : Int) * P.subspace + sub).toNat]? with
    | none => .ub
    | some now => do
      guardUB (0 ≤ (idx : Int) * P.subspace + sub)
      guardUB (now = u.old ∧ now.isSome)
      .ok { s with
        diff := s.diff ++ [⟨((idx : Int) * P.subspace + sub).toNat, u.old, u.value⟩]
        data := s.data.set ((idx : Int) * P.subspace + sub).toNat u.value }

/-- One index affected by an update of the indexed array, indexing.cpp 886-892. -/
def applyUpdate2 (P : Adv) (updated : List Nat) (u : Update Rat) (sub : Int) (s : AdvState) (idx : Nat) : Res AdvState :=
  if idx ∈ updated then .ok s
  else
    match s.data[((idx : Int) * P.subspace + sub).toNat]? with
    | none => .ub
    | some now => do
      guardUB (0 ≤ (idx : Int) * P.subspace + sub)
      guardUB ((now = u.old ∧ now.isSome) ∨ (now.isNone ∧ u.placed))
      .ok { s with
        diff := s.diff ++ [⟨((idx : Int) * P.subspace + sub).toNat, some (u.old.getD 0), some (u.value.getD 0)⟩]
        data := s.data.set ((idx : Int) * P.subspace + sub).toNat u.value }

/-- One update of the indexed array, indexing.cpp 812-828 and 877-894. -/
def baseUpdate (P : Adv) (x : Arr Rat) (bound : Nat)
    (apply : Update Rat → Int → AdvState → Nat → Res AdvState) (s : AdvState) (u : Update Rat) : Res AdvState :=
  if bound ≤ u.index then .ok s
  else do
    let m ← mapIndex P.indexNdim u.index P.kinds (itemStrides P.operand) x.shapeNow P.strides false
    let idxs ← offsetIdxs s m.1
    idxs.foldlM (apply u m.2) s

/-- `if (offset_update.placed()) ... else ...`, indexing.cpp 788-796. -/
def fillUpdate1 (P : Adv) (x : Arr Rat) (s : AdvState) (u : Update Int) : Res AdvState :=
  P.fillSubspace (if u.placed then .place else .change) x s (u.value.getD 0) u.index

/-- The first branch, indexing.cpp 782-829. -/
def propagate1 (P : Adv) (s : AdvState) (x : Arr Rat) (d : List (Update Rat)) : Res AdvState := do
  let ud := s.offsetsDiff
  let kept := ud.takeWhile (fun u => !u.removed)
  let s ← kept.foldlM (P.fillUpdate1 x) s
  let s ← (ud.reverse.takeWhile Update.removed).foldlM (fun s u => P.fillSubspace .remove x s 0 u.index) s
  d.foldlM (P.baseUpdate x x.data.length (P.applyUpdate1 (if d = [] then [] else kept.map Update.index))) s

/-- Rows placed at the end of the data, indexing.cpp 839-848. -/
def growRows (P : Adv) (x : Arr Rat) (old new : Nat) (s : AdvState) : Res AdvState :=
  (List.range (new - old)).foldlM (fun s r =>
    s.offsets.zipIdx.foldlM (fun s p => P.fillAxis0 .place x (old + r) s p.1 p.2) s) s

/-- Rows removed from the end of the data, indexing.cpp 850-860. -/
def shrinkRows (P : Adv) (x : Arr Rat) (old new : Nat) (s : AdvState) : Res AdvState :=
  (List.range (old - new)).foldlM (fun s r =>
    s.offsets.zipIdx.reverse.foldlM (fun s p => P.fillAxis0 .remove x (old - 1 - r) s p.1 p.2) s) s

/-- Changed offsets, indexing.cpp 864-872. -/
def fillUpdate2 (P : Adv) (x : Arr Rat) (rows : Nat) (s : AdvState) (u : Update Int) : Res AdvState :=
  (List.range rows).foldlM (fun s r => do
    guardUB (u.placed = false ∧ u.removed = false)
    P.fillAxis0 .change x r s (u.value.getD 0) u.index) s

/-- The second branch, indexing.cpp 830-896; `oldSize` is `new_parent_size - size_diff`. -/
def propagate2 (P : Adv) (s : AdvState) (x : Arr Rat) (oldSize : Nat) (d : List (Update Rat)) : Res AdvState := do
  guardUB ((itemStrides P.operand).headD 0 ≠ 0)
  let row := ((itemStrides P.operand).headD 0).toNat
  let oldRows := oldSize / row
  let newRows := x.data.length / row
  let ud := s.offsetsDiff
  let s ← P.growRows x oldRows newRows s
  let s ← P.shrinkRows x oldRows newRows s
  let s ← ud.foldlM (P.fillUpdate2 x (min newRows oldRows)) s
  d.foldlM (P.baseUpdate x (min x.data.length oldSize) (P.applyUpdate2 (ud.map Update.index))) s

/-- `size_diff` of the indexed array as it follows from the changes it reports. -/
def sizeBefore (x : Arr Rat) (d : List (Update Rat)) : Nat :=
  x.data.length + d.countP Update.removed - d.countP Update.placed

/-- `propagate`, indexing.cpp 690-900. -/
def propagate (P : Adv) (s : AdvState) (x : Arr Rat) (d : List (Update Rat))
    (ins : List (Arr Rat × List (Update Rat))) : Res AdvState := do
  guardUB (s.diff = [])
  guardUB (ins ≠ [])
  let newSize := (ins.headD (⟨[], []⟩, [])).1.data.length
  let s ← offsetsLoop P.first newSize 0 P.kinds (itemStrides P.operand) ins s
  let ud ← deduplicateDiff s.offsetsDiff
  let s := { s with offsetsDiff := ud }
  if P.bullet1 then P.propagate1 s x d else P.propagate2 s x (sizeBefore x d) d

/-- The coordinates given by the `t`-th entries of the index arrays. -/
def indexAt (indexers : List (Arr Rat)) (t : Nat) : List Int := indexers.map fun y => toSS (y.data.getD t 0)

/-- The value NumPy gives. -/
def select (P : Adv) (x : Arr Rat) (indexers : List (Arr Rat)) : List Rat :=
  advSelect P.kinds x.shapeNow x.data (indexAt indexers) (indexers.headD ⟨[], []⟩).data.length

/-- `view(state)`: the data as numbers (a NaN would stand as 0). -/
def view (P : Adv) (s : AdvState) : Arr Rat := ⟨P.shape, s.data.map (·.getD 0)⟩

end Adv

/-- The values an index array declares: its static shape, integers between its `min()` and `max()`. -/
structure Indexer.Fits (i : Indexer) (y : Arr Rat) : Prop where
  shape : y.shape = i.shape
  wf : y.WF
  values : ∀ v ∈ y.data, v.den = 1 ∧ i.min ≤ v ∧ v ≤ i.max

/-- Index arrays that keep what they declare and have the same size. -/
structure AdvInputs (idx : List (Option Indexer)) (ys : List (Arr Rat)) : Prop where
  fits : List.Forall₂ Indexer.Fits idx.reduceOption ys
  sizes : ∀ y ∈ ys, y.data.length = (ys.headD ⟨[], []⟩).data.length

/-- The node when the indexed array is not a constant: its operands are the indexed array and the index arrays. -/
@[reducible] def advNode (idx : List (Option Indexer)) (P : Adv) : NodeSem (Arr Rat) (List (Update Rat)) where
  σ := AdvState
  f := fun xs => ⟨P.shape, P.select (xs.headD ⟨[], []⟩) xs.tail⟩
  ok := fun xs => ∃ x ys, xs = x :: ys ∧ x.shape = P.operand ∧ x.WF ∧ AdvInputs idx ys
  init := fun xs =>
    match xs with
    | x :: ys => P.init true x ys
    | [] => .ub
  propagate := fun s ins =>
    match ins with
    | (x, d) :: ins => P.propagate s x d ins
    | [] => .ub
  commit := fun s => .ok s.commit
  revert := fun s => s.revert
  view := P.view
  diff := fun s => s.diff

/-- The node when the indexed array is a constant (indexing.cpp 625-628): it never changes, and the reverse lookup is not
maintained.  The operands are the index arrays. -/
@[reducible] def advConstantNode (idx : List (Option Indexer)) (P : Adv) (x : Arr Rat) :
    NodeSem (Arr Rat) (List (Update Rat)) where
  σ := AdvState
  f := fun ys => ⟨P.shape, P.select x ys⟩
  ok := fun ys => AdvInputs idx ys
  init := fun ys => P.init false x ys
  propagate := fun s ins => P.propagate s x [] ins
  commit := fun s => .ok s.commit
  revert := fun s => s.revert
  view := P.view
  diff := fun s => s.diff

end Verif
