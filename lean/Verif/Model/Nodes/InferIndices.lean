import Verif.Model.Nodes.BasicIndexing

/-!
# Model of `BasicIndexingNode::infer_indices` (/repo/dwave/optimization/src/nodes/indexing.cpp 1117-1173)
and of the way its result is saved and loaded (/repo/dwave/optimization/symbols.pyx 609-650)
-/

namespace Verif

/-- The loop over the indexed array's axes, indexing.cpp 1147-1170.  The lists are the rest of the array's shape and
strides and the rest of the view's shape and strides; `fewer` is `view_ndim < array_ndim`; `flat` is `flat_start`. -/
def inferAxes (fewer : Bool) : List Int → List Int → List Int → List Int → Int → Res (List SliceOrInt)
  | d :: shape, st :: strides, k :: vshape, v :: vstrides, flat => do
    guardUB (st.tdiv 8 ≠ 0)
    if v < st then do
      guardUB (fewer = true)
      let rest ← inferAxes fewer shape strides (k :: vshape) (v :: vstrides) (flat.tmod (st.tdiv 8))
      .ok (.int (flat.tdiv (st.tdiv 8)) :: rest)
    else do
      guardUB (st ≠ 0)
      guardUB (IsSS (k * v.tdiv st))
      guardUB (IsSS (flat.tdiv (st.tdiv 8) + k * v.tdiv st))
      let s ← Slice.make (some (flat.tdiv (st.tdiv 8))) (some (flat.tdiv (st.tdiv 8) + k * v.tdiv st)) (some (v.tdiv st))
      let rest ← inferAxes fewer shape strides vshape vstrides (flat.tmod (st.tdiv 8))
      .ok (.slice (s.fit d) :: rest)
  | _ :: shape, st :: strides, vshape, vstrides, flat => do
    guardUB (st.tdiv 8 ≠ 0)
    guardUB (fewer = true)
    let rest ← inferAxes fewer shape strides vshape vstrides (flat.tmod (st.tdiv 8))
    .ok (.int (flat.tdiv (st.tdiv 8)) :: rest)
  | _, _, _, _, _ => .ok []

/-- `infer_indices`, indexing.cpp 1117-1173, for a view of an array of the given shape. -/
def inferIndices (shape : List Int) (P : Parsed) : Res (List SliceOrInt) := do
  guardUB (P.shape.length ≤ shape.length)
  if P.dynamic then do
    let rest ← inferAxes (decide (P.shape.length < shape.length)) (shape.drop 1) ((shapeToStrides shape).drop 1)
      (P.shape.drop 1) (P.strides.drop 1) P.start
    .ok (.slice P.slice :: rest)
  else inferAxes (decide (P.shape.length < shape.length)) shape (shapeToStrides shape) P.shape P.strides P.start

/-- What is written to and read from the file: three numbers for a slice, symbols.pyx 614-618, 632-648. -/
def SliceOrInt.toIndex : SliceOrInt → BasicIndex
  | .int i => .at i
  | .slice s => .slice (some s.start) (some s.stop) (some s.step)

/-- The indices a basic-indexing symbol reports, `_infer_indices`, symbols.pyx 622-640. -/
def reportedIndices (shape : List Int) (P : Parsed) : Res (List BasicIndex) := do
  let out ← inferIndices shape P
  .ok (out.map SliceOrInt.toIndex)

end Verif
