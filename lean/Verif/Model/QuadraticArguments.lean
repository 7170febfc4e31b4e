import Verif.Model.Archive

/-!
# Model of the arguments of `quadratic_model`
(/repo/dwave/optimization/symbols.pyx 2561-2707, model.py 356-380)

Numbers are exact.  Simplifications: keys of dictionaries are pairs of integers (others raise exceptions), arrays of indices are NumPy
arrays of 64-bit integers or of floating point numbers, and the model is not locked.
-/

namespace Verif

/-- The symbol `x`: its shape and whether all its values are 0 or 1 (`x.array_ptr.logical()`). -/
structure QuadOperand where
  shape : List Int
  logical : Bool
  deriving DecidableEq

/-- The argument `linear`. -/
inductive LinearArg where
  | none
  /-- a dictionary, its items in order -/
  | dict (d : List (Int × Rat))
  /-- a one-dimensional array, or what NumPy makes one of -/
  | array (l : List Rat)
  | other
  deriving DecidableEq

/-- An array of coordinates with the given number of columns; one-dimensional arrays count as one row (`np.atleast_2d`). -/
inductive CoordArray where
  | ints (cols : Nat) (rows : List (List Int))
  | floats (cols : Nat) (rows : List (List Rat))
  | other
  deriving DecidableEq

/-- The argument `quadratic`. -/
inductive QuadArg where
  /-- a dictionary, its items in order -/
  | dict (d : List ((Int × Int) × Rat))
  /-- a tuple `(data, coords)` -/
  | coords (data : List Rat) (c : CoordArray)
  /-- a tuple that does not have two elements -/
  | tuple
  | other
  deriving DecidableEq

/-- The conversion of a 64-bit integer to `int`, which has 32 bits. -/
def toIntc (k : Int) : Int := k.bmod (2 ^ 32)

/-- The conversion of a floating point number to `int`: the part after the point is dropped, and numbers beyond the range are undefined. -/
def truncIntc (r : Rat) : Res Int := do
  guardUB (-2 ^ 31 ≤ r.num.tdiv r.den ∧ r.num.tdiv r.den < 2 ^ 31)
  .ok (r.num.tdiv r.den)

/-- `np.ascontiguousarray(np.atleast_2d(quadratic[1]), dtype=np.intc)`, symbols.pyx 2606: the number of columns and the rows. -/
def CoordArray.convert : CoordArray → Res (Nat × List (List Int))
  | .ints cols rows => .ok (cols, rows.map fun r => r.map toIntc)
  | .floats cols rows => do
    let rows ← rows.mapM fun r => r.mapM truncIntc
    .ok (cols, rows)
  | .other => .throw

/-- `coords[0, i]`, `coords[1, i]` and `data[i]` for all `i`, symbols.pyx 2632-2638, where `boundscheck` is off (2581): with fewer than two
rows the second coordinate is read beyond the array. -/
def coordTerms (rows : List (List Int)) (data : List Rat) : Res (List (Int × Int × Rat)) :=
  match rows with
  | us :: vs :: _ => .ok (us.zip (vs.zip data))
  | _ => .ub

/-- The quadratic model and the node, symbols.pyx 2622-2640, with the check of the node's constructor. -/
def makeQuadratic (x : QuadOperand) (linear : List Rat) (terms : List (Int × Int × Rat)) : Res QModel := do
  let q ← QModel.build (toIntc x.shape.prod) (Draft.loadedBiases x.logical linear terms)
  let _ ← quadraticShape q x.shape
  .ok q

/-- `_init_from_coords` once the arguments are arrays, symbols.pyx 2583-2640. -/
def initFromCoords (x : QuadOperand) (linear data : List Rat) (cols : Nat) (rows : List (List Int)) : Res QModel := do
  guardThrow ((linear.length : Int) ≤ x.shape.prod)
  guardThrow (data.length = cols)
  guardThrow (1 ≤ data.length)
  guardThrow (rows ≠ [])  -- `min()` of an empty array
  guardThrow (∀ r ∈ rows, ∀ k ∈ r, 0 ≤ k)
  guardThrow (∀ r ∈ rows, ∀ k ∈ r, k < x.shape.prod)
  let terms ← coordTerms rows data
  makeQuadratic x linear terms

/-- `ldata[v] += bias` for the items of `linear`, symbols.pyx 2650-2664; `boundscheck` is on and `wraparound` is off. -/
def addItems : List Rat → List (Int × Rat) → Res (List Rat)
  | l, [] => .ok l
  | l, (v, b) :: d => do
    guardThrow (0 ≤ v ∧ v < l.length)
    addItems (l.modify v.toNat (· + b)) d

/-- `linear` for `_init_from_qubo`, symbols.pyx 2650-2664. -/
def LinearArg.forQubo (n : Nat) : LinearArg → Res (List Rat)
  | .none => .ok (List.replicate n 0)
  | .dict d => addItems (List.replicate n 0) d
  | _ => .throw

/-- `linear` for `_init_from_coords`, symbols.pyx 2587-2592. -/
def LinearArg.forCoords : LinearArg → Res (List Rat)
  | .none => .ok []
  | .array l => .ok l
  | _ => .throw

/-- `cdef Py_ssize_t u, v` in the loop of `_init_from_qubo`. -/
def fitsSsize (k : Int) : Prop := -2 ^ 63 ≤ k ∧ k < 2 ^ 63

instance (k : Int) : Decidable (fitsSsize k) := by unfold fitsSsize; infer_instance

/-- `_init_from_qubo`, symbols.pyx 2643-2682. -/
def initFromQubo (x : QuadOperand) (d : List ((Int × Int) × Rat)) (linear : LinearArg) : Res QModel := do
  let l ← linear.forQubo x.shape.prod.toNat
  guardThrow (∀ t ∈ d, fitsSsize t.1.1 ∧ fitsSsize t.1.2)
  initFromCoords x l (d.map Prod.snd) d.length [d.map fun t => toIntc t.1.1, d.map fun t => toIntc t.1.2]

/-- `QuadraticModel(x, quadratic, linear)`, symbols.pyx 2561-2579. -/
def pyQuadratic (x : QuadOperand) (quadratic : QuadArg) (linear : LinearArg) : Res QModel := do
  guardThrow (dynamicShape x.shape = false)
  guardThrow (x.shape.length = 1)
  guardThrow (1 ≤ x.shape.prod)
  match quadratic with
  | .dict d => initFromQubo x d linear
  | .coords data c => do
    let l ← linear.forCoords
    let a ← c.convert
    initFromCoords x l data a.1 a.2
  | .tuple => .throw
  | .other => .throw

namespace QModel

/-- `get_linear(v)`, symbols.pyx 2695-2699. -/
def pyGetLinear (q : QModel) (v : Int) : Res Rat := do
  guardThrow (0 ≤ v ∧ v < q.n)
  q.getLinear v.toNat

/-- `get_quadratic(u, v)`, symbols.pyx 2701-2707. -/
def pyGetQuadratic (q : QModel) (u v : Int) : Res Rat := do
  guardThrow (0 ≤ u ∧ u < q.n)
  guardThrow (0 ≤ v ∧ v < q.n)
  q.getQuadratic u.toNat v.toNat

end QModel

end Verif
