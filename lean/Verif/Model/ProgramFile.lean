import Verif.Model.Archive
import Verif.Model.Getitem
import Verif.Model.Programs
import Verif.Model.Nodes.InferIndices

/-!
# Saving and loading programs with indexing symbols
(/repo/dwave/optimization/_model.pyx 112-359, symbols.pyx `_into_zipfile`, `_from_zipfile`)

As `Model/Archive.lean`, for all symbols of `Model/Script.lean`: the symbols of the catalog, slices, arrays indexed by arrays and
permutations.  The header and the states are in `Model/ProgramStates.lean`.
-/

namespace Verif

/-- A line of `nodetypes.txt`. -/
inductive TypeName where
  | catalog (c : ClassName)
  | basicIndexing
  | advancedIndexing
  | permutation

/-- What is in the directory of a symbol. -/
inductive SymbolFiles where
  | catalog (p : Payload)
  /-- `indices.json` of `BasicIndexing`: numbers and triples -/
  | indices (idx : List BasicIndex)
  /-- `indices.json` of `AdvancedIndexing`: numbers of symbols, and triples for empty slices -/
  | places (l : List (Option Int))

/-- A saved program. -/
structure ProgramFile where
  /-- `nodetypes.txt` -/
  types : List TypeName
  /-- `adj.adjlist` -/
  adj : List Char
  /-- `nodes/<i>/` -/
  files : Nat → SymbolFiles
  objective : Option Int
  constraints : List Int

/-- The kind of a symbol of the catalog; all other symbols are arrays that are neither decisions nor constants. -/
def Built.asKind : Built → Kind
  | .kind k => k
  | _ => .size

/-- Whether it is a `Reshape`. -/
def Kind.isReshape : Kind → Bool
  | .reshape _ => true
  | _ => false

/-- The symbols in the terms of `Model/Archive.lean`. -/
def Script.symbols (s : Script) : Symbols := ⟨fun i => (s.row i).built.asKind, fun i => (s.row i).out.shapes⟩

namespace Generated

/-- The program together with its graph. -/
def draft (M : Generated) (m : PyModel) : Draft := ⟨m, M.rows.symbols⟩

/-- The indices of `AdvancedIndexing` in the file, symbols.pyx 535-545; `ps` are the topological indices of the index arrays. -/
def places : List (Option Indexer) → List Int → List (Option Int)
  | [], _ => []
  | none :: idx, ps => none :: places idx ps
  | some _ :: idx, ps => some (ps.headD 0) :: places idx ps.tail

/-- `_into_zipfile`: `BasicIndexing` symbols.pyx 642-650, `AdvancedIndexing` 528-547, `Permutation` saves nothing; the others as in
`Kind.saved`. -/
def itemOf (M : Generated) (m : PyModel) (isList : Nat → Bool) (v : Nat) : Res (TypeName × SymbolFiles) :=
  match (M.rows.row v).built with
  | .kind k =>
    let r := k.saved (isList v) (M.rows.row ((M.rows.row v).ops.headD 0)).built.asKind (M.rows.row v).out.shape
    .ok (.catalog r.1, .catalog r.2)
  | .basic sh _ P => do
    let idx ← reportedIndices sh P
    .ok (.basicIndexing, .indices idx)
  | .advanced idx _ _ => .ok (.advancedIndexing, .places (places idx ((M.rows.row v).ops.tail.map (M.draft m).pos)))
  | .permutation _ => .ok (.permutation, .catalog .nothing)

/-- `into_file` of a locked model, _model.pyx 236-359, without states and header; `m` is its graph. -/
def save (M : Generated) (m : PyModel) (isList : Nat → Bool) : Res ProgramFile := do
  let items ← m.g.nodes.mapM (M.itemOf m isList)
  .ok {
    types := items.map Prod.fst
    adj := m.g.nodes.flatMap fun v =>
      adjLine ((M.draft m).pos v).toNat ((m.g.mem v).preds.map fun p => ((M.draft m).pos p).toNat)
    files := fun i => (items.getD i (.permutation, .catalog .nothing)).2
    objective := m.g.objective.map (M.draft m).pos
    constraints := m.g.constraints.map (M.draft m).pos }

end Generated

namespace Script

/-- A constructor of the catalog, called from Python: operands that are not arrays are refused, and so are arrays that are not
contiguous by `Reshape` (manipulation.cpp 179-180). -/
def construct (s : Script) (k : Kind) (preds : List Nat) : Res Script := do
  guardThrow (k.typed (preds.map fun p => (s.row p).built.asKind) = true)
  guardThrow (k.isReshape = true → ∀ p ∈ preds, (s.row p).built.contiguous = true)
  let r ← s.add (.kind k) preds
  .ok r.1

/-- `DisjointBitSet(parent, index)` and `DisjointList(parent, index)`, symbols.pyx 1216-1238, 1468-1490, as `Draft.loadPart`. -/
def loadPart (s : Script) (cls : ClassName) (i : Int) (preds : List Nat) : Res Script := do
  guardThrow (preds.length = 1)
  guardThrow (Draft.partOf cls (s.row (preds.headD 0)).built.asKind = true)
  guardThrow (0 ≤ i ∧ i < (s.row (preds.headD 0)).built.asKind.numParts)
  guardThrow (i ≤ s.countP fun r => preds.headD 0 ∈ r.ops)
  if i = s.countP fun r => preds.headD 0 ∈ r.ops then s.construct (.output i.toNat) preds else .ok s

/-- `x.array_ptr.logical()`, which only quadratic models ask for, symbols.pyx 2636; asked for here before the other checks. -/
def askLogical (s : Script) (cls : ClassName) (preds : List Nat) : Res Claim :=
  match cls with
  | .quadraticModel => (s.row (preds.headD 0)).out.claim
  | _ => .ok ⟨.default, false⟩

/-- A symbol of the catalog, as `Draft.loadSymbol`. -/
def loadCatalog (s : Script) (cls : ClassName) (pay : Payload) (preds : List Nat) : Res Script :=
  match cls, pay with
  | .disjointList, .index i => s.loadPart .disjointList i preds
  | .disjointBitSet, .index i => s.loadPart .disjointBitSet i preds
  | cls, pay => do
    let c ← s.askLogical cls preds
    let k ← Draft.loadKind ⟨PyModel.new, s.symbols⟩ (fun _ => c) cls pay preds
    s.construct k preds

/-- An array among the symbols: an `ArraySymbol` argument of a constructor. -/
def arrayArg (s : Script) (p : Nat) : Res Unit := guardThrow ((s.row p).built.asKind.isArray = true)

/-- An index of `AdvancedIndexing`, symbols.pyx 515-524, 445-456: `nodes()[index]` is not checked. -/
def loadPlace (s : Script) : Option Int → Res (Option Nat)
  | none => .ok none
  | some t => do
    guardUB (0 ≤ t ∧ t.toNat < s.length)
    s.arrayArg t.toNat
    .ok (some t.toNat)

/-- Whether a symbol is a list; a set that always holds all values counts as one here. -/
def isFullList (s : Script) (p : Nat) : Bool :=
  match (s.row p).built.asKind with
  | .collection n lo hi => lo = n ∧ hi = n
  | _ => false

/-- `_from_zipfile`: `BasicIndexing` symbols.pyx 609-620, `AdvancedIndexing` 511-526, `Permutation` by `Symbol._from_zipfile`
(_model.pyx 729-749) with the argument types of its constructor. -/
def loadSymbol (s : Script) (ty : TypeName) (files : SymbolFiles) (preds : List Nat) : Res Script :=
  match ty, files with
  | .catalog cls, .catalog pay => s.loadCatalog cls pay preds
  | .basicIndexing, .indices idx => do
    guardThrow (preds.length = 1)
    s.arrayArg (preds.headD 0)
    let r ← s.basicIndexing (preds.headD 0) idx
    .ok r.1
  | .advancedIndexing, .places l => do
    let idx ← l.mapM s.loadPlace
    guardThrow (preds ≠ [])
    s.arrayArg (preds.headD 0)
    let r ← s.advancedIndexing (preds.headD 0) idx
    .ok r.1
  | .permutation, _ => do
    guardThrow (preds.length = 2)
    guardThrow ((s.row (preds.headD 0)).out.const.isSome = true)
    guardThrow (s.isFullList (preds.getD 1 0) = true)
    let r ← s.add .permutation preds
    .ok r.1
  | _, _ => .throw

/-- An operand given by its number in the file, _model.pyx 164-168. -/
def loadOperand (s : Script) (id p : Int) : Res Nat := do
  guardThrow (0 ≤ p ∧ p < id)
  guardUB (p.toNat < s.length)
  .ok p.toNat

/-- One turn of the loop _model.pyx 157-181. -/
def loadLine (files : Nat → SymbolFiles) (s : Script) (l : (TypeName × List Char) × Nat) : Res Script := do
  let ids ← Draft.orThrow (parseLine l.1.2)
  guardThrow (ids.headD (-1) = l.2)
  let preds ← ids.tail.mapM (s.loadOperand (ids.headD (-1)))
  s.loadSymbol l.1.1 (files l.2) preds

end Script

namespace Generated

/-- _model.pyx 183-188: a negative number passes the check. -/
def loadObjective (M : Generated) : Option Int → Res Generated
  | none => .ok M
  | some i => do
    guardThrow (i < M.rows.length)
    guardUB (0 ≤ i)
    M.rows.arrayArg i.toNat
    M.minimize i.toNat

/-- _model.pyx 190-191: the numbers are not checked. -/
def loadConstraint (M : Generated) (i : Int) : Res Generated := do
  guardUB (0 ≤ i ∧ i.toNat < M.rows.length)
  M.rows.arrayArg i.toNat
  M.addConstraint i.toNat

end Generated

/-- `from_file`, _model.pyx 139-191. -/
def ProgramFile.load (F : ProgramFile) : Res Generated := do
  let s ← (F.types.zip (splitLines F.adj)).zipIdx.foldlM (Script.loadLine F.files) []
  let M ← Generated.loadObjective ⟨s, none, []⟩ F.objective
  F.constraints.foldlM Generated.loadConstraint M

end Verif
