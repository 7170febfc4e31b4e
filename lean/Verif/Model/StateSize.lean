import Verif.Model.Equality

/-! # `state_size`: _model.pyx 95-108, 621-636, 1022-1043, 1472-1502 -/

namespace Verif
namespace Script

/-- What a dynamic symbol says about its size, followed through as many symbols as the model has, _model.pyx 1489-1494. -/
def followedSize (s : Script) (i : Nat) : Res SizeInfo :=
  if (s.sizes i).array ≠ some i then (s.sizes i).substitute s.sizes s.length else .ok (s.sizes i)

/-- "size is unbounded", _model.pyx 1497-1500. -/
def sizeOfMax : Option Int → Res Int
  | none => .throw
  | some m => .ok (m * 8)

/-- `state_size()` of a symbol of the model that consists of the symbols of `s`: `Symbol.state_size`, _model.pyx 1043, and
`ArraySymbol.state_size`, 1484-1502.  `itemsize()` is 8. -/
def stateSize (s : Script) (i : Nat) : Res Int :=
  if (s.row i).built.pyClass.isArray = false then .ok 0
  else if dynamicShape (s.row i).out.shape = false then .ok ((s.row i).out.shape.prod * 8)
  else do
    let info ← s.followedSize i
    sizeOfMax info.max

/-- The sum of the sizes of some symbols. -/
def stateSizes (s : Script) (is : List Nat) : Res Int := do
  let sizes ← is.mapM s.stateSize
  .ok sizes.sum

/-- `Model.state_size`, _model.pyx 636. -/
def modelStateSize (s : Script) : Res Int := s.stateSizes (List.range s.length)

/-- `Model.decision_state_size`, _model.pyx 108. -/
def decisionStateSize (s : Script) : Res Int := s.stateSizes ((List.range s.length).filter fun i => (s.row i).decision)

end Script
end Verif
