import Verif.Model.Blocks

/-!
# Code that leaves unlocking to blocks
-/

namespace Verif
namespace PyCode

/-- The code does not call `unlock()` itself. -/
def LeavesUnlocking : PyCode → Prop
  | .call op => op ≠ .unlock
  | .seq a b => a.LeavesUnlocking ∧ b.LeavesUnlocking
  | .attempt a b => a.LeavesUnlocking ∧ b.LeavesUnlocking
  | .withLock a => a.LeavesUnlocking
  | .withKept _ a => a.LeavesUnlocking
  | _ => True

/-- The code locks and unlocks with `with model.lock():` only. -/
def OnlyBlocks : PyCode → Prop
  | .call op => op ≠ .unlock ∧ op ≠ .lock
  | .seq a b => a.OnlyBlocks ∧ b.OnlyBlocks
  | .attempt a b => a.OnlyBlocks ∧ b.OnlyBlocks
  | .withLock a => a.OnlyBlocks
  | .keep _ => False
  | .withKept _ _ => False
  | _ => True

end PyCode

/-- The symbols (in this order), the decisions and the operands are the same. -/
structure SameSymbols (m m' : PyModel) : Prop where
  nodes : m'.g.nodes = m.g.nodes
  decisions : m'.g.decisions = m.g.decisions
  preds : ∀ v, (m'.g.mem v).preds = (m.g.mem v).preds
  succs : ∀ v, (m'.g.mem v).succs = (m.g.mem v).succs

end Verif
