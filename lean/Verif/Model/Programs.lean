import Verif.Model.Script

/-!
# Programs: any sequence of symbols, then objective and constraints

A program is what a user writes to build a model: symbols of the catalog and indexing symbols, each with the numbers of the symbols
it is made of, then `minimize` and `add_constraint`.
-/

namespace Verif

/-- A program. -/
structure Script.Program where
  steps : List (Term × List Nat)
  objective : Option Nat
  constraints : List Nat

namespace Script

/-- The constructors, one after the other, `_graph.pyx` / `symbols.pyx`: every call emplaces one node. -/
def run (steps : List (Term × List Nat)) : Res Script :=
  steps.foldlM (fun s p => do
    let r ← s.add p.1 p.2
    .ok r.1) []

/-- The objective: `minimize` (_model.pyx 449-463) may be left out. -/
def withObjective (s : Script) : Option Nat → Res Generated
  | some o => (⟨s, none, []⟩ : Generated).minimize o
  | none => .ok ⟨s, none, []⟩

/-- The whole program. -/
def Program.run (p : Program) : Res Generated := do
  let s ← Script.run p.steps
  let M ← s.withObjective p.objective
  p.constraints.foldlM Generated.addConstraint M

end Script
end Verif
