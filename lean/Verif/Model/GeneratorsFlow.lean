import Verif.Model.GeneratorsDisjoint

/-!
# The generator of flow-shop scheduling models

`flow_shop_scheduling`, `dwave/optimization/generators.py`; see `Verif.Model.Generators` for what is simplified.
-/

namespace Verif

namespace Generators

/-- `times[machine_m, :][order[job_j]]`. -/
def flowTerm (times order : Nat) (s : Script) (m j : Nat) : Res (Script × Nat) := do
  let (s, row) ← s.add (.basic [.at m, .slice none none none]) [times]
  let (s, job) ← s.add (.basic [.at j]) [order]
  s.add (.advanced [true]) [row, job]

/-- The loop over the jobs on the first machine, generators.py 719-727: the list are the end times on this machine so far. -/
def flowFirst (times order : Nat) (p : Script × List Nat) (j : Nat) : Res (Script × List Nat) := do
  let (s, x) ← flowTerm times order p.1 0 j
  if j = 0 then .ok (s, p.2 ++ [x])
  else do
    let (s, e) ← s.iadd x (p.2.getLastD 0)
    .ok (s, p.2 ++ [e])

/-- The symbol to which the time on the machine is added, generators.py 733, 737. -/
def flowReady (before : List Nat) (p : Script × List Nat) (j : Nat) : Res (Script × Nat) :=
  if j = 0 then .ok (p.1, before.getD 0 0)
  else p.1.add (.kind (.binary .maximum)) [before.getD j 0, p.2.getLastD 0]

/-- The loop over the jobs on the other machines, generators.py 729-739, where `before` are the end times on the machine before.  `+=`
changes the symbol on its left if that is a sum already. -/
def flowNext (times order m : Nat) (before : List Nat) (p : Script × List Nat) (j : Nat) : Res (Script × List Nat) := do
  let (s, e) ← flowReady before p j
  let (s, x) ← flowTerm times order s m j
  let (s, e) ← s.iadd e x
  .ok (s, p.2 ++ [e])

/-- The loop over the machines, generators.py 716-741; of the end times those on the last machine are kept. -/
def flowMachine (times order jobs : Nat) (p : Script × List Nat) (m : Nat) : Res (Script × List Nat) :=
  if m = 0 then (List.range jobs).foldlM (flowFirst times order) (p.1, [])
  else (List.range jobs).foldlM (flowNext times order m p.2) (p.1, [])

/-- `flow_shop_scheduling`, generators.py 658-750. -/
def flowShop (times : Arr Rat) : Res Generated := do
  let T ← require 2 false true false times
  guardThrow (T.shape.prod ≠ 0)
  let machines := (T.shape.getD 0 0).toNat
  let jobs := (T.shape.getD 1 0).toNat
  let (s, t) ← Script.add [] (.kind (.constant T)) []
  let (s, order) ← s.add (.kind (.collection jobs jobs jobs)) []
  let (s, ends) ← (List.range machines).foldlM (flowMachine t order jobs) (s, [])
  Generated.minimize ⟨s, none, []⟩ (ends.getLastD 0)

end Generators
end Verif
