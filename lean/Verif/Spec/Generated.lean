import Verif.Model.Script
import Verif.Model.Objective
import Verif.Model.History
import Verif.Model.LazyState
import Verif.Props.Graph

/-!
# What it means that a generated model encodes a problem

A problem has solutions, each with a cost, some of them feasible.  A model encodes it if in every state its decisions show one of
the solutions, its objective is that solution's cost, and its constraints hold exactly if that solution is feasible; and every
solution can be set.
-/

namespace Verif

open Graph

/-- A problem: the solutions `valid`, how the decisions of the model show a solution (by number of the symbol), what it costs, and
whether it is feasible. -/
structure Problem (α : Type) where
  valid : α → Prop
  values : α → Nat → Val
  cost : α → Rat
  feasible : α → Prop

/-- What the symbols show in a state. -/
def Script.shown (s : Script) (st : St s.sem) : Nat → Val := fun v => (s.sem v).view (st v)

/-- The values `vals` of the symbols of the graph `g` represent the solution `a`: the decisions show it, `energy` is its cost, and
`feasible` says whether it is feasible. -/
structure Problem.Represents {α : Type} (p : Problem α) (g : Graph) (vals : Nat → Val) (a : α) : Prop where
  valid : p.valid a
  decisions : ∀ d ∈ g.decisions, vals d = p.values a d
  energy : g.energy vals = .ok (p.cost a)
  feasible : ∃ b, g.feasible vals = .ok b ∧ (b = true ↔ p.feasible a)

/-- The state obtained by giving the decisions the values `A` and initialising all symbols. -/
def Script.Starts (s : Script) (g : Graph) (A : Nat → Val) (st : St s.sem) : Prop :=
  ∃ f, initAll g s.sem A PState.empty = .ok f ∧ ∀ v ∈ g.nodes, f.cell v = some (st v)

/-- Values the decisions accept. -/
def Script.Accepts (s : Script) (g : Graph) (A : Nat → Val) : Prop := ∀ d ∈ g.decisions, (s.sem d).ok [A d]

/-- The model can be built and locked.  Every solution can be set, and then the state represents it; every state that can be set
represents a solution. -/
structure Generated.Encodes {α : Type} (M : Generated) (p : Problem α) (m : PyModel) : Prop where
  built : PyModel.new.run M.ops = .ok m
  locked : 0 < lockDepth M.ops
  sets : ∀ a, p.valid a → M.rows.Accepts m.g (p.values a) ∧
    ∃ st, M.rows.Starts m.g (p.values a) st ∧ p.Represents m.g (M.rows.shown st) a
  states : ∀ A, M.rows.Accepts m.g A → ∃ st a, M.rows.Starts m.g A st ∧ p.Represents m.g (M.rows.shown st) a

/-- Moreover, after every history of proposals the state represents a solution, and so does the state which the acceptance function
sees in the next proposal: it shows the moved decisions. -/
structure Generated.Tracks {α : Type} (M : Generated) (p : Problem α) (m : PyModel) : Prop extends Generated.Encodes M p m where
  history : ∀ A st, M.rows.Accepts m.g A → M.rows.Starts m.g A st →
    ∀ ps : List (Proposal M.rows.sem (List Move)), (∀ q ∈ ps, (q.moves.map Prod.fst).Nodup ∧ ∀ d ∈ q.moves.map Prod.fst, d ∈ m.g.decisions) →
    ∀ r, Graph.history m.g [] M.rows.sem M.rows.act (st, fun _ => false) ps = .ok r →
    (∃ a, p.Represents m.g (M.rows.shown r.1) a) ∧
    ∀ q : Proposal M.rows.sem (List Move), ((q.moves.map Prod.fst).Nodup ∧ ∀ d ∈ q.moves.map Prod.fst, d ∈ m.g.decisions) →
    ∀ moved, q.moves.foldlM (moveOne M.rows.sem M.rows.act) r.1 = .ok moved →
    ∃ (seen : St M.rows.sem) (r' : St M.rows.sem × (Int → Bool)),
      Graph.history m.g [] M.rows.sem M.rows.act (st, fun _ => false) (ps ++ [q]) = .ok r' ∧
      (∃ a, p.Represents m.g (M.rows.shown seen) a) ∧
      (∀ d ∈ m.g.decisions, M.rows.shown seen d = M.rows.shown moved d) ∧
      ∀ v ∈ m.g.nodes, M.rows.shown r'.1 v = if q.accept seen = true then M.rows.shown seen v else M.rows.shown r.1 v

end Verif
