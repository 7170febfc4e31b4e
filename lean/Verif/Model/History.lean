import Verif.Model.Propose

/-!
# Histories of proposals (/repo/dwave/optimization/src/graph.cpp 285-299)

A user moves some decisions, then proposes the moves with an acceptance function; and so on.
-/

namespace Verif
namespace Graph

variable {V D M : Type}

/-- One proposal: what is done to which decisions, and the acceptance function.  The decisions moved are
handed to `propose` as sources. -/
structure Proposal (sem : Nat → NodeSem V D) (M : Type) where
  moves : List (Nat × M)
  accept : St sem → Bool

/-- The user moves one decision. -/
def moveOne (sem : Nat → NodeSem V D) (act : (v : Nat) → M → (sem v).σ → Res (sem v).σ) (st : St sem)
    (p : Nat × M) : Res (St sem) := do
  let s ← act p.1 p.2 (st p.1)
  .ok (st.set p.1 s)

/-- Move, then `propose`.  The marks are the members `visited` of the nodes' states, which stay with the
state. -/
def proposal [DecidableEq D] (g : Graph) (quiet : D) (sem : Nat → NodeSem V D)
    (act : (v : Nat) → M → (sem v).σ → Res (sem v).σ) (s : St sem × (Int → Bool)) (p : Proposal sem M) :
    Res (St sem × (Int → Bool)) := do
  let st ← p.moves.foldlM (moveOne sem act) s.1
  let r ← g.propose quiet sem st s.2 (p.moves.map Prod.fst) p.accept
  .ok (r.1, r.2.1)

/-- A history. -/
def history [DecidableEq D] (g : Graph) (quiet : D) (sem : Nat → NodeSem V D)
    (act : (v : Nat) → M → (sem v).σ → Res (sem v).σ) (s : St sem × (Int → Bool))
    (ps : List (Proposal sem M)) : Res (St sem × (Int → Bool)) :=
  ps.foldlM (proposal g quiet sem act) s

end Graph
end Verif
