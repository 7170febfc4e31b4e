import Verif.Lemmas.NodeBase

/-! Helper lemmas: symbols whose operands report changes in different ways. -/

namespace Verif

variable {V D : Type}

/-- Operands that had the values `xs`, now have the values `ys`, and say so, each in its own way. -/
inductive InsWith : List (V → D → V → Prop) → List V → List (V × D) → List V → Prop
  | nil : InsWith [] [] [] []
  | cons {rel rels x d y xs ins ys} : rel x d y → InsWith rels xs ins ys → InsWith (rel :: rels) (x :: xs) ((y, d) :: ins) (y :: ys)

/-- All in the same way. -/
theorem InsWith.same {α : Type} {rel : V → D → V → Prop} : ∀ {as : List α} {xs : List V} {ins : List (V × D)} {ys : List V},
    InsWith (as.map fun _ => rel) xs ins ys → Ins rel xs ins ys
  | [], _, _, _, h => by cases h; exact .nil
  | _ :: as, _, _, _, h => by
    cases h with
    | cons h1 h2 => exact .cons h1 h2.same

/-- All in ways that imply another. -/
theorem InsWith.weaken {rel : V → D → V → Prop} {rels : List (V → D → V → Prop)} (hr : ∀ r ∈ rels, ∀ x d y, r x d y → rel x d y)
    {xs : List V} {ins : List (V × D)} {ys : List V} (h : InsWith rels xs ins ys) : Ins rel xs ins ys := by
  induction h with
  | nil => exact .nil
  | cons h1 _ ih => exact .cons (hr _ (by simp) _ _ _ h1) (ih fun r h => hr r (by simp [h]))

namespace Settled

variable {quiet : D} {N : NodeSem V D}

/-- `Propagates`, where operands report changes in the ways `rels`, and the symbol itself in the way `rel`. -/
def PropagatesWith (rels : List (V → D → V → Prop)) (rel : V → D → V → Prop) (C : Settled quiet N) : Prop :=
  ∀ {s xs ins ys}, C.Clean s xs → N.ok xs → N.ok ys → InsWith rels xs ins ys →
    ∃ s', N.propagate s ins = .ok s' ∧ N.view s' = N.f ys ∧ rel (N.f xs) (N.diff s') (N.f ys) ∧
      (∃ c, N.commit s' = .ok c ∧ C.Clean c ys) ∧ (∃ r, N.revert s' = .ok r ∧ C.Clean r xs)

theorem Propagates.same {α : Type} {rel : V → D → V → Prop} {C : Settled quiet N} (h : C.Propagates rel) (as : List α) :
    C.PropagatesWith (as.map fun _ => rel) rel := fun h1 h2 h3 h4 => h h1 h2 h3 h4.same

theorem Propagates.with {rel : V → D → V → Prop} {C : Settled quiet N} (h : C.Propagates rel) {rels : List (V → D → V → Prop)}
    (hr : ∀ r ∈ rels, ∀ x d y, r x d y → rel x d y) : C.PropagatesWith rels rel :=
  fun h1 h2 h3 h4 => h h1 h2 h3 (h4.weaken hr)

theorem PropagatesWith.weaken {rel rel' : V → D → V → Prop} {rels : List (V → D → V → Prop)} {C : Settled quiet N}
    (h : C.PropagatesWith rels rel) (hr : ∀ x d y, rel x d y → rel' x d y) : C.PropagatesWith rels rel' := by
  intro s xs ins ys h1 h2 h3 h4
  obtain ⟨s', e, hv, hd, hc⟩ := h h1 h2 h3 h4
  exact ⟨s', e, hv, hr _ _ _ hd, hc⟩

end Settled
end Verif
