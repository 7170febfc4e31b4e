import Verif.Lemmas.ProgramWhole

set_option linter.unusedSectionVars false
set_option linter.unusedSimpArgs false
set_option linter.unusedVariables false

/-! Helper lemmas: programs make the symbols, objective and constraints that they ask for. -/

namespace Verif
namespace Script

theorem indexers_slots {sizes : Nat → SizeInfo} {fuel : Nat} : ∀ {first : Option Nat} {slots : List Bool} {xs : List (Nat × Info)}
    {idx : List (Option Indexer)}, indexers sizes fuel first slots xs = .ok idx → idx.map Option.isSome = slots
  | first, [], [], idx, h => by cases h; rfl
  | first, [], _ :: _, idx, h => by cases h
  | first, false :: slots, xs, idx, h => by
    unfold indexers at h
    obtain ⟨rest, e, h⟩ := Res.bind_eq_ok.1 h
    cases h
    rw [List.map_cons, indexers_slots e]
    rfl
  | first, true :: slots, [], idx, h => by cases h
  | first, true :: slots, (i, info) :: xs, idx, h => by
    unfold indexers at h
    obtain ⟨_, _, h⟩ := Res.bind_eq_ok.1 h
    obtain ⟨_, _, h⟩ := Res.bind_eq_ok.1 h
    obtain ⟨_, _, h⟩ := Res.bind_eq_ok.1 h
    obtain ⟨rest, e, h⟩ := Res.bind_eq_ok.1 h
    cases h
    rw [List.map_cons, indexers_slots e]
    rfl

theorem realises_of_construct {t : Term} {self : Nat} {sizes : Nat → SizeInfo} {ops : List Nat} {ins : List Info} {b : Built × Info}
    (h : t.construct self sizes ops ins = .ok b) : Row.Realises ⟨b.1, ops, ins, b.2⟩ (t, ops) := by
  refine ⟨rfl, ?_⟩
  obtain ⟨b, o⟩ := b
  cases t with
  | kind k =>
    have h : k.construct self sizes ops ins = _ := h
    rw [Kind.construct_eq] at h
    obtain ⟨_, _, h⟩ := Res.bind_eq_ok.1 h
    obtain ⟨_, _, h⟩ := Res.bind_eq_ok.1 h
    obtain ⟨_, _, h⟩ := Res.bind_eq_ok.1 h
    simp only [Res.ok.injEq, Prod.mk.injEq] at h
    exact h.1.symm
  | basic idx =>
    match ops, ins with
    | [], _ => simp [Term.construct] at h
    | _ :: _ :: _, _ => simp [Term.construct] at h
    | [_], [] => simp [Term.construct] at h
    | [_], _ :: _ :: _ => simp [Term.construct] at h
    | [x], [i] =>
      simp only [Term.construct] at h
      obtain ⟨sh, hs, h⟩ := Res.bind_eq_ok.1 h
      obtain ⟨P, hP, h⟩ := Res.bind_eq_ok.1 h
      refine ⟨sh, P, ?_⟩
      cases hax : P.axis0 with
      | none =>
        rw [hax] at h
        obtain ⟨z, hz, h⟩ := Res.bind_eq_ok.1 h
        simp only [Res.ok.injEq, Prod.mk.injEq] at h
        exact h.1.symm
      | some sl =>
        rw [hax] at h
        obtain ⟨z, hz, h⟩ := Res.bind_eq_ok.1 h
        simp only [Res.ok.injEq, Prod.mk.injEq] at h
        exact h.1.symm
  | advanced slots =>
    match ops, ins with
    | [], _ => simp [Term.construct] at h
    | _ :: _, [] => simp [Term.construct] at h
    | x :: xs, i :: is =>
      simp only [Term.construct] at h
      obtain ⟨sh, hs, h⟩ := Res.bind_eq_ok.1 h
      obtain ⟨idx, hidx, h⟩ := Res.bind_eq_ok.1 h
      obtain ⟨z, hz, h⟩ := Res.bind_eq_ok.1 h
      obtain ⟨P, hP, h⟩ := Res.bind_eq_ok.1 h
      simp only [Res.ok.injEq, Prod.mk.injEq] at h
      exact ⟨_, _, _, h.1.symm, indexers_slots hidx⟩
  | permutation =>
    match ops, ins with
    | [], _ => simp [Term.construct] at h
    | [_], _ => simp [Term.construct] at h
    | _ :: _ :: _ :: _, _ => simp [Term.construct] at h
    | [_, _], [] => simp [Term.construct] at h
    | [_, _], [_] => simp [Term.construct] at h
    | [_, _], _ :: _ :: _ :: _ => simp [Term.construct] at h
    | [x, y], [i, o] =>
      simp only [Term.construct] at h
      obtain ⟨_, _, h⟩ := Res.bind_eq_ok.1 h
      obtain ⟨_, _, h⟩ := Res.bind_eq_ok.1 h
      obtain ⟨_, _, h⟩ := Res.bind_eq_ok.1 h
      obtain ⟨_, _, h⟩ := Res.bind_eq_ok.1 h
      simp only [Res.ok.injEq, Prod.mk.injEq] at h
      exact ⟨_, h.1.symm⟩

theorem realises_of_run {steps : List (Term × List Nat)} {s : Script} (h : Script.run steps = .ok s) : List.Forall₂ Row.Realises s steps := by
  have key : ∀ (steps done : List (Term × List Nat)) (s0 s : Script), List.Forall₂ Row.Realises s0 done →
      steps.foldlM (fun s p => do let r ← Script.add s p.1 p.2; Res.ok r.1) s0 = Res.ok s → List.Forall₂ Row.Realises s (done ++ steps) := by
    intro steps
    induction steps with
    | nil =>
      intro done s0 s h0 h
      simp only [List.foldlM_nil, Res.pure_eq, Res.ok.injEq] at h
      rw [List.append_nil]
      exact h ▸ h0
    | cons p steps ih =>
      intro done s0 s h0 h
      rw [List.foldlM_cons] at h
      obtain ⟨s1, h1, h⟩ := Res.bind_eq_ok.1 h
      obtain ⟨r, hr, h1⟩ := Res.bind_eq_ok.1 h1
      simp only [Res.ok.injEq] at h1
      subst h1
      unfold Script.add at hr
      obtain ⟨_, _, hr⟩ := Res.bind_eq_ok.1 hr
      obtain ⟨b, hb, hr⟩ := Res.bind_eq_ok.1 hr
      cases hr
      have := ih (done ++ [p]) _ s (List.rel_append h0 (.cons (realises_of_construct hb) .nil)) h
      rwa [List.append_assoc] at this
  exact key steps [] [] s .nil h

theorem Program.run_same {p : Program} {M : Generated} (h : p.run = .ok M) : M.objective = p.objective ∧ M.constraints = p.constraints := by
  unfold Program.run at h
  obtain ⟨t, e, h⟩ := Res.bind_eq_ok.1 h
  have hfold : ∀ (cs : List Nat) (N N' : Generated), cs.foldlM Generated.addConstraint N = .ok N' →
      N'.objective = N.objective ∧ N'.constraints = N.constraints ++ cs := by
    intro cs
    induction cs with
    | nil =>
      intro N N' h
      simp at h; subst h
      simp
    | cons c cs ih =>
      intro N N' h
      rw [List.foldlM_cons] at h
      obtain ⟨N1, e1, h⟩ := Res.bind_eq_ok.1 h
      unfold Generated.addConstraint at e1
      obtain ⟨_, _, e1⟩ := Res.bind_eq_ok.1 e1
      obtain ⟨_, _, e1⟩ := Res.bind_eq_ok.1 e1
      obtain ⟨_, _, e1⟩ := Res.bind_eq_ok.1 e1
      obtain ⟨_, _, e1⟩ := Res.bind_eq_ok.1 e1
      cases e1
      obtain ⟨h1, h2⟩ := ih _ _ h
      exact ⟨h1, by rw [h2]; simp⟩
  obtain ⟨N, e2, h⟩ := Res.bind_eq_ok.1 h
  have hN : N.objective = p.objective ∧ N.constraints = [] := by
    cases ho : p.objective with
    | none =>
      rw [ho] at e2
      cases e2
      exact ⟨rfl, rfl⟩
    | some o =>
      rw [ho] at e2
      unfold withObjective Generated.minimize at e2
      obtain ⟨_, _, e2⟩ := Res.bind_eq_ok.1 e2
      obtain ⟨_, _, e2⟩ := Res.bind_eq_ok.1 e2
      cases e2
      exact ⟨rfl, rfl⟩
  obtain ⟨h1, h2⟩ := hfold _ _ _ h
  exact ⟨h1.trans hN.1, by rw [h2, hN.2]; rfl⟩

end Script
end Verif
