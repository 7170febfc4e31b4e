import Verif.Model.Program
import Verif.Lemmas.Catalog
import Verif.Lemmas.Whole

set_option linter.unusedSectionVars false
set_option linter.unusedSimpArgs false
set_option linter.unusedVariables false

/-! Helper lemmas: models built from the catalog are lawful. -/

namespace Verif
namespace Symbols

open Graph

variable {S : Symbols} {g : Graph}

theorem forall₂_shapes {T : Nat → List (List Int)} {vals : Nat → Val} {ps : List Nat}
    (h : ∀ p ∈ ps, HasShapes (T p) (vals p)) : List.Forall₂ HasShapes (ps.map T) (ps.map vals) := by
  induction ps with
  | nil => exact .nil
  | cons p ps ih => exact .cons (h p (by simp)) (ih fun q hq => h q (by simp [hq]))

theorem Assembled.facts (h : S.Assembled g) (w : g.WF) {v : Nat} (hv : v ∈ g.nodes) :
    ((S.kind v).isDecision = false → NodeFacts (S.sem g v) (S.inShapes g v) (S.shapes v)) ∧
      ((S.kind v).isDecision = true → DecisionFacts (S.sem g v)
        ((S.kind v).step (S.inShapes g v) (S.shapes v)) (S.shapes v)) := by
  refine kind_facts (h.made v hv) (h.regular v hv) ?_ (h.good v hv)
  intro p hp s hs
  obtain ⟨u, hu, rfl⟩ := List.mem_map.1 hp
  exact h.good u (w.predMem v hv u hu) s hs

theorem Assembled.typing (h : S.Assembled g) (w : g.WF) :
    Typing g (S.sem g) fun v => HasShapes (S.shapes v) := by
  refine ⟨?_, ?_⟩
  · intro v hv xs hx
    cases hd : (S.kind v).isDecision with
    | false => exact ((h.facts w hv).1 hd).out xs hx
    | true => exact ((h.facts w hv).2 hd).out xs hx
  · intro v hv hnd vals hvals
    have hd : (S.kind v).isDecision = false := by
      rw [h.decisions v hv] at hnd
      simpa using hnd
    exact ((h.facts w hv).1 hd).accepts _ (forall₂_shapes hvals)

/-- Every symbol has a contract. -/
theorem Assembled.exists_settled (h : S.Assembled g) (w : g.WF) (v : Nat) :
    ∃ C : Settled ([] : Dif) (S.sem g v),
      (v ∈ g.nodes → v ∉ g.decisions → C.Propagates ValRel) ∧
      (v ∈ g.decisions → ∃ L : DecisionLaw (S.sem g v) ((S.kind v).step (S.inShapes g v) (S.shapes v)),
        C = L.settled) := by
  by_cases hv : v ∈ g.nodes
  · by_cases hd : v ∈ g.decisions
    · obtain ⟨⟨L⟩, _⟩ := (h.facts w hv).2 ((h.decisions v hv).1 hd)
      exact ⟨L.settled, fun _ hn => absurd hd hn, fun _ => ⟨L, rfl⟩⟩
    · have hk : (S.kind v).isDecision = false := by
        have := hd
        rw [h.decisions v hv] at this
        simpa using this
      obtain ⟨⟨C, hC⟩, _, _⟩ := (h.facts w hv).1 hk
      exact ⟨C, fun _ _ => hC, fun hd' => absurd hd' hd⟩
  · have hk := h.unused v hv
    have : ∃ C : Settled ([] : Dif) (S.sem g v), True := by
      unfold sem
      rw [hk]
      exact ⟨(constantContract _).toSettled, trivial⟩
    obtain ⟨C, _⟩ := this
    exact ⟨C, fun hv' => absurd hv' hv, fun hd => absurd (w.decMem v hd) hv⟩

theorem Assembled.lawful (h : S.Assembled g) (w : g.WF) (hs : g.sorted = true) :
    ∃ C : ∀ v, Settled ([] : Dif) (S.sem g v), Lawful (fun _ => ValRel) [] g (S.sem g) C (S.act g) := by
  choose C hC using h.exists_settled w
  refine ⟨C, ⟨fun v hv hn => Settled.Propagates.same ((hC v).1 hv hn) _, fun _ => ValRel.quiet, ?_, ?_, ?_, ?_⟩⟩
  · intro d hd s x y hp hy
    obtain ⟨L, e⟩ := (hC d).2 hd
    have hv := hp.view
    rw [L.same] at hv
    exact L.idle hv hy
  · intro d hd x
    obtain ⟨L, e⟩ := (hC d).2 hd
    exact L.same x
  · intro A hA
    exact (h.typing w).evaluates w hs A hA
  · intro d hd ms s x s' hc hx e
    obtain ⟨L, eL⟩ := (hC d).2 hd
    rw [eL] at hc ⊢
    obtain ⟨x', hx', hr, _⟩ := hc
    obtain rfl : x = x' := by simpa using hx'
    obtain ⟨z, hz, hr'⟩ := L.moves ms hr hx e
    exact ⟨z, hz, L.pending hr'⟩

end Symbols

namespace Graph

variable {V D : Type} {quiet : D} {g : Graph} {sem : Nat → NodeSem V D} {C : ∀ v, Settled quiet (sem v)}
  {A vals : Nat → V} {st : St sem}

theorem InStep.view (h : InStep g sem C A vals st) {v : Nat} (hv : v ∈ g.nodes) :
    (sem v).view (st v) = vals v := by
  rw [(C v).view (h.2.2 v hv), h.2.1.value v hv]

theorem InStep.assigned (w : g.WF) (hsame : ∀ d ∈ g.decisions, ∀ x, (sem d).f [x] = x)
    (h : InStep g sem C A vals st) {d : Nat} (hd : d ∈ g.decisions) : (sem d).view (st d) = A d := by
  rw [h.view (w.decMem d hd), h.2.1.value d (w.decMem d hd)]
  simp [operands, hd, hsame]

/-- What is visible in a state that is in step. -/
theorem InStep.evaluates (w : g.WF) (hsame : ∀ d ∈ g.decisions, ∀ x, (sem d).f [x] = x)
    (h : InStep g sem C A vals st) :
    Evaluates g sem (fun d => (sem d).view (st d)) fun v => (sem v).view (st v) := by
  have ho : ∀ v ∈ g.nodes, operands g (fun d => (sem d).view (st d)) (fun v => (sem v).view (st v)) v =
      operands g A vals v := by
    intro v hv
    unfold operands
    split_ifs with hd
    · exact congrArg (fun x => [x]) (h.assigned w hsame hd)
    · exact List.map_congr_left fun p hp => h.view (w.predMem v hv p hp)
  refine ⟨fun v hv => ?_, fun v hv => ?_⟩
  · rw [ho v hv, h.view hv, h.2.1.value v hv]
  · rw [ho v hv]; exact h.2.1.accepted v hv

end Graph
end Verif
