import Verif.Lemmas.Generate

set_option linter.unusedSectionVars false
set_option linter.unusedSimpArgs false
set_option linter.unusedVariables false

/-! Helper lemmas: the model of the knapsack problem. -/

namespace Verif

open Script

variable {full : Prop} {n : Nat} {V W : Arr Rat} {cap : Rat}

theorem isColl_set {l : List Nat} : IsColl n 0 n l ↔ l.Nodup ∧ ∀ k ∈ l, k < n := by
  constructor
  · rintro ⟨h1, h2, h3, h4⟩
    exact ⟨h1, h2⟩
  · rintro ⟨h1, h2⟩
    refine ⟨h1, h2, Nat.zero_le _, ?_⟩
    simpa using (List.subperm_of_subset h1 fun k hk => List.mem_range.2 (h2 k hk)).length_le

theorem knapsack_proves (hV : V.IsVector n) (hW : W.IsVector n) (hV0 : ∀ x ∈ V.data, 0 ≤ x) (hW0 : ∀ x ∈ W.data, 0 ≤ x)
    (hcap : 0 < cap) (hn : 0 < n) :
    ∃ M, Generators.knapsack V W cap = .ok M ∧ Proves full (fun _ => True) M (knapsackProblem n V W cap) := by
  obtain ⟨_, V⟩ := V
  obtain ⟨_, W⟩ := W
  obtain ⟨rfl, _⟩ := id hV
  obtain ⟨rfl, _⟩ := id hW
  have hreqV : Generators.require 1 false true false ⟨[(n : Int)], V⟩ = .ok ⟨[(n : Int)], V⟩ :=
    require_ok rfl (by simp) (fun _ => hV0) (by simp)
  have hreqW : Generators.require 1 false true false ⟨[(n : Int)], W⟩ = .ok ⟨[(n : Int)], W⟩ :=
    require_ok rfl (by simp) (fun _ => hW0) (by simp)
  have hV' : (⟨[(n : Int)], V.map (- ·)⟩ : Arr Rat).IsVector n := ⟨rfl, by simpa using hV.2⟩
  obtain ⟨s0, e0, N0⟩ := (state_nil (full := full) (P := fun _ => True)).constant trivial ⟨[(n : Int)], W⟩ (wf_of_vector hW)
    (by simp [GoodShape]) (by simp [dynamicShape])
  obtain ⟨s1, e1, N1⟩ := N0.state.constant trivial ⟨[(n : Int)], V.map (- ·)⟩ (wf_of_vector hV')
    (by simp [GoodShape]) (by simp [dynamicShape])
  obtain ⟨s2, e2, N2⟩ := N1.state.constant trivial (Generators.scalar cap) (by simp [Generators.scalar, Arr.WF, Arr.dynamic, dynamicShape])
    (by simp [Generators.scalar, GoodShape]) rfl
  obtain ⟨s3, e3, N3⟩ := N2.state.collection trivial n 0 n (Nat.zero_le _) le_rfl
  have hne : ¬ (0 = n) := by omega
  have hc0 : collSh 0 n = [-1] := by simp [collSh, hne]
  rw [hc0, if_neg hne] at N3
  have hidx : ∀ {s : Script}, Ext (fun _ => True) s3 s → IsIndex (fun _ => True) s (fun A => ∃ l, IsColl n 0 n l ∧ A s2.length = collVal 0 n l) n s2.length [-1]
      ⟨⟨0, n - 1⟩, true⟩ (.of s2.length (some (0 : Nat)) (some (n : Int))) none (fun A => (single (A s2.length)).data) := by
    intro s e
    refine ⟨N3.has.mono e, rfl, le_rfl, by show (n : Rat) - 1 < n; linarith, ?_⟩
    rintro A ⟨l, hl, e⟩ v hv
    rw [e] at hv
    obtain ⟨k, hk, rfl⟩ := List.mem_map.1 hv
    exact index_value (hl.2.1 k hk)
  obtain ⟨s4, e4, N4⟩ := N3.state.advancedOne (n := n) trivial
    (N0.has.mono (N1.ext.trans (N2.ext.trans N3.ext)))
    (by rintro _ ⟨⟩; exact ⟨rfl, wf_of_vector hW, fun _ _ => rfl⟩)
    (hidx Ext.refl) (by simp) hn
  obtain ⟨s5, c5, e5, N5⟩ := N4.state.sum trivial N4.has (by simp [GoodShape])
  obtain ⟨s6, e6, N6⟩ := N5.state.truth trivial .lessEqual rfl N5.has (N2.has.mono (N3.ext.trans (N4.ext.trans N5.ext))) (by simp [GoodShape]) rfl
  obtain ⟨s7, e7, N7⟩ := N6.state.advancedOne (n := n) trivial
    (N1.has.mono (N2.ext.trans (N3.ext.trans (N4.ext.trans (N5.ext.trans N6.ext)))))
    (by rintro _ ⟨⟩; exact ⟨rfl, wf_of_vector hV', fun _ _ => rfl⟩)
    (hidx (N4.ext.trans (N5.ext.trans N6.ext))) (by simp) hn
  obtain ⟨s8, c8, e8, N8⟩ := N7.state.sum trivial N7.has (by simp [GoodShape])
  refine ⟨⟨s8, some s7.length, [s5.length]⟩, ?_, ?_⟩
  · unfold Generators.knapsack
    rw [hreqV, hreqW, Res.ok_bind, Res.ok_bind, guardThrow_true rfl, Res.ok_bind, guardThrow_true (not_le.2 hcap), Res.ok_bind]
    simp only [List.headD_cons, e0, e1, e2, Res.ok_bind]
    rw [show (0 : Int) = ((0 : Nat) : Int) from rfl, e3]
    simp only [e4, e5, e6, e7, e8, Res.ok_bind, addConstraint_ok N6.has none []]
    exact minimize_ok ⟨_, _, _, N8.has⟩ none _
  · refine State.proves (d := s2.length) N8.state N8.state.good.complete (fun _ h => h) ?_ (o := s7.length) rfl
      N8.has.is.lt ?_ (qs := [fun A => decide (((single (A s2.length)).data.map fun v => W.getD (toSS v).toNat 0).sum ≤ cap)])
      (.cons ⟨_, _, _, N6.has.mono (N7.ext.trans N8.ext)⟩ .nil) ?_
    · intro A
      simp only [isColl_set, collVal, hc0]
      rfl
    · intro l hl vals hr
      have hadm : ∃ l', IsColl n 0 n l' ∧ (knapsackProblem n ⟨[(n : Int)], V⟩ ⟨[(n : Int)], W⟩ cap).values l s2.length = collVal 0 n l' :=
        ⟨l, isColl_set.2 hl, by rw [collVal, hc0]; rfl⟩
      rw [N8.has.is.value _ vals ((N8.state.admits _).2 hadm) hr]
      show Res.ok _ = Res.ok (- _)
      congr 1
      show ((l.map fun k : Nat => (k : Rat)).map fun v => (V.map (- ·)).getD (toSS v).toNat 0).sum = _
      rw [List.map_map, List.sum_neg, List.map_map]
      congr 1
      refine List.map_congr_left fun k _ => ?_
      show (V.map (- ·)).getD (toSS (k : Rat)).toNat 0 = - V.getD k 0
      rw [toSS_natCast, Int.toNat_natCast]
      simp only [List.getD_eq_getElem?_getD, List.getElem?_map]
      cases V[k]? <;> simp
    · intro l hl
      simp only [List.mem_singleton, forall_eq, decide_eq_true_eq]
      show ((l.map fun k : Nat => (k : Rat)).map fun v => W.getD (toSS v).toNat 0).sum ≤ cap ↔ (l.map fun k => W.getD k 0).sum ≤ cap
      rw [List.map_map]
      have : ((fun v => W.getD (toSS v).toNat 0) ∘ fun k : Nat => (k : Rat)) = fun k => W.getD k 0 := by
        funext k
        show W.getD (toSS (k : Rat)).toNat 0 = _
        rw [toSS_natCast, Int.toNat_natCast]
      rw [this]

end Verif
