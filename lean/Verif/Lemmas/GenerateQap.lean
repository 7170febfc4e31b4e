import Verif.Lemmas.GenerateTsp
import Verif.Lemmas.GenerateJobShop
import Verif.Lemmas.ScriptOrders

set_option linter.unusedSectionVars false
set_option linter.unusedSimpArgs false
set_option linter.unusedVariables false

/-! Helper lemmas: the model of the quadratic assignment problem. -/

namespace Verif

open Script

variable {n : Nat} {D F : Arr Rat}

/-- A sum over all pairs, as one sum. -/
theorem sum_square (n : Nat) (f : Nat → Nat → Rat) (hn : 0 < n) :
    ((List.range (n * n)).map fun t => f (t / n) (t % n)).sum = ((List.range n).map fun i => ((List.range n).map (f i)).sum).sum := by
  suffices h : ∀ m, ((List.range (m * n)).map fun t => f (t / n) (t % n)).sum =
      ((List.range m).map fun i => ((List.range n).map (f i)).sum).sum from h n
  intro m
  induction m with
  | zero => simp
  | succ m ih =>
    rw [List.range_succ, List.map_append, List.sum_append, ← ih, Nat.succ_mul, List.range_add, List.map_append, List.sum_append]
    congr 1
    simp only [List.map_map, List.map_cons, List.map_nil, List.sum_singleton]
    congr 1
    refine List.map_congr_left fun k hk => ?_
    have hk := List.mem_range.1 hk
    show f ((m * n + k) / n) ((m * n + k) % n) = _
    rw [mul_comm m n, Nat.mul_add_div hn, Nat.div_eq_of_lt hk, add_zero, Nat.mul_add_mod, Nat.mod_eq_of_lt hk]

theorem qap_proves (hD : D.IsMatrix n n) (hF : F.IsMatrix n n) (h0 : ∀ x ∈ D.data, 0 ≤ x) (h1 : ∀ x ∈ F.data, 0 ≤ x) (hn : 0 < n)
    (hbig : 8 * (n * n) ≤ 2 ^ 31) :
    ∃ M, Generators.quadraticAssignment D F = .ok M ∧ Proves False (fun _ => True) M (qapProblem n D F) ∧
      AllOrdered n M.rows := by
  obtain ⟨_, D⟩ := D
  obtain ⟨_, F⟩ := F
  obtain ⟨rfl, _⟩ := id hD
  obtain ⟨rfl, _⟩ := id hF
  have hreqD : Generators.require 2 false true true ⟨[(n : Int), (n : Int)], D⟩ = .ok ⟨[(n : Int), (n : Int)], D⟩ :=
    require_ok rfl (by simp) (fun _ => h0) (by simp)
  have hreqF : Generators.require 2 false true true ⟨[(n : Int), (n : Int)], F⟩ = .ok ⟨[(n : Int), (n : Int)], F⟩ :=
    require_ok rfl (by simp) (fun _ => h1) (by simp)
  obtain ⟨s0, e0, N0⟩ := (state_nil (full := False) (P := fun _ => True)).collection trivial n n n le_rfl le_rfl
  have hc0 : collSh n n = [(n : Int)] := by simp [collSh]
  rw [hc0, if_pos rfl] at N0
  obtain ⟨s1, e1, N1⟩ := N0.state.constant trivial ⟨[(n : Int), (n : Int)], D⟩ (wf_of_matrix hD)
    (by simp [GoodShape]) (by simp [dynamicShape])
  obtain ⟨s2, e2, N2⟩ := N1.state.constant trivial ⟨[(n : Int), (n : Int)], F⟩ (wf_of_matrix hF)
    (by simp [GoodShape]) (by simp [dynamicShape])
  have hidx : ∀ {s : Script}, Ext (fun _ => True) s0 s → IsIndex (fun _ => True) s
      (fun A => ∃ l, IsColl n n n l ∧ A ([] : Script).length = collVal n n l) n ([] : Script).length [(n : Int)]
      ⟨⟨0, n - 1⟩, true⟩ (.fixed n) none (fun A => (single (A ([] : Script).length)).data) := by
    intro s e
    refine ⟨N0.has.mono e, rfl, le_rfl, by show (n : Rat) - 1 < n; linarith, ?_⟩
    rintro A ⟨l, hl, e⟩ v hv
    rw [e] at hv
    obtain ⟨k, hk, rfl⟩ := List.mem_map.1 hv
    exact index_value (hl.2.1 k hk)
  obtain ⟨s3, e3, N3⟩ := N2.state.advancedRows (m := n) (n := n) trivial (N1.has.mono N2.ext)
    (by rintro _ ⟨⟩; exact ⟨rfl, wf_of_matrix hD, fun _ _ => rfl⟩) (hidx (N1.ext.trans N2.ext)) hn hn
  obtain ⟨s4, e4, N4⟩ := N3.state.permutation trivial (N1.has.mono (N2.ext.trans N3.ext)) rfl (wf_of_matrix hD)
    (hidx (N1.ext.trans (N2.ext.trans N3.ext))) hn hbig
  obtain ⟨s5, e5, N5⟩ := N4.state.binary trivial .multiply (by decide) (N2.has.mono (N3.ext.trans N4.ext)) N4.has
    (by simp [GoodShape]) (by simp [dynamicShape])
  obtain ⟨s6, c6, e6, N6⟩ := N5.state.sum trivial N5.has (by simp [GoodShape])
  have hord : AllOrdered n s6 := by
    have hne : ([(n : Int)] : List Int) ≠ [(n : Int), (n : Int)] := by simp
    have h0 : AllOrdered n s0 := AllOrdered.add (s := []) (by intro r hr; cases hr) e0 N0 fun b hb => by
      obtain rfl := kind_built hb
      exact .inl ⟨rfl, rfl, rfl⟩
    have h1 := h0.kind e1 N1 rfl (by simp)
    have h2 := h1.kind e2 N2 rfl (by simp)
    have h3 := h2.advanced e3 N3 (by simp)
    have h4 := h3.permutation e4 N4 (a := ⟨[(n : Int), (n : Int)], D⟩)
      (by rw [(N1.has.mono (N2.ext.trans N3.ext)).out]) rfl (wf_of_matrix hD)
    exact (h4.kind e5 N5 rfl (by simp)).kind e6 N6 rfl (by simp)
  refine ⟨⟨s6, some s5.length, []⟩, ?_, ?_, hord⟩
  · unfold Generators.quadraticAssignment
    rw [hreqD, hreqF, Res.ok_bind, Res.ok_bind, guardThrow_true rfl, Res.ok_bind]
    simp only [List.headD_cons, e0, e1, e2, e3, e4, e5, e6, Res.ok_bind]
    exact minimize_ok ⟨_, _, _, N6.has⟩ none []
  · refine State.proves (d := ([] : Script).length) N6.state N6.state.good.complete (fun _ h => h) ?_ (o := s5.length) rfl
      N6.has.is.lt ?_ (qs := []) .nil (by simp [qapProblem])
    · intro A
      simp only [isColl_full, collVal, hc0]
      rfl
    · intro p hp vals hr
      have hadm : ∃ l, IsColl n n n l ∧ (qapProblem n ⟨[(n : Int), (n : Int)], D⟩ ⟨[(n : Int), (n : Int)], F⟩).values p ([] : Script).length = collVal n n l :=
        ⟨p, isColl_full.2 hp, by rw [collVal, hc0]; rfl⟩
      rw [N6.has.is.value _ vals ((N6.state.admits _).2 hadm) hr]
      show Res.ok _ = Res.ok _
      congr 1
      show (List.zipWith (BinaryOp.func .multiply) F ((List.range (n * n)).map fun t => D.getD
        (permPos n (p.map fun k : Nat => (k : Rat)) (p.map fun k : Nat => (k : Rat)) t).toNat 0)).sum = _
      rw [show (qapProblem n ⟨[(n : Int), (n : Int)], D⟩ ⟨[(n : Int), (n : Int)], F⟩).cost p = _ from (sum_square n _ hn).symm]
      congr 1
      apply List.ext_getElem
      · simp [hF.2]
      · intro t ht1 ht2
        have ht : t < n * n := by simpa using ht2
        simp only [List.getElem_zipWith, List.getElem_map, List.getElem_range]
        show F[t] * _ = _
        have hl : p.length = n := by simpa using hp.length_eq
        congr 1
        · rw [Arr.entry]
          show F[t] = F.getD _ 0
          rw [Nat.div_add_mod' t n, getD_of_lt]
        · rw [Arr.entry]
          show D.getD _ 0 = D.getD _ 0
          congr 1
          simp only [permPos, ordAt, getD_map_cast, toSS_natCast]
          omega

end Verif
