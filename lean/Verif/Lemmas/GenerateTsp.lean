import Verif.Lemmas.Generate

set_option linter.unusedSectionVars false
set_option linter.unusedSimpArgs false
set_option linter.unusedVariables false

/-! Helper lemmas: the model of the traveling salesperson problem. -/

namespace Verif

open Script

/-- The round trip. -/
theorem round_trip (f : Nat → Nat → Rat) (l : List Nat) (n : Nat) (hl : l.length = n + 1) :
    (List.zipWith f l.dropLast l.tail).sum + f (l.getD n 0) (l.getD 0 0) =
      ((List.range (n + 1)).map fun i => f (l.getD i 0) (l.getD ((i + 1) % (n + 1)) 0)).sum := by
  rw [zipWith_dropLast_tail, hl, Nat.add_sub_cancel, List.range_succ, List.map_append, List.sum_append]
  congr 1
  · congr 1
    refine List.map_congr_left fun i hi => ?_
    rw [Nat.mod_eq_of_lt (by have := List.mem_range.1 hi; omega)]
  · simp

variable {full : Prop} {n : Nat} {D : Arr Rat}

theorem isColl_full {l : List Nat} : IsColl n n n l ↔ l.Perm (List.range n) := by
  constructor
  · rintro ⟨h1, h2, h3, h4⟩
    exact (List.subperm_of_subset h1 fun k hk => List.mem_range.2 (h2 k hk)).perm_of_length_le (by simpa using h3)
  · intro h
    exact ⟨h.nodup_iff.2 List.nodup_range, fun k hk => List.mem_range.1 (h.mem_iff.1 hk), by simp [h.length_eq], by simp [h.length_eq]⟩

theorem tsp_proves (hD : D.IsMatrix n n) (h0 : ∀ x ∈ D.data, 0 ≤ x) (hn : 0 < n) (hbig : (n : Int) ≤ ssMax) :
    ∃ M, Generators.travelingSalesperson D = .ok M ∧ Proves full (fun _ => True) M (tspProblem n D) := by
  obtain ⟨hshape, hlen⟩ := hD
  have hreq : Generators.require 2 false true true D = .ok D :=
    require_ok (by rw [hshape]; rfl) (by simp) (fun _ => h0) (fun _ => by rw [hshape]; simp)
  have hwf : D.WF := by
    exact wf_of_matrix ⟨hshape, hlen⟩
  obtain ⟨s0, e0, N0⟩ := (state_nil (full := full) (P := fun _ => True)).collection trivial n n n le_rfl le_rfl
  have hc0 : collSh n n = [(n : Int)] := by simp [collSh]
  rw [hc0, if_pos rfl] at N0
  have hA : ∀ A : Nat → Val, (∃ l, IsColl n n n l ∧ A ([] : Script).length = collVal n n l) →
      ∃ l : List Nat, l.Perm (List.range n) ∧ A ([] : Script).length = shownList [(n : Int)] l ∧
        (single (A ([] : Script).length)).data = l.map fun k : Nat => (k : Rat) := by
    rintro A ⟨l, hl, e⟩
    refine ⟨l, isColl_full.1 hl, ?_, ?_⟩
    · rw [e, collVal, hc0]; rfl
    · rw [e]; rfl
  obtain ⟨s1, e1, N1⟩ := N0.state.constant trivial D hwf (by rw [hshape]; simp [GoodShape]) (by rw [hshape]; simp [dynamicShape])
  have hdata : ∀ A : Nat → Val, (∃ l, IsColl n n n l ∧ A ([] : Script).length = collVal n n l) →
      (single (A ([] : Script).length)).data.length = n := by
    intro A h
    obtain ⟨l, h1, _, h2⟩ := hA A h
    rw [h2]
    simp [h1.length_eq]
  have hmem : ∀ A : Nat → Val, (∃ l, IsColl n n n l ∧ A ([] : Script).length = collVal n n l) →
      ∀ v ∈ (single (A ([] : Script).length)).data, v.den = 1 ∧ 0 ≤ v ∧ v ≤ (n : Rat) - 1 := by
    intro A h v hv
    obtain ⟨l, h1, _, h2⟩ := hA A h
    rw [h2] at hv
    obtain ⟨k, hk, rfl⟩ := List.mem_map.1 hv
    exact index_value (List.mem_range.1 (h1.mem_iff.1 hk))
  have hlast : ((n : Rat) - 1) < (n : Nat) := by linarith
  obtain ⟨s2, e2, N2⟩ := N1.state.sliceFixed trivial (N0.has.mono N1.ext) none (some (-1)) hbig (by decide)
  replace N2 := N2.congr (g' := fun A => (single (A ([] : Script).length)).data.dropLast) (by
    intro A h
    have := select_one none (some (-1)) (single (A ([] : Script).length)).data
    rw [hdata A h, sliceOf_init] at this
    exact this)
  have f2 := N1.ext.trans N2.ext
  obtain ⟨s3, e3, N3⟩ := N2.state.sliceFixed trivial (N0.has.mono f2) (some 1) none hbig (by decide)
  replace N3 := N3.congr (g' := fun A => (single (A ([] : Script).length)).data.tail) (by
    intro A h
    have := select_one (some 1) none (single (A ([] : Script).length)).data
    rw [hdata A h, sliceOf_tail] at this
    exact this)
  have f3 := f2.trans N3.ext
  obtain ⟨s4, e4, N4⟩ := N3.state.advancedTwo (m := n) (n := n) trivial
    (by have := N1.has.mono (N2.ext.trans N3.ext); rw [hshape] at this; exact this)
    (by rintro _ ⟨⟩; exact ⟨hshape, hwf, fun _ _ => rfl⟩)
    ⟨N2.has.mono N3.ext, rfl, le_rfl, hlast, fun A h v hv => hmem A h v (List.mem_of_mem_dropLast hv)⟩
    ⟨N3.has, rfl, le_rfl, hlast, fun A h v hv => hmem A h v (List.mem_of_mem_tail hv)⟩
    (by simp) rfl (by rw [slice_sizes n]; exact SizeInfo.beq_self _) (by intro A h; simp) hn hn
  have f4 := f3.trans N4.ext
  obtain ⟨s5, e5, N5⟩ := N4.state.atFixed trivial (N0.has.mono f4) (-1) hbig (by omega)
  have f5 := f4.trans N5.ext
  obtain ⟨s6, e6, N6⟩ := N5.state.atFixed trivial (N0.has.mono f5) 0 hbig (by omega)
  have f6 := f5.trans N6.ext
  have hat : ∀ i, i < n → ∀ A : Nat → Val, (∃ l, IsColl n n n l ∧ A ([] : Script).length = collVal n n l) →
      ∀ v ∈ [(single (A ([] : Script).length)).data.getD i 0], v.den = 1 ∧ 0 ≤ v ∧ v ≤ (n : Rat) - 1 := by
    intro i hi A h v hv
    refine hmem A h v ?_
    rw [List.mem_singleton.1 hv, getD_of_lt (by rw [hdata A h]; exact hi)]
    exact List.getElem_mem _
  obtain ⟨s7, e7, N7⟩ := N6.state.advancedTwo (m := n) (n := n) trivial
    (by have := N1.has.mono (N2.ext.trans (N3.ext.trans (N4.ext.trans (N5.ext.trans N6.ext)))); rw [hshape] at this; exact this)
    (by rintro _ ⟨⟩; exact ⟨hshape, hwf, fun _ _ => rfl⟩)
    ⟨N5.has.mono N6.ext, rfl, le_rfl, hlast, hat _ (by simp; omega)⟩
    ⟨N6.has, rfl, le_rfl, hlast, hat _ (by simp; omega)⟩
    (by simp) rfl (SizeInfo.beq_self _) (by intro A h; rfl) hn hn
  have f7 := f6.trans N7.ext
  obtain ⟨s8, c8, e8, N8⟩ := N7.state.sum trivial (N4.has.mono (N5.ext.trans (N6.ext.trans N7.ext))) (by simp [GoodShape])
  obtain ⟨s9, c9, e9, N9⟩ := N8.state.sum trivial (N7.has.mono N8.ext) (by simp [GoodShape])
  obtain ⟨s10, e10, N10⟩ := N9.state.binary trivial .add (by decide) (N8.has.mono N9.ext) N9.has (by simp [GoodShape]) rfl
  refine ⟨⟨s10, some s9.length, []⟩, ?_, ?_⟩
  · unfold Generators.travelingSalesperson
    rw [hreq, Res.ok_bind]
    simp only [hshape, List.headD_cons, e0, e1, e2, e3, e4, e5, e6, e7, e8, e9, e10, Res.ok_bind]
    exact minimize_ok ⟨_, _, _, N10.has⟩ none []
  · refine State.proves (d := ([] : Script).length) N10.state N10.state.good.complete (fun _ h => h) ?_ (o := s9.length) rfl
      (by show s9.length < s10.length; rw [N10.len]; omega) ?_ (qs := []) .nil (by simp [tspProblem])
    · intro A
      simp only [isColl_full, collVal, hc0]
      rfl
    · intro tour ht vals hr
      have hadm : ∃ l, IsColl n n n l ∧ (tspProblem n D).values tour ([] : Script).length = collVal n n l :=
        ⟨tour, isColl_full.2 ht, by rw [collVal, hc0]; rfl⟩
      have hv : (single ((tspProblem n D).values tour ([] : Script).length)).data = tour.map fun k : Nat => (k : Rat) := rfl
      have hlt : tour.length = n := by simpa using ht.length_eq
      rw [N10.has.is.value _ vals ((N10.state.admits _).2 hadm) hr]
      simp only [hv]
      show Res.ok _ = Res.ok _
      congr 1
      obtain ⟨m, rfl⟩ : ∃ m, n = m + 1 := ⟨n - 1, by omega⟩
      rw [show (tspProblem (m + 1) D).cost tour = _ from (round_trip (D.entry (m + 1)) tour m hlt).symm]
      show BinaryOp.func .add _ _ = _ + _
      show _ + _ = _ + _
      have hentry : ∀ u v : Nat, D.data.getD (toSS (u : Rat) * ((m + 1 : Nat) : Int) + toSS (v : Rat)).toNat 0 = D.entry (m + 1) u v := by
        intro u v
        rw [toSS_natCast, toSS_natCast, Arr.entry]
        congr 1
      congr 1
      · rw [← List.map_dropLast, ← List.map_tail, List.zipWith_map]
        simp only [hentry]
      · simp only [getD_map_cast, List.zipWith_cons_cons, List.zipWith_nil_right, hentry, List.sum_singleton]
        rw [if_pos (by decide), if_neg (by decide)]
        congr 2
        simp

end Verif
