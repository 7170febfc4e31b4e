import Verif.Lemmas.GenerateDisjoint

set_option linter.unusedSectionVars false
set_option linter.unusedSimpArgs false
set_option linter.unusedVariables false

/-! Helper lemmas: the model of the bin packing problem. -/

namespace Verif

open Script

variable {full : Prop} {P : Nat → Prop} {s s' : Script} {D : Nat → Prop} {adm : (Nat → Val) → Prop}

/-- A vector. -/
def Vector (P : Nat → Prop) (n : Nat) (s : Script) (i : Nat) (g : (Nat → Val) → List Rat) : Prop :=
  ∃ claim size const, HasArr P s i [(n : Int)] claim size const g

theorem Vector.mono {n i : Nat} {g : (Nat → Val) → List Rat} (h : Vector P n s i g) (e : Ext P s s') : Vector P n s' i g := by
  obtain ⟨a, b, c, h⟩ := h
  exact ⟨a, b, c, h.mono e⟩

theorem binConstraints_ok {n w c : Nat} {W : List Rat} {cap : Rat} : ∀ {bins : List Nat} {gs : List ((Nat → Val) → List Rat)}
    {s : Script} (S : State full P s D adm) (hP : ∀ i < 3 * bins.length, P (s.length + i))
    (hb : List.Forall₂ (Vector P n s) bins gs) (hw : Vector P n s w fun _ => W) (hc : Computes P s c fun _ => cap) (cs : List Nat),
    ∃ s' is, bins.foldlM (Generators.binConstraint w c) ⟨s, none, cs⟩ = .ok ⟨s', none, cs ++ is⟩ ∧ State full P s' D adm ∧ Ext P s s' ∧
      s'.length = s.length + 3 * bins.length ∧
      List.Forall₂ (fun i (q : (Nat → Val) → Bool) => Computes P s' i fun A => ofBool (q A)) is
        (gs.map fun g A => decide ((List.zipWith (· * ·) (g A) W).sum ≤ cap)) := by
  intro bins
  induction bins with
  | nil =>
    intro gs s S _ hb _ _ cs
    cases hb
    exact ⟨s, [], by simp [Res.pure_eq], S, Ext.refl, by simp, .nil⟩
  | cons b bins ih =>
    intro gs s S hP hb hw hc cs
    cases hb with
    | cons h hs =>
    rename_i g gs
    have hlen : (b :: bins).length = bins.length + 1 := rfl
    obtain ⟨_, _, _, h'⟩ := h
    obtain ⟨_, _, _, hw'⟩ := id hw
    obtain ⟨_, _, _, hc'⟩ := id hc
    have hs0 : dynamicShape [(n : Int)] = false := by simp [dynamicShape]
    have hg0 : GoodShape [(n : Int)] := by simp [GoodShape]
    obtain ⟨s1, e1, N1⟩ := S.binary (hP 0 (by omega)) .multiply (by simp) h' hw' hg0 hs0
    obtain ⟨s2, c2, e2, N2⟩ := N1.state.sum (by rw [N1.len]; exact hP 1 (by omega)) N1.has hg0
    obtain ⟨s3, e3, N3⟩ := N2.state.truth (by rw [N2.len, N1.len]; exact hP 2 (by omega)) .lessEqual rfl N2.has
      (hc'.mono (N1.ext.trans N2.ext)) (by simp [GoodShape]) rfl
    have x3 := N1.ext.trans (N2.ext.trans N3.ext)
    have l3 : s3.length = s.length + 3 := by rw [N3.len, N2.len, N1.len]
    obtain ⟨s4, is, e4, S4, x4, l4, q4⟩ := ih N3.state
      (by
        intro i hi
        have := hP (3 + i) (by omega)
        rwa [l3, Nat.add_assoc])
      (hs.imp fun _ _ h => h.mono x3) (hw.mono x3) (hc.mono x3) (cs ++ [s2.length])
    refine ⟨s4, s2.length :: is, ?_, S4, x3.trans x4, by rw [l4, l3]; omega, .cons ?_ q4⟩
    · rw [List.foldlM_cons]
      have : Generators.binConstraint w c ⟨s, none, cs⟩ b = .ok ⟨s3, none, cs ++ [s2.length]⟩ := by
        unfold Generators.binConstraint
        simp only [e1, e2, e3, Res.ok_bind]
        exact addConstraint_ok N3.has none cs
      rw [this, Res.ok_bind, e4]
      simp
    · exact ⟨_, _, _, N3.has.mono x4⟩

theorem iadd_sum {x y : Nat} (h : (s.row x).built = .kind (.nary .add)) :
    s.iadd x y = (do
      let s ← s.addOperand x y
      .ok (s, x)) := by
  unfold Script.iadd
  rw [h]

/-- The number of bins in use, once the sum has been started. -/
theorem binsUsed_ok {n o one : Nat} (hP : ∀ i, P i ↔ i ≠ o) {early : List Nat} : ∀ {bins : List Nat} {gs : List ((Nat → Val) → List Rat)}
    {s : Script} {late : List Nat} {ts : List ((Nat → Val) → Rat)} (S : State full P s D adm)
    (hb : List.Forall₂ (Vector P n s) bins gs) (h1 : Computes P s one fun _ => 1) (h : IsSum P s o early late ts),
    ∃ s' late', bins.foldlM (Generators.binUsed one) (s, o) = .ok (s', o) ∧ State full P s' D adm ∧ Ext P s s' ∧
      IsSum P s' o early late' (ts ++ gs.map fun g A => ofBool (decide (1 ≤ (g A).sum))) := by
  intro bins
  induction bins with
  | nil =>
    intro gs s late ts S hb h1 h
    cases hb
    exact ⟨s, late, rfl, S, Ext.refl, by simpa using h⟩
  | cons b bins ih =>
    intro gs s late ts S hb h1 h
    cases hb with
    | cons hbin hs =>
    rename_i g gs
    obtain ⟨_, _, _, hb'⟩ := hbin
    obtain ⟨_, _, _, h1'⟩ := id h1
    have ho := h.lt
    obtain ⟨s1, c1, e1, N1⟩ := S.sum ((hP _).2 (by omega)) hb' (by simp [GoodShape])
    obtain ⟨s2, e2, N2⟩ := N1.state.truth ((hP _).2 (by rw [N1.len]; omega)) .lessEqual rfl (h1'.mono N1.ext) N1.has
      (by simp [GoodShape]) rfl
    have hsum := (h.add e1).add e2
    obtain ⟨s3, e3, S3, x3, l3, I3⟩ := N2.state.addOperand hP hsum (y := s1.length) ⟨_, _, _, N2.has⟩ (by rw [N1.len]; omega)
    have x := N1.ext.trans (N2.ext.trans x3)
    obtain ⟨s4, late', e4, S4, x4, I4⟩ := ih S3 (hs.imp fun _ _ h => h.mono x) (h1.mono x) I3
    refine ⟨s4, late', ?_, S4, x.trans x4, ?_⟩
    · rw [List.foldlM_cons]
      have : Generators.binUsed one (s, o) b = .ok (s3, o) := by
        unfold Generators.binUsed
        simp only [e1, e2, Res.ok_bind, iadd_sum hsum.built, e3]
      rw [this, Res.ok_bind, e4]
    · rw [List.append_assoc] at I4
      exact I4

theorem iadd_new {x y : Nat} {a : Arr Rat} (h : (s.row x).built = .kind (.constant a)) :
    s.iadd x y = s.add (.kind (.nary .add)) [x, y] := by
  unfold Script.iadd
  rw [h]


theorem sum_chosen (p : Nat → Prop) [DecidablePred p] (f : Nat → Rat) (l : List Nat) :
    (l.map fun e => (if p e then (1 : Rat) else 0) * f e).sum = ((l.filter fun e => decide (p e)).map f).sum := by
  induction l with
  | nil => rfl
  | cons e l ih =>
    rw [List.map_cons, List.sum_cons, ih, List.filter_cons]
    by_cases h : p e <;> simp [h]

theorem sum_held {n : Nat} {W : List Rat} (hW : W.length = n) (p : Nat → Prop) [DecidablePred p] :
    (List.zipWith (· * ·) ((List.range n).map fun e => if p e then (1 : Rat) else 0) W).sum =
      (((List.range n).filter fun e => decide (p e)).map fun e => W.getD e 0).sum := by
  rw [← sum_chosen]
  congr 1
  refine List.ext_getElem (by simp [hW]) fun i hi hi' => ?_
  have hi : i < n := by simpa using hi'
  simp only [List.getElem_zipWith, List.getElem_map, List.getElem_range]
  rw [getD_of_lt (by omega)]

theorem sum_count (p : Nat → Prop) [DecidablePred p] (l : List Nat) :
    (l.map fun e => if p e then (1 : Rat) else 0).sum = ((l.filter fun e => decide (p e)).length : Rat) := by
  have h := sum_chosen p (fun _ => 1) l
  simp only [mul_one] at h
  rw [h]
  simp

theorem used_iff {n k : Nat} {into : List Nat} (h : into.length = n) :
    1 ≤ ((List.range n).map fun e => if into.getD e 0 = k then (1 : Rat) else 0).sum ↔ k ∈ into := by
  rw [sum_count (fun e => into.getD e 0 = k)]
  have : (1 : Rat) ≤ (((List.range n).filter fun e => decide (into.getD e 0 = k)).length : Rat) ↔
      1 ≤ ((List.range n).filter fun e => decide (into.getD e 0 = k)).length := by exact_mod_cast Iff.rfl
  rw [this, Nat.succ_le_iff, List.length_pos_iff_exists_mem]
  constructor
  · rintro ⟨e, he⟩
    simp only [List.mem_filter, List.mem_range, decide_eq_true_eq] at he
    rw [← he.2, getD_of_lt (by omega)]
    exact List.getElem_mem _
  · intro hk
    obtain ⟨e, he, rfl⟩ := List.getElem_of_mem hk
    refine ⟨e, ?_⟩
    simp only [List.mem_filter, List.mem_range, decide_eq_true_eq]
    exact ⟨by omega, getD_of_lt he 0⟩

theorem sum_used {n : Nat} {into : List Nat} (h : ∀ k ∈ into, k < n) :
    ((List.range n).map fun k => ofBool (decide (k ∈ into))).sum = (into.dedup.length : Rat) := by
  have : (fun k => ofBool (decide (k ∈ into))) = fun k => if k ∈ into then (1 : Rat) else 0 := by
    funext k
    by_cases hk : k ∈ into <;> simp [ofBool, hk]
  rw [this, sum_count (fun k => k ∈ into)]
  congr 1
  refine List.Perm.length_eq ((List.perm_ext_iff_of_nodup (List.nodup_range.filter _) (List.nodup_dedup _)).2 fun k => ?_)
  simp only [List.mem_filter, List.mem_range, decide_eq_true_eq, List.mem_dedup]
  exact ⟨fun h => h.2, fun hk => ⟨h k hk, hk⟩⟩

theorem shownSets_getD {p N k : Nat} {into : List Nat} (hk : k < N) :
    (shownSets p N into).getD k ⟨[], []⟩ = ⟨[(p : Int)], (List.range p).map fun e => if into.getD e 0 = k then 1 else 0⟩ := by
  unfold shownSets
  rw [getD_of_lt (by simpa using hk)]
  simp

theorem bins_proves {n : Nat} {W : Arr Rat} {cap : Rat} (hW : W.IsVector n) (hW0 : ∀ x ∈ W.data, 0 ≤ x) (hfit : ∀ x ∈ W.data, x ≤ cap)
    (hcap : 0 < cap) (hn : 0 < n) :
    ∃ M, Generators.binPacking W cap = .ok M ∧ Proves full (· ≠ 4 * n + 7) M (binPackingProblem n W cap) := by
  obtain ⟨_, W⟩ := W
  obtain ⟨rfl, hlen⟩ := id hW
  have hlen : W.length = n := hlen
  have hreq : Generators.require 1 false true false ⟨[(n : Int)], W⟩ = .ok ⟨[(n : Int)], W⟩ :=
    require_ok rfl (by simp) (fun _ => hW0) (by simp)
  have hsc : ∀ x : Rat, (Generators.scalar x).WF := by
    intro x
    simp [Generators.scalar, Arr.WF, Arr.dynamic, dynamicShape]
  obtain ⟨s0, e0, N0⟩ := (state_nil (full := full) (P := (· ≠ 4 * n + 7))).constant (by simp) ⟨[(n : Int)], W⟩ (wf_of_vector hW)
    (by simp [GoodShape]) (by simp [dynamicShape])
  have l0 : s0.length = 1 := N0.len
  obtain ⟨s1, e1, N1⟩ := N0.state.constant (by omega) (Generators.scalar cap) (hsc _) (by simp [Generators.scalar, GoodShape]) rfl
  have l1 : s1.length = 2 := by rw [N1.len, l0]
  obtain ⟨s2, e2, N2⟩ := N1.state.bitSets (by omega) n n hn
  have l2 : s2.length = 3 := by rw [N2.len, l1]
  have hsh : ∀ A : Nat → Val, (∃ into : List Nat, (into.length = n ∧ ∀ k ∈ into, k < n) ∧ A s1.length = shownSets n n into) →
      ∀ k < n, (A s1.length).getD k ⟨[], []⟩ = ⟨[(n : Int)], ((A s1.length).getD k ⟨[], []⟩).data⟩ := by
    rintro A ⟨into, _, e⟩ k hk
    rw [e, shownSets_getD hk]
  obtain ⟨s3, e3, S3, x3, l3, h3⟩ := outputs_ok N2.state (g := fun k A => ((A s1.length).getD k ⟨[], []⟩).data)
    (by intro i hi; show _ ≠ _; omega) N2.has (by simp [GoodShape]) hsh
  rw [l2] at l3 h3 e3
  have hbins : ∀ {s : Script}, Ext (· ≠ 4 * n + 7) s3 s → List.Forall₂ (Vector (· ≠ 4 * n + 7) n s) ((List.range n).map (3 + ·))
      ((List.range n).map fun k A => ((A s1.length).getD k ⟨[], []⟩).data) := by
    intro s x
    rw [List.forall₂_map_left_iff, List.forall₂_map_right_iff, List.forall₂_same]
    intro k hk
    exact ⟨_, _, _, (h3 k (List.mem_range.1 hk)).mono x⟩
  obtain ⟨s4, is, e4, S4, x4, l4, q4⟩ := binConstraints_ok (w := 0) (c := 1) (W := W) (cap := cap) S3
    (by
      intro i hi
      simp only [List.length_map, List.length_range] at hi
      show _ ≠ _
      omega)
    (hbins Ext.refl) ⟨_, _, _, N0.has.mono (N1.ext.trans (N2.ext.trans x3))⟩
    (by
      have := N1.has.mono (N2.ext.trans x3)
      rw [l0] at this
      exact ⟨_, _, _, this⟩) []
  simp only [List.length_map, List.length_range, List.nil_append] at l4 e4
  obtain ⟨s5, e5, N5⟩ := S4.constant (by show _ ≠ _; omega) (Generators.scalar 1) (hsc _) (by simp [Generators.scalar, GoodShape]) rfl
  obtain ⟨s6, e6, N6⟩ := N5.state.constant (by show _ ≠ _; have := N5.len; omega) (Generators.scalar 0) (hsc _)
    (by simp [Generators.scalar, GoodShape]) rfl
  have l5 := N5.len
  have l6 := N6.len
  have x6 := x4.trans (N5.ext.trans N6.ext)
  -- the first bin
  obtain ⟨m, rfl⟩ : ∃ m, n = m + 1 := ⟨n - 1, by omega⟩
  have hbins6 := hbins x6
  rw [List.range_succ_eq_map, List.map_cons, List.map_cons] at hbins6
  obtain ⟨hb0, hbs⟩ := List.forall₂_cons.1 hbins6
  obtain ⟨_, _, _, hb0'⟩ := id hb0
  obtain ⟨s7, c7, e7, N7⟩ := N6.state.sum (by show _ ≠ _; omega) hb0' (by simp [GoodShape]; omega)
  have l7 := N7.len
  obtain ⟨s8, e8, N8⟩ := N7.state.truth (by show _ ≠ _; omega) .lessEqual rfl (N5.has.mono (N6.ext.trans N7.ext)) N7.has
    (by simp [Generators.scalar, GoodShape]) rfl
  have l8 := N8.len
  obtain ⟨s9, e9, S9, x9, l9, I9⟩ := N8.state.startSum (by intro i; show i ≠ _ ↔ i ≠ _; rw [l8, l7, l6, l5, l4, l3]; omega)
    (ops := [s5.length, s7.length]) (by simp)
    (.cons ⟨_, _, _, N6.has.mono (N7.ext.trans N8.ext)⟩ (.cons ⟨_, _, _, N8.has⟩ .nil))
  have hP : ∀ i, (i ≠ 4 * (m + 1) + 7) ↔ i ≠ s8.length := by intro i; omega
  have x69 := N7.ext.trans (N8.ext.trans x9)
  obtain ⟨s10, late, e10, S10, x10, I10⟩ := binsUsed_ok hP S9 (hbs.imp fun _ _ h => h.mono x69)
    (⟨_, _, _, N5.has.mono (N6.ext.trans x69)⟩ : Computes _ s9 s4.length fun _ => 1) I9
  have hout : (s10.row s8.length).out.shape = [] := by
    unfold Info.shape
    rw [I10.out]
    rfl
  refine ⟨⟨s10, some s8.length, is⟩, ?_, ?_⟩
  · unfold Generators.binPacking
    rw [hreq, Res.ok_bind]
    rw [guardThrow_true (show (⟨[((m + 1 : Nat) : Int)], W⟩ : Arr Rat).shape.headD 0 ≠ 0 by show ((m + 1 : Nat) : Int) ≠ 0; omega), Res.ok_bind, guardThrow_true (not_le.2 hcap), Res.ok_bind, guardThrow_true (by
      intro w hw
      exact not_lt.2 (hfit w hw)), Res.ok_bind]
    simp only [List.headD_cons, e0, e1, e2, Res.ok_bind, Int.toNat_natCast, l0, l1, List.length_nil]
    rw [l1] at e3
    simp only [e3, e4, e5, e6, Res.ok_bind]
    have hfold : List.foldlM (Generators.binUsed s4.length) (s6, s5.length) ((List.range (m + 1)).map (3 + ·)) = .ok (s10, s8.length) := by
      rw [List.range_succ_eq_map, List.map_cons, List.foldlM_cons]
      have : Generators.binUsed s4.length (s6, s5.length) (3 + 0) = .ok (s9, s8.length) := by
        unfold Generators.binUsed
        have hrow : (s8.row s5.length).built = .kind (.constant (Generators.scalar 0)) := by
          obtain ⟨b8, o8, _, rfl⟩ := add_eq e8
          rw [row_append (by rw [l7, l6]; omega)]
          obtain ⟨b7, o7, _, rfl⟩ := add_eq e7
          rw [row_append (by rw [l6]; omega)]
          obtain ⟨b6, o6, hc, rfl⟩ := add_eq e6
          rw [row_last]
          obtain ⟨_, _, hc⟩ := Res.bind_eq_ok.1 hc
          obtain ⟨_, _, hc⟩ := Res.bind_eq_ok.1 hc
          obtain ⟨_, _, hc⟩ := Res.bind_eq_ok.1 hc
          simp only [Res.ok.injEq, Prod.mk.injEq] at hc
          exact hc.1.symm
        simp only [e7, e8, Res.ok_bind, iadd_new hrow, e9]
      rw [this, Res.ok_bind]
      exact e10
    simp only [hfold, Res.ok_bind]
    unfold Generated.minimize
    rw [guardUB_true I10.lt, Res.ok_bind, guardThrow_true (by rw [hout]; rfl), Res.ok_bind]
  · refine State.proves (d := s1.length) S10 (I10.complete S10 hP) (fun _ h => h) ?_ (o := s8.length) rfl I10.lt ?_
      (q4.imp fun _ _ h => h.mono (N5.ext.trans (N6.ext.trans (x69.trans x10)))) ?_
    · intro A
      rfl
    · intro into hv vals hr
      rw [I10.value S10 ⟨into, hv, rfl⟩ hr]
      show Res.ok _ = Res.ok _
      congr 1
      have : ((List.range (m + 1)).map fun k => ofBool (decide (k ∈ into))).sum = (into.dedup.length : Rat) := sum_used hv.2
      show _ = (into.dedup.length : Rat)
      have hk : ∀ k ∈ List.range (m + 1), ofBool (decide (k ∈ into)) =
          ofBool (decide (1 ≤ (((binPackingProblem (m + 1) ⟨[((m + 1 : Nat) : Int)], W⟩ cap).values into s1.length).getD k ⟨[], []⟩).data.sum)) := by
        intro k hk
        show _ = ofBool (decide (1 ≤ ((shownSets (m + 1) (m + 1) into).getD k ⟨[], []⟩).data.sum))
        rw [shownSets_getD (List.mem_range.1 hk)]
        congr 1
        exact decide_eq_decide.2 (used_iff hv.1).symm
      rw [← this, List.map_congr_left hk, List.range_succ_eq_map, List.map_append, List.map_map, List.map_map, List.sum_append,
        List.map_cons, List.sum_cons, List.map_map]
      show (0 + (_ + 0)) + _ = _
      rw [zero_add, add_zero]
      congr 1
      rw [List.map_map]
      rfl
    · intro into hv
      change _ ↔ ∀ k < m + 1, (((List.range (m + 1)).filter fun e => into.getD e 0 = k).map fun e => W.getD e 0).sum ≤ cap
      rw [List.map_map, List.forall_mem_map]
      simp only [List.mem_range]
      refine forall_congr' fun k => forall_congr' fun hk => ?_
      show decide ((List.zipWith (· * ·) ((shownSets (m + 1) (m + 1) into).getD k ⟨[], []⟩).data W).sum ≤ cap) = true ↔ _
      rw [shownSets_getD hk, decide_eq_true_iff, sum_held hlen]
end Verif
