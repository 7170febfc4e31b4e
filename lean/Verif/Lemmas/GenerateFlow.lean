import Verif.Model.GeneratorsFlow
import Verif.Spec.ProblemsFlow
import Verif.Lemmas.GenerateJobShop
import Verif.Lemmas.GenerateTsp
import Verif.Lemmas.ScriptDynamic
import Verif.Lemmas.ScriptOrders

set_option linter.unusedSectionVars false
set_option linter.unusedSimpArgs false
set_option linter.unusedVariables false

/-! Helper lemmas: the model of flow-shop scheduling. -/

namespace Verif

open Script

variable {full : Prop} {M J : Nat} {T : Arr Rat} {D : Nat → Prop} {adm : (Nat → Val) → Prop} {s s' : Script} {ti od : Nat}
  {ord : (Nat → Val) → List Nat}

/-- The constant and the decision. -/
structure FlowBase (M J : Nat) (T : Arr Rat) (ord : (Nat → Val) → List Nat) (adm : (Nat → Val) → Prop) (s : Script) (ti od : Nat) : Prop where
  times : ∃ c z k, HasArr every s ti [(M : Int), (J : Int)] c z k fun _ => T.data
  order : ∃ z k, HasArr every s od [(J : Int)] (.ok ⟨⟨0, (J : Rat) - 1⟩, true⟩) z k fun A => (ord A).map fun k : Nat => (k : Rat)
  perm : ∀ A, adm A → (ord A).Perm (List.range J)

theorem FlowBase.mono (h : FlowBase M J T ord adm s ti od) (e : Ext every s s') : FlowBase M J T ord adm s' ti od := by
  obtain ⟨⟨c, z, k, h1⟩, ⟨z', k', h2⟩, h3⟩ := h
  exact ⟨⟨c, z, k, h1.mono e⟩, ⟨z', k', h2.mono e⟩, h3⟩

/-- Not a sum. -/
def Fresh (s : Script) (i : Nat) : Prop := (s.row i).built ≠ .kind (.nary .add)

theorem Fresh.iadd {x y : Nat} (h : Fresh s x) : s.iadd x y = s.add (.kind (.nary .add)) [x, y] := by
  unfold Script.iadd
  unfold Fresh at h
  split
  · rename_i e
    exact absurd e h
  · rfl

theorem Fresh.ext {x : Nat} (h : Fresh s x) (e : Ext every s s') (hx : x < s.length) : Fresh s' x := by
  unfold Fresh
  rw [e.same x hx trivial]
  exact h

theorem row_last (r : Row) : (s ++ [r]).row s.length = r := by
  simp [Script.row, List.getD_eq_getElem?_getD]

/-- One time. -/
theorem flowTerm_ok (S : State full every s D adm) (hb : FlowBase M J T ord adm s ti od) (hM : (M : Int) ≤ ssMax) (hJ : (J : Int) ≤ ssMax)
    (hMJ : (M : Int) * J ≤ ssMax) {m j : Nat} (hm : m < M) (hj : j < J) :
    ∃ s' x, Generators.flowTerm ti od s m j = .ok (s', x) ∧ State full every s' D adm ∧ Ext every s s' ∧ Fresh s' x ∧
      Computes every s' x fun A => T.entry J m ((ord A).getD j 0) := by
  obtain ⟨⟨c, z, k, h1⟩, ⟨z', k', h2⟩, h3⟩ := id hb
  obtain ⟨s1, e1, N1⟩ := State.rowAt S h1 m hM hJ hMJ hm
  obtain ⟨s2, e2, N2⟩ := N1.state.atFixed trivial (h2.mono N1.ext) (j : Int) hJ (by omega)
  replace N2 := N2.congr (g' := fun A => [(((ord A).getD j 0 : Nat) : Rat)]) (by
    intro A hA
    rw [getD_map_cast, if_neg (by omega), Int.toNat_natCast])
  obtain ⟨s3, e3, N3⟩ := N2.state.advancedOne (n := J) trivial (N1.has.mono N2.ext) (by rintro _ ⟨⟩)
    ⟨N2.has, rfl, le_rfl, by show ((J : Rat) - 1) < J; linarith, by
      intro A hA v hv
      rw [List.mem_singleton.1 hv]
      refine index_value ?_
      have hp := h3 A hA
      have hlt : j < (ord A).length := by rw [hp.length_eq]; simpa using hj
      rw [getD_of_lt hlt]
      exact List.mem_range.1 (hp.mem_iff.1 (List.getElem_mem _))⟩ (by simp) (by omega)
  replace N3 := N3.congr (g' := fun A => [T.entry J m ((ord A).getD j 0)]) (by
    intro A hA
    have hp := h3 A hA
    have hlt : j < (ord A).length := by rw [hp.length_eq]; simpa using hj
    have hsm : (ord A).getD j 0 < J := by
      rw [getD_of_lt hlt]
      exact List.mem_range.1 (hp.mem_iff.1 (List.getElem_mem _))
    rw [List.map_singleton, toSS_natCast, Int.toNat_natCast, getD_rowOf hsm]
    rfl)
  refine ⟨s3, s2.length, ?_, N3.state, N1.ext.trans (N2.ext.trans N3.ext), ?_, ⟨_, _, _, N3.has⟩⟩
  · unfold Generators.flowTerm
    simp only [e1, e2, e3, Res.ok_bind]
  · obtain ⟨b, out, hc, rfl⟩ := add_eq e3
    unfold Fresh
    rw [row_last]
    rintro rfl
    simp only [Term.construct, List.map_cons, Res.bind_eq_ok] at hc
    obtain ⟨_, _, _, _, _, _, _, _, hc⟩ := hc
    cases hc

/-- The end times of the first `k` jobs. -/
structure Ends (s : Script) (ids : List Nat) (k : Nat) (f : Nat → (Nat → Val) → Rat) : Prop where
  length : ids.length = k
  each : ∀ j < k, Computes every s (ids.getD j 0) (f j)

theorem Ends.mono {ids : List Nat} {k : Nat} {f : Nat → (Nat → Val) → Rat} (h : Ends s ids k f) (e : Ext every s s') : Ends s' ids k f :=
  ⟨h.length, fun j hj => (h.each j hj).mono e⟩

theorem getD_append_left {a b : List Nat} {i : Nat} (h : i < a.length) : (a ++ b).getD i 0 = a.getD i 0 := by
  rw [List.getD_eq_getElem?_getD, List.getElem?_append_left h, List.getD_eq_getElem?_getD]

theorem Ends.snoc {ids : List Nat} {k x : Nat} {f : Nat → (Nat → Val) → Rat} (h : Ends s ids k f) (hx : Computes every s x (f k)) :
    Ends s (ids ++ [x]) (k + 1) f := by
  refine ⟨by simp [h.length], fun j hj => ?_⟩
  rcases Nat.lt_succ_iff_lt_or_eq.1 hj with hj | rfl
  · rw [getD_append_left (by rw [h.length]; exact hj)]
    exact h.each j hj
  · have : (ids ++ [x]).getD j 0 = x := by
      simp [List.getD_eq_getElem?_getD, ← h.length]
    rw [this]
    exact hx

theorem Ends.last {ids : List Nat} {k : Nat} {f : Nat → (Nat → Val) → Rat} (h : Ends s ids (k + 1) f) :
    Computes every s (ids.getLastD 0) (f k) := by
  have e : ids.getLastD 0 = ids.getD k 0 := by
    rw [List.getLastD_eq_getLast?, List.getLast?_eq_getElem?, h.length, List.getD_eq_getElem?_getD]
    rfl
  rw [e]
  exact h.each k (by omega)

theorem Ends.congr {ids : List Nat} {k : Nat} {f f' : Nat → (Nat → Val) → Rat} (h : Ends s ids k f) (e : ∀ j, f j = f' j) : Ends s ids k f' :=
  ⟨h.length, fun j hj => e j ▸ h.each j hj⟩

/-- A sum of two numbers. -/
theorem two_terms (S : State full every s D adm) {x y : Nat} {f g : (Nat → Val) → Rat} (hx : Computes every s x f) (hy : Computes every s y g) :
    ∃ s', s.add (.kind (.nary .add)) [x, y] = .ok (s', s.length) ∧ State full every s' D adm ∧ Ext every s s' ∧
      Computes every s' s.length fun A => f A + g A := by
  obtain ⟨s', e, S', x', _, h⟩ := S.nary trivial (ops := [x, y]) (by simp) (.cons hx (.cons hy .nil))
  refine ⟨s', e, S', x', ?_⟩
  simpa using h

variable (M J T) in
/-- When the `k`-th job is finished. -/
abbrev finishes (ord : (Nat → Val) → List Nat) (m k : Nat) (A : Nat → Val) : Rat := (flowShopOf M J T).finish (ord A) m k

theorem entry_nonneg (hT0 : ∀ x ∈ T.data, 0 ≤ x) (m j : Nat) : 0 ≤ T.entry J m j := by
  unfold Arr.entry
  rw [List.getD_eq_getElem?_getD]
  cases h : T.data[m * J + j]? with
  | none => exact le_rfl
  | some x => exact hT0 x (List.mem_of_getElem? h)

theorem finish_nonneg (hT0 : ∀ x ∈ T.data, 0 ≤ x) (order : List Nat) (k : Nat) : 0 ≤ (flowShopOf M J T).finish order 0 k := by
  cases k with
  | zero =>
    show 0 ≤ (0 : Rat) + T.entry J 0 _
    linarith [entry_nonneg (J := J) hT0 0 (order.getD 0 0)]
  | succ k =>
    show 0 ≤ max 0 ((flowShopOf M J T).finish order 0 k) + T.entry J 0 _
    have := le_max_left (0 : Rat) ((flowShopOf M J T).finish order 0 k)
    linarith [entry_nonneg (J := J) hT0 0 (order.getD (k + 1) 0)]

/-- The first machine. -/
theorem flowFirst_ok (hT0 : ∀ x ∈ T.data, 0 ≤ x) (S : State full every s D adm) (hb : FlowBase M J T ord adm s ti od) (hM : (M : Int) ≤ ssMax) (hJ : (J : Int) ≤ ssMax)
    (hMJ : (M : Int) * J ≤ ssMax) (hM0 : 0 < M) : ∀ k ≤ J,
    ∃ s' ids, (List.range k).foldlM (Generators.flowFirst ti od) (s, []) = .ok (s', ids) ∧ State full every s' D adm ∧ Ext every s s' ∧
      Ends s' ids k (finishes M J T ord 0) ∧ (0 < k → Fresh s' (ids.getD 0 0)) := by
  intro k
  induction k with
  | zero =>
    intro _
    exact ⟨s, [], rfl, S, Ext.refl, ⟨rfl, by intro j hj; omega⟩, by omega⟩
  | succ k ih =>
    intro hk
    obtain ⟨s1, ids, e1, S1, x1, E1, F1⟩ := ih (by omega)
    obtain ⟨s2, x, e2, S2, x2, F2, C2⟩ := flowTerm_ok S1 (hb.mono x1) hM hJ hMJ hM0 (show k < J by omega)
    rw [List.range_succ, List.foldlM_append, e1, Res.ok_bind, List.foldlM_cons]
    cases k with
    | zero =>
      have hids : ids = [] := List.length_eq_zero_iff.1 E1.length
      subst hids
      refine ⟨s2, [x], ?_, S2, x1.trans x2, ?_, fun _ => F2⟩
      · unfold Generators.flowFirst
        simp only [e2, Res.ok_bind]
        rfl
      · refine (E1.mono x2).snoc (f := finishes M J T ord 0) ?_
        have : finishes M J T ord 0 0 = fun A => T.entry J 0 ((ord A).getD 0 0) := by
          funext A
          exact zero_add _
        rw [this]
        exact C2
    | succ k =>
      obtain ⟨s3, e3, S3, x3, C3⟩ := two_terms S2 C2 (E1.mono x2).last
      refine ⟨s3, ids ++ [s2.length], ?_, S3, x1.trans (x2.trans x3), ?_, ?_⟩
      · unfold Generators.flowFirst
        simp only [e2, Res.ok_bind, if_neg (Nat.succ_ne_zero k), F2.iadd, e3]
        rfl
      · refine (E1.mono (x2.trans x3)).snoc ?_
        have : (finishes M J T ord 0 (k + 1)) = fun A => T.entry J 0 ((ord A).getD (k + 1) 0) + finishes M J T ord 0 k A := by
          funext A
          show max 0 (finishes M J T ord 0 k A) + T.entry J 0 ((ord A).getD (k + 1) 0) = _
          rw [max_eq_right (finish_nonneg hT0 _ _), add_comm]
        rw [this]
        exact C3
      · intro _
        rw [getD_append_left (by rw [E1.length]; omega)]
        have := F1 (by omega)
        exact this.ext (x2.trans x3) (E1.each 0 (by omega)).lt

theorem fresh_add {k : Kind} {ops : List Nat} {i : Nat} (e : s.add (.kind k) ops = .ok (s', i)) (hk : k ≠ .nary .add) : Fresh s' s.length := by
  obtain ⟨b, out, hc, rfl⟩ := add_eq e
  unfold Fresh
  rw [row_last]
  rintro rfl
  change Kind.construct _ _ _ _ _ = _ at hc
  unfold Kind.construct at hc
  have key : ∀ asked : Res (List Claim), (do
      let asked ← asked
      guardThrow (k.rangeChecks asked)
      let shapes ← k.make ((ops.map fun p => (s.row p).out).map Info.shapes)
      Res.ok (Built.kind k, (⟨shapes, k.claimFrom s.sizes (ops.map fun p => (s.row p).out),
        k.sizeFrom s.length shapes ops (ops.map fun p => (s.row p).out), k.value⟩ : Info))) =
      Res.ok (Built.kind (.nary .add), out) → False := by
    intro asked hc
    obtain ⟨_, _, hc⟩ := Res.bind_eq_ok.1 hc
    obtain ⟨_, _, hc⟩ := Res.bind_eq_ok.1 hc
    obtain ⟨_, _, hc⟩ := Res.bind_eq_ok.1 hc
    cases hc
    exact hk rfl
  dsimp only at hc
  split_ifs at hc with ha
  · exact key _ hc
  · exact key (.ok []) hc

/-- When a job can start. -/
def readyAt (prev cur : Nat → (Nat → Val) → Rat) : Nat → (Nat → Val) → Rat
  | 0 => prev 0
  | k + 1 => fun A => max (prev (k + 1) A) (cur k A)

/-- The next machine, if the end times of the first job are not sums yet. -/
theorem flowNext_ok (S : State full every s D adm) (hb : FlowBase M J T ord adm s ti od) (hM : (M : Int) ≤ ssMax) (hJ : (J : Int) ≤ ssMax)
    (hMJ : (M : Int) * J ≤ ssMax) {m : Nat} (hm : m + 1 < M) {before : List Nat} (hbe : Ends s before J (finishes M J T ord m))
    (hfresh : 0 < J → Fresh s (before.getD 0 0)) : ∀ k ≤ J,
    ∃ s' ids, (List.range k).foldlM (Generators.flowNext ti od (m + 1) before) (s, []) = .ok (s', ids) ∧ State full every s' D adm ∧
      Ext every s s' ∧ Ends s' ids k (finishes M J T ord (m + 1)) := by
  intro k
  induction k with
  | zero =>
    intro _
    exact ⟨s, [], rfl, S, Ext.refl, ⟨rfl, by intro j hj; omega⟩⟩
  | succ k ih =>
    intro hk
    obtain ⟨s1, ids, e1, S1, x1, E1⟩ := ih (by omega)
    rw [List.range_succ, List.foldlM_append, e1, Res.ok_bind, List.foldlM_cons]
    have ready : ∃ s2 r, Generators.flowReady before (s1, ids) k = .ok (s2, r) ∧ State full every s2 D adm ∧ Ext every s1 s2 ∧ Fresh s2 r ∧
        Computes every s2 r (readyAt (finishes M J T ord m) (finishes M J T ord (m + 1)) k) := by
      unfold Generators.flowReady
      cases k with
      | zero =>
        have h0 := hbe.each 0 (by omega)
        exact ⟨s1, before.getD 0 0, rfl, S1, Ext.refl, (hfresh (by omega)).ext x1 h0.lt, h0.mono x1⟩
      | succ k =>
        obtain ⟨_, _, _, h1⟩ := (hbe.mono x1).each (k + 1) (by omega)
        obtain ⟨_, _, _, h2⟩ := E1.last
        obtain ⟨s2, e2, N2⟩ := S1.binary trivial .maximum (by decide) h1 h2 (by simp [GoodShape]) rfl
        rw [if_neg (Nat.succ_ne_zero k)]
        replace N2 := N2.congr (g' := fun A => [readyAt (finishes M J T ord m) (finishes M J T ord (m + 1)) (k + 1) A]) (by
          intro A _
          show [if _ < _ then _ else _] = [max _ _]
          rw [max_def_lt])
        exact ⟨s2, s1.length, e2, N2.state, N2.ext, fresh_add e2 (by simp), ⟨_, _, _, N2.has⟩⟩
    obtain ⟨s2, r, e2, S2, x2, F2, C2⟩ := ready
    obtain ⟨s3, x, e3, S3, x3, F3, C3⟩ := flowTerm_ok S2 (hb.mono (x1.trans x2)) hM hJ hMJ hm (show k < J by omega)
    obtain ⟨s4, e4, S4, x4, C4⟩ := two_terms S3 (C2.mono x3) C3
    refine ⟨s4, ids ++ [s3.length], ?_, S4, x1.trans (x2.trans (x3.trans x4)), (E1.mono (x2.trans (x3.trans x4))).snoc ?_⟩
    · unfold Generators.flowNext
      simp only [e2, e3, Res.ok_bind, (F2.ext x3 C2.lt).iadd, e4]
      rfl
    · have : finishes M J T ord (m + 1) k =
          fun A => readyAt (finishes M J T ord m) (finishes M J T ord (m + 1)) k A + T.entry J (m + 1) ((ord A).getD k 0) := by
        funext A
        cases k <;> rfl
      rw [this]
      exact C4

/-- One machine or two. -/
theorem flowMachines_ok (hT0 : ∀ x ∈ T.data, 0 ≤ x) (S : State full every s D adm) (hb : FlowBase M J T ord adm s ti od) (hM : (M : Int) ≤ ssMax) (hJ : (J : Int) ≤ ssMax)
    (hMJ : (M : Int) * J ≤ ssMax) (h1 : 0 < M) (h2 : M ≤ 2) :
    ∃ s' ids, (List.range M).foldlM (Generators.flowMachine ti od J) (s, []) = .ok (s', ids) ∧ State full every s' D adm ∧
      Ext every s s' ∧ Ends s' ids J (finishes M J T ord (M - 1)) := by
  obtain ⟨s1, ids1, e1, S1, x1, E1, F1⟩ := flowFirst_ok hT0 S hb hM hJ hMJ h1 J le_rfl
  rcases (by omega : M = 1 ∨ M = 2) with rfl | rfl
  · refine ⟨s1, ids1, ?_, S1, x1, E1⟩
    show (Generators.flowMachine ti od J (s, []) 0 >>= fun p => List.foldlM (Generators.flowMachine ti od J) p []) = _
    rw [Generators.flowMachine, if_pos rfl, e1]
    rfl
  · obtain ⟨s2, ids2, e2, S2, x2, E2⟩ := flowNext_ok S1 (hb.mono x1) hM hJ hMJ (m := 0) (by omega) E1 F1 J le_rfl
    refine ⟨s2, ids2, ?_, S2, x1.trans x2, E2⟩
    show (Generators.flowMachine ti od J (s, []) 0 >>= fun p => List.foldlM (Generators.flowMachine ti od J) p [1]) = _
    rw [Generators.flowMachine, if_pos rfl, e1, Res.ok_bind, List.foldlM_cons, Generators.flowMachine, if_neg (by decide), e2, Res.ok_bind]
    rfl

theorem flow_proves (hT : T.IsMatrix M J) (h0 : ∀ x ∈ T.data, 0 ≤ x) (hM0 : 0 < M) (hM2 : M ≤ 2) (hJ0 : 0 < J)
    (hMJ : (M : Int) * J ≤ ssMax) :
    ∃ G, Generators.flowShop T = .ok G ∧ Proves full every G (flowShopOf M J T).problem := by
  obtain ⟨hshape, hlen⟩ := hT
  have hM : (M : Int) ≤ ssMax := by
    have : (M : Int) * 1 ≤ M * J := by gcongr; omega
    omega
  have hJ : (J : Int) ≤ ssMax := by
    have : 1 * (J : Int) ≤ M * J := by gcongr; omega
    omega
  have hreq : Generators.require 2 false true false T = .ok T :=
    require_ok (by rw [hshape]; rfl) (by simp) (fun _ => h0) (by simp)
  have hwf : T.WF := wf_of_matrix ⟨hshape, hlen⟩
  obtain ⟨s0, e0, N0⟩ := (state_nil (full := full) (P := every)).constant trivial T hwf (by rw [hshape]; simp [GoodShape])
    (by rw [hshape]; simp [dynamicShape])
  obtain ⟨s1, e1, N1⟩ := N0.state.collection trivial J J J le_rfl le_rfl
  have hc0 : collSh J J = [(J : Int)] := by simp [collSh]
  rw [hc0, if_pos rfl] at N1
  have hA : ∀ A : Nat → Val, (∃ l, IsColl J J J l ∧ A s0.length = collVal J J l) →
      ∃ l : List Nat, l.Perm (List.range J) ∧ A s0.length = shownList [(J : Int)] l ∧
        (single (A s0.length)).data = l.map fun k : Nat => (k : Rat) := by
    rintro A ⟨l, hl, e⟩
    refine ⟨l, isColl_full.1 hl, ?_, ?_⟩
    · rw [e, collVal, hc0]; rfl
    · rw [e]; rfl
  have hround : ∀ l : List Nat, (l.map fun k : Nat => (k : Rat)).map (fun v => (toSS v).toNat) = l := by
    intro l
    rw [List.map_map]
    conv_rhs => rw [← List.map_id l]
    refine List.map_congr_left fun k _ => ?_
    show (toSS (k : Rat)).toNat = k
    rw [toSS_natCast, Int.toNat_natCast]
  have hb : FlowBase M J T (fun A => (single (A s0.length)).data.map fun v => (toSS v).toNat)
      (fun A => ∃ l, IsColl J J J l ∧ A s0.length = collVal J J l) s1 ([] : Script).length s0.length := by
    refine ⟨⟨_, _, _, by have := N0.has.mono N1.ext; rw [hshape] at this; exact this⟩, ⟨_, _, (N1.congr (fun A h => ?_)).has⟩, ?_⟩
    · obtain ⟨l, _, _, e⟩ := hA A h
      rw [e, hround]
    · intro A h
      obtain ⟨l, hp, _, e⟩ := hA A h
      rw [e, hround]
      exact hp
  obtain ⟨s2, ids, e2, S2, x2, E2⟩ := flowMachines_ok h0 N1.state hb hM hJ hMJ hM0 hM2
  obtain ⟨j, rfl⟩ : ∃ j, J = j + 1 := ⟨J - 1, by omega⟩
  have hlast := E2.last
  refine ⟨⟨s2, some (ids.getLastD 0), []⟩, ?_, ?_⟩
  · unfold Generators.flowShop
    rw [hreq, Res.ok_bind, guardThrow_true (by
      rw [hshape]
      simp only [List.prod_cons, List.prod_nil, mul_one]
      have : (0 : Int) < M * ((j + 1 : Nat) : Int) := by positivity
      omega), Res.ok_bind]
    have g0 : (T.shape.getD 0 0).toNat = M := by rw [hshape]; simp
    have g1 : (T.shape.getD 1 0).toNat = j + 1 := by rw [hshape]; simp
    simp only [g0, g1, e0, e1, e2, Res.ok_bind]
    exact minimize_ok hlast none []
  · refine State.proves (d := s0.length) S2 S2.good.complete (fun _ h => h) ?_ (o := ids.getLastD 0) rfl hlast.lt ?_ (qs := []) .nil
      (by simp [FlowShop.problem])
    · intro A
      simp only [isColl_full, collVal, hc0]
      rfl
    · intro order ho vals hr
      have hadm : ∃ l, IsColl (j + 1) (j + 1) (j + 1) l ∧ (flowShopOf M (j + 1) T).problem.values order s0.length = collVal (j + 1) (j + 1) l :=
        ⟨order, isColl_full.2 ho, by rw [collVal, hc0]; rfl⟩
      rw [hlast.front S2 hadm hr]
      congr 1
      show FlowShop.finish _ _ _ _ = FlowShop.finish _ _ _ _
      congr 1
      exact hround order

end Verif
