import Verif.Lemmas.GenerateWindows

set_option linter.unusedSectionVars false
set_option linter.unusedSimpArgs false
set_option linter.unusedVariables false

/-! Helper lemmas: when the model of vehicle routing with time windows cannot be made, and what models encode. -/

namespace Verif

open Script Graph

variable {full : Prop} {P : Nat → Prop} {s s' : Script} {D : Nat → Prop} {adm : (Nat → Val) → Prop}

theorem timed_many {n r size m : Nat} {c : Generators.WindowsSymbols} {d : WindowsTables} {g : (Nat → Val) → List Rat}
    (S : State full P s D adm) (hP : ∀ i, P i) (hr : IsRoute P adm n s r g) (hn : 0 < n) (hbig : (n : Int) + 1 < ssMax)
    (hc : WindowsConsts P n d c s) (hz : Computes P s size fun A => ((g A).length : Rat)) (hm : n + 1 < m) (cs hs : List Nat) :
    Generators.timed c m (⟨s, none, cs⟩, hs) (r, size) = .throw := by
  obtain ⟨s1, left, oks, e1, S1, x1, L1, F1⟩ := places_ok S hP hr hn hbig hc hz (n + 1) le_rfl
  have hm' : List.range m = List.range (n + 1) ++ (n + 1) :: (List.range (m - (n + 2))).map (n + 2 + ·) := by
    obtain ⟨k, rfl⟩ : ∃ k, m = (n + 1) + (1 + k) := ⟨m - (n + 2), by omega⟩
    rw [show n + 1 + (1 + k) - (n + 2) = k from by omega, List.range_add (n := n + 1), List.range_add (n := 1)]
    simp [Function.comp_def, Nat.add_assoc, Nat.add_comm, Nat.add_left_comm]
  have h1 : (List.range m).foldlM (Generators.place c r size) (s, none, []) = .throw := by
    rw [hm', List.foldlM_append, e1, Res.ok_bind, List.foldlM_cons]
    unfold Generators.place Generators.reaches
    rw [(hc.helper.mono x1).beyond (Nat.lt_succ_self n)]
    rfl
  unfold Generators.timed
  rw [h1]
  rfl

theorem timed_none {n r size : Nat} {c : Generators.WindowsSymbols} {d : WindowsTables} {g : (Nat → Val) → List Rat}
    (S : State full P s D adm) (hP : ∀ i, P i) (hr : IsRoute P adm n s r g) (hn : 0 < n) (hbig : (n : Int) + 1 < ssMax)
    (hc : WindowsConsts P n d c s) (hz : Computes P s size fun A => ((g A).length : Rat)) (cs hs : List Nat) :
    Generators.timed c 0 (⟨s, none, cs⟩, hs) (r, size) = .throw := by
  obtain ⟨s2, e2, S2, x2, l2, H2⟩ := S.lessEqual (hP _) hc.one hz
  obtain ⟨s3, i3, e3, S3, x3, I3⟩ := stopLast_ok S2 hP (hr.mono x2) hn hbig (hc.helper.mono x2) H2
  unfold Generators.timed
  rw [List.range_zero, List.foldlM_nil, Res.pure_eq, Res.ok_bind]
  dsimp only
  rw [e2, Res.ok_bind]
  dsimp only
  rw [e3, Res.ok_bind]
  rfl

theorem windowsConstraints_throw {n v demand cap depot : Nat} {W : List Rat} {c : Rat} {k : Generators.WindowsSymbols} {d : WindowsTables}
    {rs : List Nat} {gs : List ((Nat → Val) → List Rat)} (S : State full P s D adm) (hP : ∀ i, P i) (hn : 0 < n) (hbig : (n : Int) + 1 < ssMax)
    (hm : 3 * (n / v) = 0 ∨ n + 1 < 3 * (n / v)) (hne : rs ≠ [])
    (hr : List.Forall₂ (IsRoute P adm n s) rs gs) (hW : Table P s demand [(n : Int)] W) (hc : Computes P s cap fun _ => c)
    (hk : ∀ s' i, Ext P s s' → IsHelper P n s' i → WindowsConsts P n d { k with helper := i } s') :
    Generators.windowsConstraints k n v demand cap depot rs s = .throw := by
  obtain ⟨s1, loads, e1, S1, x1, F1⟩ := each_ok (f := Generators.load demand cap)
    (In := fun s r g => IsRoute P adm n s r g ∧ Table P s demand [(n : Int)] W ∧ Computes P s cap fun _ => c)
    (Out := fun s i (g : (Nat → Val) → List Rat) => Holds P s i fun A => decide (look W (g A) ≤ c))
    (fun e h => ⟨h.1.mono e, h.2.1.mono e, h.2.2.mono e⟩) (fun e h => h.mono e) (fun S h => load_ok S hP hn h.1 h.2.1 h.2.2) S
    (hr.imp fun _ _ h => ⟨h, hW, hc⟩)
  obtain ⟨s2, e2, S2, x2, H2⟩ := helper_ok (n := n) S1 (hP _)
  obtain ⟨s3, sizes, e3, S3, x3, F3⟩ := each_ok (f := fun r s => s.add (.kind .size) [r]) (In := fun s r g => IsRoute P adm n s r g)
    (Out := fun s i (g : (Nat → Val) → List Rat) => Computes P s i fun A => ((g A).length : Rat))
    (fun e h => h.mono e) (fun e h => h.mono e) (fun {s} _ _ S h => by
      obtain ⟨s', c, e, N⟩ := S.sizeOf (hP _) h.index.has
      exact ⟨s', s.length, e, N.state, N.ext, _, _, _, N.has⟩) S2 (hr.imp fun _ _ h => h.mono (x1.trans x2))
  obtain ⟨s4, e4, S4, x4, C4⟩ := number_ok S3 (hP _) ((3 * (n / v) : Nat) : Rat)
  obtain ⟨s5, short, e5, S5, x5, F5⟩ := each_ok (f := fun z s => s.add (.kind (.binary .lessEqual)) [z, s3.length])
    (In := fun s i (g : (Nat → Val) → List Rat) => (Computes P s i fun A => ((g A).length : Rat)) ∧
      Computes P s s3.length fun _ => ((3 * (n / v) : Nat) : Rat))
    (Out := fun s i (g : (Nat → Val) → List Rat) => Holds P s i fun A => decide ((g A).length ≤ 3 * (n / v)))
    (fun e h => ⟨h.1.mono e, h.2.mono e⟩) (fun e h => h.mono e) (fun {s} _ _ S h => by
      obtain ⟨s', e, S', x, _, H⟩ := S.lessEqual (hP _) h.1 h.2
      refine ⟨s', s.length, e, S', x, ?_⟩
      simpa only [Nat.cast_le] using H) S4 (F3.imp fun _ _ h => ⟨h.mono x4, C4⟩)
  have z5 := x4.trans x5
  have z3 := x3.trans z5
  have z2 := x2.trans z3
  have y5 := x1.trans z2
  have toMap : ∀ {s : Script} {is : List Nat} {q : ((Nat → Val) → List Rat) → (Nat → Val) → Bool},
      List.Forall₂ (fun i g => Holds P s i (q g)) is gs → List.Forall₂ (Holds P s) is (gs.map q) :=
    fun h => List.forall₂_map_right_iff.2 h
  have hloop : (rs.zip sizes).foldlM (Generators.timed { k with helper := s1.length } (3 * (n / v))) (⟨s5, none, loads ++ short⟩, []) = .throw := by
    have F := forall₂_zip (hr.imp fun _ _ h => h.mono y5) (F3.imp (S := fun i (g : (Nat → Val) → List Rat) => Computes P s5 i fun A => ((g A).length : Rat))
      fun _ _ h => h.mono z5)
    cases hr with
    | nil => exact absurd rfl hne
    | cons _ _ =>
      cases F3 with
      | cons _ _ =>
        rw [List.zip_cons_cons] at F ⊢
        cases F with
        | cons F _ =>
          rw [List.foldlM_cons]
          rcases hm with hm | hm
          · rw [hm, timed_none S5 hP F.1 hn hbig (hk _ _ y5 (H2.mono z3)) F.2]
            rfl
          · rw [timed_many S5 hP F.1 hn hbig (hk _ _ y5 (H2.mono z3)) F.2 hm]
            rfl
  unfold Generators.windowsConstraints
  rw [e1, Res.ok_bind]
  dsimp only
  rw [addConstraints_ok (toMap F1), Res.ok_bind]
  dsimp only
  rw [List.nil_append, e2, Res.ok_bind]
  dsimp only
  rw [e3, Res.ok_bind]
  dsimp only
  rw [e4, Res.ok_bind]
  dsimp only
  rw [e5, Res.ok_bind]
  dsimp only
  rw [addConstraints_ok (toMap F5), Res.ok_bind, hloop]
  rfl

theorem windows_throw {n v : Nat} {data : Generators.WindowsData} (hsh : data.Shaped n) (c : Rat) (hn : 0 < n) (hv : 0 < v)
    (hbig : (n : Int) + 1 < ssMax) (hm : 3 * (n / v) = 0 ∨ n + 1 < 3 * (n / v)) : Generators.windows data n v c = .throw := by
  obtain ⟨s0, k0, demand, cap, depot, e0, S0, T0, C0, D0, K0⟩ := windowsConstants_ok (full := True) (P := fun _ => True) hsh (fun _ => trivial) c
  obtain ⟨s5, e5, N5⟩ := S0.lists trivial n v hv
  obtain ⟨s6, e6, S6, x6, l6, h6⟩ := outputs_ok N5.state (g := fun k A => ((A s0.length).getD k ⟨[], []⟩).data)
    (fun _ _ => trivial) N5.has (by simp [GoodShape]) (by
      rintro A ⟨lists, ⟨hl, _⟩, e⟩ k hk
      rw [e, listsVal_getD (by omega)])
  have hroutes : List.Forall₂ (IsRoute (fun _ => True)
      (fun A => ∃ lists : List (List Nat), (lists.length = v ∧ lists.flatten.Perm (List.range n)) ∧ A s0.length = listsVal lists)
      n s6) ((List.range v).map (s5.length + ·)) ((List.range v).map fun k A => ((A s0.length).getD k ⟨[], []⟩).data) := by
    rw [List.forall₂_map_left_iff, List.forall₂_map_right_iff, List.forall₂_same]
    intro k hk
    have hk := List.mem_range.1 hk
    have hh := h6 k hk
    rw [if_pos (by decide)] at hh
    refine ⟨⟨hh, rfl, le_rfl, by show (n : Rat) - 1 < n; linarith, ?_⟩, ?_⟩
    · rintro A ⟨lists, ⟨hl, hp⟩, e⟩ u hu
      simp only [e] at hu
      rw [listsVal_getD (by omega)] at hu
      obtain ⟨j, hj, rfl⟩ := List.mem_map.1 hu
      exact index_value ((part_lt hp (List.getElem_mem _)).1 j hj)
    · rintro A ⟨lists, ⟨hl, hp⟩, e⟩
      simp only [e]
      rw [listsVal_getD (by omega)]
      simpa using (part_lt hp (List.getElem_mem _)).2
  have y6 := N5.ext.trans x6
  unfold Generators.windows
  rw [e0, Res.ok_bind]
  dsimp only
  rw [e5, Res.ok_bind]
  dsimp only
  rw [e6, Res.ok_bind]
  dsimp only
  rw [windowsConstraints_throw (d := data.tables) S6 (fun _ => trivial) hn hbig hm (by
    intro h
    have := congrArg List.length h
    simp at this
    omega) hroutes (T0.mono y6) (C0.mono y6) fun s' i e => K0 s' i (y6.trans e)]
  rfl

/-- All states that show the same have the same energy and feasibility. -/
theorem Generated.Encodes.represents {α : Type} {M : Generated} {p : Problem α} {m : PyModel} (h : M.Encodes p m) {A : Nat → Val} {st st' : St M.rows.sem}
    (hs : M.rows.Starts m.g A st) (hs' : M.rows.Starts m.g A st') {a : α} (hr : p.Represents m.g (M.rows.shown st) a) :
    p.Represents m.g (M.rows.shown st') a := by
  refine represents_congr (PyModel.reachable h.built).wf (fun v hv => ?_) hr
  obtain ⟨f, e, hf⟩ := hs
  obtain ⟨f', e', hf'⟩ := hs'
  rw [e] at e'
  cases e'
  have := (hf v hv).symm.trans (hf' v hv)
  unfold Script.shown
  rw [Option.some.inj this]

/-- What two problems encoded by the same model have in common. -/
theorem Generated.Encodes.agree {α : Type} {M : Generated} {p q : Problem α} {m : PyModel} (hp : M.Encodes p m) (hq : M.Encodes q m) {a : α}
    (ha : p.valid a) (ha' : q.valid a) (hv : p.values a = q.values a) : p.cost a = q.cost a ∧ (p.feasible a ↔ q.feasible a) := by
  obtain ⟨_, st, hs, hr⟩ := hp.sets a ha
  obtain ⟨_, st', hs', hr'⟩ := hq.sets a ha'
  rw [← hv] at hs'
  have hr2 := hq.represents hs' hs hr'
  have e := hr.energy.symm.trans hr2.energy
  obtain ⟨b, eb, hb⟩ := hr.feasible
  obtain ⟨b', eb', hb'⟩ := hr2.feasible
  rw [eb] at eb'
  cases eb'
  exact ⟨by injection e, hb.symm.trans hb'⟩

end Verif
