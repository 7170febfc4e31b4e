import Verif.Lemmas.WindowSchedule
import Verif.Lemmas.ScriptMore

set_option linter.unusedSectionVars false
set_option linter.unusedSimpArgs false
set_option linter.unusedVariables false

/-! Helper lemmas: the model of vehicle routing with time windows. -/

namespace Verif

open Script

variable {full : Prop} {P : Nat → Prop} {s s' : Script} {D : Nat → Prop} {adm : (Nat → Val) → Prop}

/-- A constant that is a vector. -/
theorem vector_ok {n : Nat} (S : State full P s D adm) (hP : P s.length) {a : Arr Rat} (ha : a.IsVector n) :
    ∃ s', s.add (.kind (.constant a)) [] = .ok (s', s.length) ∧ State full P s' D adm ∧ Ext P s s' ∧ Table P s' s.length [(n : Int)] a.data := by
  obtain ⟨sh, l⟩ := a
  obtain ⟨rfl, _⟩ := id ha
  obtain ⟨s', e, N⟩ := S.constant hP ⟨[(n : Int)], l⟩ (wf_of_vector ha) (by simp [GoodShape]) (by simp [dynamicShape])
  exact ⟨s', e, N.state, N.ext, wf_of_vector ha, _, _, N.has⟩

/-- A constant that is a matrix. -/
theorem matrix_ok {n m : Nat} (S : State full P s D adm) (hP : P s.length) {a : Arr Rat} (ha : a.IsMatrix n m) :
    ∃ s', s.add (.kind (.constant a)) [] = .ok (s', s.length) ∧ State full P s' D adm ∧ Ext P s s' ∧
      Table P s' s.length [(n : Int), (m : Int)] a.data := by
  obtain ⟨sh, l⟩ := a
  obtain ⟨rfl, _⟩ := id ha
  obtain ⟨s', e, N⟩ := S.constant hP ⟨[(n : Int), (m : Int)], l⟩ (wf_of_matrix ha) (by simp [GoodShape]) (by simp [dynamicShape])
  exact ⟨s', e, N.state, N.ext, wf_of_matrix ha, _, _, N.has⟩

/-- A constant that is a number. -/
theorem number_ok (S : State full P s D adm) (hP : P s.length) (x : Rat) :
    ∃ s', s.add (.kind (.constant (Generators.scalar x))) [] = .ok (s', s.length) ∧ State full P s' D adm ∧ Ext P s s' ∧
      Computes P s' s.length fun _ => x := by
  obtain ⟨s', e, N⟩ := S.constant hP (Generators.scalar x) (by simp [Generators.scalar, Arr.WF, Arr.dynamic, dynamicShape])
    (by simp [Generators.scalar, GoodShape]) rfl
  exact ⟨s', e, N.state, N.ext, _, _, _, N.has⟩

/-- `range_helper`. -/
theorem helper_ok {n : Nat} (S : State full P s D adm) (hP : P s.length) :
    ∃ s', s.add (.kind (.constant ⟨[(n : Int) + 1], (List.range (n + 1)).map fun k : Nat => (k : Rat)⟩)) [] = .ok (s', s.length) ∧
      State full P s' D adm ∧ Ext P s s' ∧ IsHelper P n s' s.length := by
  have hv : (⟨[(n : Int) + 1], (List.range (n + 1)).map fun k : Nat => (k : Rat)⟩ : Arr Rat).IsVector (n + 1) := ⟨rfl, by simp⟩
  obtain ⟨s', e, N⟩ := S.constant hP _ (wf_of_vector hv) (by simp [GoodShape]; omega) (by simp [dynamicShape]; omega)
  obtain ⟨c, ec, h1, h2, h3, h4⟩ := constant_index (a := ⟨[(n : Int) + 1], (List.range (n + 1)).map fun k : Nat => (k : Rat)⟩) (d := n + 1)
    (Nat.succ_pos n) rfl fun k hk => List.mem_range.1 hk
  have hh := N.has
  rw [ec] at hh
  exact ⟨s', e, N.state, N.ext, ⟨c, _, _, hh, h1, h2, h3, fun k hk =>
    (h4 k (List.mem_map.2 ⟨k, List.mem_range.2 (by omega), rfl⟩)).2⟩⟩

/-- The arrays have the right shapes. -/
structure Generators.WindowsData.Shaped (data : Generators.WindowsData) (n : Nat) : Prop where
  cust : data.cust.IsMatrix (n + 1) (n + 1)
  out : data.out.IsVector (n + 1)
  back : data.back.IsVector (n + 1)
  opens : data.opens.IsVector (n + 1)
  closes : data.closes.IsVector (n + 1)
  service : data.service.IsVector (n + 1)
  demand : data.demand.IsVector n

/-- The numbers in the arrays. -/
def Generators.WindowsData.tables (data : Generators.WindowsData) : WindowsTables :=
  ⟨data.cust.data, data.out.data, data.back.data, data.opens.data, data.closes.data, data.service.data⟩

theorem backSymbol_ok {n out : Nat} {data : Generators.WindowsData} (S : State full P s D adm) (hP : P s.length) (h : data.back.IsVector (n + 1))
    (ho : Table P s out [((n + 1 : Nat) : Int)] data.out.data) :
    ∃ s' i, Generators.backSymbol data s out = .ok (s', i) ∧ State full P s' D adm ∧ Ext P s s' ∧
      Table P s' i [((n + 1 : Nat) : Int)] data.back.data := by
  unfold Generators.backSymbol
  split_ifs with he
  · exact ⟨s, out, rfl, S, Ext.refl, he ▸ ho⟩
  · obtain ⟨s', e, S', x, T⟩ := vector_ok S hP h
    exact ⟨s', _, e, S', x, T⟩

theorem windowsConstants_ok {n : Nat} {data : Generators.WindowsData} (h : data.Shaped n) (hP : ∀ i, P i) (c : Rat) :
    ∃ s k demand cap depot, Generators.windowsConstants data c = .ok (s, k, demand, cap, depot) ∧
      State full P s (fun _ => False) (fun _ => True) ∧ Table P s demand [(n : Int)] data.demand.data ∧ (Computes P s cap fun _ => c) ∧
      (Computes P s depot fun _ => data.depotCloses) ∧
      ∀ s' i, Ext P s s' → IsHelper P n s' i → WindowsConsts P n data.tables { k with helper := i } s' := by
  obtain ⟨s0, e0, S0, x0, T0⟩ := vector_ok (state_nil (full := full) (P := P)) (hP _) h.out
  obtain ⟨s1, i1, e1, S1, x1, T1⟩ := backSymbol_ok S0 (hP _) h.back T0
  obtain ⟨s2, e2, S2, x2, T2⟩ := matrix_ok S1 (hP _) h.cust
  obtain ⟨s3, e3, S3, x3, T3⟩ := vector_ok S2 (hP _) h.opens
  obtain ⟨s4, e4, S4, x4, T4⟩ := vector_ok S3 (hP _) h.closes
  obtain ⟨s5, e5, S5, x5, T5⟩ := vector_ok S4 (hP _) h.service
  obtain ⟨s6, e6, S6, x6, T6⟩ := vector_ok S5 (hP _) h.demand
  obtain ⟨s7, e7, S7, x7, T7⟩ := number_ok S6 (hP _) c
  obtain ⟨s8, e8, S8, x8, T8⟩ := number_ok S7 (hP _) data.depotCloses
  obtain ⟨s9, e9, S9, x9, T9⟩ := number_ok S8 (hP _) 1
  have y7 := x8.trans x9
  have y6 := x7.trans y7
  have y5 := x6.trans y6
  have y4 := x5.trans y5
  have y3 := x4.trans y4
  have y2 := x3.trans y3
  have y1 := x2.trans y2
  refine ⟨s9, ⟨s1.length, ([] : Script).length, i1, s2.length, s3.length, s4.length, s8.length, 0⟩, s5.length, s6.length, s7.length, ?_, S9, T6.mono y6, T7.mono y7,
    T8.mono x9, ?_⟩
  · unfold Generators.windowsConstants
    rw [e0, Res.ok_bind]
    dsimp only
    rw [e1, Res.ok_bind]
    dsimp only
    simp only [e2, e3, e4, e5, e6, e7, e8, e9, Res.ok_bind]
  · intro s' i e hi
    exact ⟨T2.mono (y2.trans e), T0.mono ((x1.trans y1).trans e), T1.mono (y1.trans e), T3.mono (y3.trans e), T4.mono (y4.trans e),
      T5.mono (y5.trans e), T9.mono e, hi⟩

theorem forall₂_zip {α β γ : Type} {R : α → γ → Prop} {S : β → γ → Prop} {as : List α} {bs : List β} {cs : List γ} (h : List.Forall₂ R as cs)
    (h' : List.Forall₂ S bs cs) : List.Forall₂ (fun p c => R p.1 c ∧ S p.2 c) (as.zip bs) cs := by
  induction h generalizing bs with
  | nil => cases h'; exact .nil
  | cons h _ ih =>
    cases h' with
    | cons h' hs => exact .cons ⟨h, h'⟩ (ih hs)

/-- What the constraints say, in their order. -/
def windowsChecks (d : WindowsTables) (W : List Rat) (n m : Nat) (c depot : Rat) (gs : List ((Nat → Val) → List Rat)) : List ((Nat → Val) → Bool) :=
  (gs.map fun g A => decide (look W (g A) ≤ c)) ++ (gs.map fun g A => decide ((g A).length ≤ m)) ++
    (gs.flatMap fun g => (List.range m).map fun k A => decide (d.leave n (g A) k ≤ at1 d.closes (stopAt n (g A) k))) ++
    gs.map fun g A => decide (d.home n m (g A) ≤ depot)

theorem windowsConstraints_ok {n v demand cap depot : Nat} {W : List Rat} {c dc : Rat} {k : Generators.WindowsSymbols} {d : WindowsTables}
    {rs : List Nat} {gs : List ((Nat → Val) → List Rat)}
    (S : State full P s D adm) (hP : ∀ i, P i) (hn : 0 < n) (hbig : (n : Int) + 1 < ssMax) (hm0 : 0 < 3 * (n / v)) (hm : 3 * (n / v) ≤ n + 1)
    (hr : List.Forall₂ (IsRoute P adm n s) rs gs) (hW : Table P s demand [(n : Int)] W) (hc : Computes P s cap fun _ => c)
    (hdc : Computes P s depot fun _ => dc)
    (hk : ∀ s' i, Ext P s s' → IsHelper P n s' i → WindowsConsts P n d { k with helper := i } s') :
    ∃ s' i cs, Generators.windowsConstraints k n v demand cap depot rs s = .ok (⟨s', none, cs⟩, { k with helper := i }) ∧ State full P s' D adm ∧
      Ext P s s' ∧ List.Forall₂ (Holds P s') cs (windowsChecks d W n (3 * (n / v)) c dc gs) ∧ WindowsConsts P n d { k with helper := i } s' := by
  obtain ⟨s1, loads, e1, S1, x1, F1⟩ := each_ok (f := Generators.load demand cap)
    (In := fun s r g => IsRoute P adm n s r g ∧ Table P s demand [(n : Int)] W ∧ Computes P s cap fun _ => c)
    (Out := fun s i (g : (Nat → Val) → List Rat) => Holds P s i fun A => decide (look W (g A) ≤ c))
    (fun e h => ⟨h.1.mono e, h.2.1.mono e, h.2.2.mono e⟩) (fun e h => h.mono e) (fun S h => load_ok S hP hn h.1 h.2.1 h.2.2) S
    (hr.imp fun _ _ h => ⟨h, hW, hc⟩)
  obtain ⟨s2, e2, S2, x2, H2⟩ := helper_ok (n := n) S1 (hP _)
  obtain ⟨s3, sizes, e3, S3, x3, F3⟩ := each_ok (f := fun r s => s.add (.kind .size) [r]) (In := fun s r g => IsRoute P adm n s r g)
    (Out := fun s i (g : (Nat → Val) → List Rat) => Computes P s i fun A => ((g A).length : Rat))
    (fun e h => h.mono e) (fun e h => h.mono e) (fun {s} _ _ S h => by
      obtain ⟨s', c, e, N⟩ := S.sizeOf (hP _) h.index.has
      exact ⟨s', s.length, e, N.state, N.ext, _, _, _, N.has⟩) S2 (hr.imp fun _ _ h => h.mono (x1.trans x2))
  obtain ⟨s4, e4, S4, x4, C4⟩ := number_ok S3 (hP _) ((3 * (n / v) : Nat) : Rat)
  obtain ⟨s5, short, e5, S5, x5, F5⟩ := each_ok (f := fun z s => s.add (.kind (.binary .lessEqual)) [z, s3.length])
    (In := fun s i (g : (Nat → Val) → List Rat) => (Computes P s i fun A => ((g A).length : Rat)) ∧
      Computes P s s3.length fun _ => ((3 * (n / v) : Nat) : Rat))
    (Out := fun s i (g : (Nat → Val) → List Rat) => Holds P s i fun A => decide ((g A).length ≤ 3 * (n / v)))
    (fun e h => ⟨h.1.mono e, h.2.mono e⟩) (fun e h => h.mono e) (fun {s} _ _ S h => by
      obtain ⟨s', e, S', x, _, H⟩ := S.lessEqual (hP _) h.1 h.2
      refine ⟨s', s.length, e, S', x, ?_⟩
      simpa only [Nat.cast_le] using H) S4 (F3.imp fun _ _ h => ⟨h.mono x4, C4⟩)
  have z5 := x4.trans x5
  have z3 := x3.trans z5
  have z2 := x2.trans z3
  have y5 := x1.trans z2
  obtain ⟨s6, oks, homes, e6, S6, x6, F6, G6⟩ := timeds_ok (m := 3 * (n / v)) (d := d) hP hn hbig hm0 hm S5
    (forall₂_zip (hr.imp fun _ _ h => h.mono y5) (F3.imp fun _ _ h => h.mono z5)) (hk _ _ y5 (H2.mono z3)) (loads ++ short) []
  obtain ⟨s7, home, e7, S7, x7, F7⟩ := each_ok (f := fun t s => s.add (.kind (.binary .lessEqual)) [t, depot])
    (In := fun s i (g : (Nat → Val) → List Rat) => (Computes P s i fun A => d.home n (3 * (n / v)) (g A)) ∧ Computes P s depot fun _ => dc)
    (Out := fun s i (g : (Nat → Val) → List Rat) => Holds P s i fun A => decide (d.home n (3 * (n / v)) (g A) ≤ dc))
    (fun e h => ⟨h.1.mono e, h.2.mono e⟩) (fun e h => h.mono e) (fun {s} _ _ S h => by
      obtain ⟨s', e, S', x, _, H⟩ := S.lessEqual (hP _) h.1 h.2
      exact ⟨s', s.length, e, S', x, H⟩) S6 (G6.imp fun _ _ h => ⟨h, hdc.mono (y5.trans x6)⟩)
  have y7 := y5.trans (x6.trans x7)
  have toMap : ∀ {s : Script} {is : List Nat} {q : ((Nat → Val) → List Rat) → (Nat → Val) → Bool},
      List.Forall₂ (fun i g => Holds P s i (q g)) is gs → List.Forall₂ (Holds P s) is (gs.map q) :=
    fun h => List.forall₂_map_right_iff.2 h
  refine ⟨s7, s1.length, loads ++ short ++ oks ++ home, ?_, S7, y7, ?_, hk _ _ y7 (H2.mono (z3.trans (x6.trans x7)))⟩
  · unfold Generators.windowsConstraints
    rw [e1, Res.ok_bind]
    dsimp only
    rw [addConstraints_ok (toMap F1), Res.ok_bind]
    dsimp only
    rw [List.nil_append, e2, Res.ok_bind]
    dsimp only
    rw [e3, Res.ok_bind]
    dsimp only
    rw [e4, Res.ok_bind]
    dsimp only
    rw [e5, Res.ok_bind]
    dsimp only
    rw [addConstraints_ok (toMap F5), Res.ok_bind, e6, Res.ok_bind]
    dsimp only
    rw [List.nil_append, e7, Res.ok_bind]
    dsimp only
    rw [addConstraints_ok (toMap F7), Res.ok_bind]
  · unfold windowsChecks
    refine List.rel_append (List.rel_append (List.rel_append ?_ ?_) ?_) ?_
    · exact toMap (F1.imp fun _ _ h => h.mono (z2.trans (x6.trans x7)))
    · exact toMap (F5.imp fun _ _ h => h.mono (x6.trans x7))
    · exact F6.imp fun _ _ h => h.mono x7
    · exact toMap F7

theorem windowsChecks_iff {p : TimedRouting} {d : WindowsTables} {W : List Rat} (h : p.Agrees d) (ho : ∀ i < p.customers, 0 ≤ p.opens i)
    (hs : ∀ i < p.customers, 0 ≤ p.service i) (hd : 0 ≤ p.depotCloses) (hW : ∀ i < p.customers, W.getD i 0 = p.demand i) {m : Nat}
    {routes : List (List Nat)} (hv : routes.length = p.vehicles) (hp : routes.flatten.Perm (List.range p.customers)) {A : Nat → Val} {x : Nat}
    (hA : A x = listsVal routes) :
    (∀ q ∈ windowsChecks d W p.customers m p.capacity p.depotCloses ((List.range p.vehicles).map fun k A => ((A x).getD k ⟨[], []⟩).data), q A = true) ↔
      (p.limited m).feasible routes := by
  unfold windowsChecks
  simp only [List.forall_mem_append, List.map_map, List.flatMap_map, List.forall_mem_map, List.mem_flatMap, Function.comp, hA, decide_eq_true_eq]
  have key : ∀ F : List Rat → Prop, (∀ k ∈ List.range p.vehicles, F ((listsVal routes).getD k ⟨[], []⟩).data) ↔
      ∀ r ∈ routes, F (r.map fun k : Nat => (k : Rat)) := by
    intro F
    have e := map_shown (fun l => F l) (v := p.vehicles) hv
    have h1 : (∀ q ∈ (List.range p.vehicles).map fun k => F ((listsVal routes).getD k ⟨[], []⟩).data, q) ↔
        ∀ k ∈ List.range p.vehicles, F ((listsVal routes).getD k ⟨[], []⟩).data := List.forall_mem_map
    rw [← h1, e, List.forall_mem_map]
  have key3 : (∀ q : (Nat → Val) → Bool, (∃ k ∈ List.range p.vehicles, q ∈ (List.range m).map fun j (A : Nat → Val) =>
        decide (d.leave p.customers ((A x).getD k ⟨[], []⟩).data j ≤ at1 d.closes (stopAt p.customers ((A x).getD k ⟨[], []⟩).data j))) → q A = true) ↔
      ∀ r ∈ routes, ∀ j < m, d.leave p.customers (r.map fun k : Nat => (k : Rat)) j ≤ at1 d.closes (stopAt p.customers (r.map fun k : Nat => (k : Rat)) j) := by
    rw [← key fun l => ∀ j < m, d.leave p.customers l j ≤ at1 d.closes (stopAt p.customers l j)]
    constructor
    · intro hq k hk j hj
      have := hq _ ⟨k, hk, List.mem_map.2 ⟨j, List.mem_range.2 hj, rfl⟩⟩
      rw [decide_eq_true_eq, hA] at this
      exact this
    · rintro hq q ⟨k, hk, hq'⟩
      obtain ⟨j, hj, rfl⟩ := List.mem_map.1 hq'
      rw [decide_eq_true_eq, hA]
      exact hq k hk j (List.mem_range.1 hj)
  rw [key fun l => look W l ≤ p.capacity, key fun l => l.length ≤ m, key fun l => d.home p.customers m l ≤ p.depotCloses, key3]
  show _ ↔ ∀ r ∈ routes, _
  constructor
  · rintro ⟨⟨⟨h1, h2⟩, h3⟩, h4⟩ r hr
    have hl := (part_lt hp hr).1
    have h2' : r.length ≤ m := by simpa using h2 r hr
    have := (route_feasible h ho hs hd hl h2').1 ⟨h3 r hr, h4 r hr⟩
    refine ⟨?_, this.1, h2', this.2⟩
    have := h1 r hr
    rw [look_cast] at this
    rwa [← List.map_congr_left fun k hk => hW k (hl k hk)]
  · intro hf
    refine ⟨⟨⟨fun r hr => ?_, fun r hr => by simpa using (hf r hr).2.2.1⟩, fun r hr => ?_⟩, fun r hr => ?_⟩
    · have := (hf r hr).1
      rw [look_cast]
      rwa [← List.map_congr_left fun k hk => hW k ((part_lt hp hr).1 k hk)] at this
    · exact ((route_feasible h ho hs hd (part_lt hp hr).1 (hf r hr).2.2.1).2 ⟨(hf r hr).2.1, (hf r hr).2.2.2⟩).1
    · exact ((route_feasible h ho hs hd (part_lt hp hr).1 (hf r hr).2.2.1).2 ⟨(hf r hr).2.1, (hf r hr).2.2.2⟩).2

theorem windows_proves {p : TimedRouting} {data : Generators.WindowsData} (hsh : data.Shaped p.customers) (h : p.Agrees data.tables)
    (hW : ∀ i < p.customers, data.demand.data.getD i 0 = p.demand i) (hdc : data.depotCloses = p.depotCloses)
    (ho : ∀ i < p.customers, 0 ≤ p.opens i) (hs : ∀ i < p.customers, 0 ≤ p.service i) (hd : 0 ≤ p.depotCloses)
    (hn : 0 < p.customers) (hv : 0 < p.vehicles) (hbig : (p.customers : Int) + 1 < ssMax) (hm0 : 0 < 3 * (p.customers / p.vehicles))
    (hm : 3 * (p.customers / p.vehicles) ≤ p.customers + 1) :
    ∃ M, Generators.windows data p.customers p.vehicles p.capacity = .ok M ∧
      Proves full (fun _ => True) M (p.limited (3 * (p.customers / p.vehicles))) := by
  obtain ⟨s0, k0, demand, cap, depot, e0, S0, T0, C0, D0, K0⟩ := windowsConstants_ok (full := full) (P := fun _ => True) hsh (fun _ => trivial) p.capacity
  obtain ⟨s5, e5, N5⟩ := S0.lists trivial p.customers p.vehicles hv
  obtain ⟨s6, e6, S6, x6, l6, h6⟩ := outputs_ok N5.state (g := fun k A => ((A s0.length).getD k ⟨[], []⟩).data)
    (fun _ _ => trivial) N5.has (by simp [GoodShape]) (by
      rintro A ⟨lists, ⟨hl, _⟩, e⟩ k hk
      rw [e, listsVal_getD (by omega)])
  have hroutes : List.Forall₂ (IsRoute (fun _ => True)
      (fun A => ∃ lists : List (List Nat), (lists.length = p.vehicles ∧ lists.flatten.Perm (List.range p.customers)) ∧ A s0.length = listsVal lists)
      p.customers s6) ((List.range p.vehicles).map (s5.length + ·)) ((List.range p.vehicles).map fun k A => ((A s0.length).getD k ⟨[], []⟩).data) := by
    rw [List.forall₂_map_left_iff, List.forall₂_map_right_iff, List.forall₂_same]
    intro k hk
    have hk := List.mem_range.1 hk
    have hh := h6 k hk
    rw [if_pos (by decide)] at hh
    refine ⟨⟨hh, rfl, le_rfl, by show (p.customers : Rat) - 1 < p.customers; linarith, ?_⟩, ?_⟩
    · rintro A ⟨lists, ⟨hl, hp⟩, e⟩ u hu
      simp only [e] at hu
      rw [listsVal_getD (by omega)] at hu
      obtain ⟨j, hj, rfl⟩ := List.mem_map.1 hu
      exact index_value ((part_lt hp (List.getElem_mem _)).1 j hj)
    · rintro A ⟨lists, ⟨hl, hp⟩, e⟩
      simp only [e]
      rw [listsVal_getD (by omega)]
      simpa using (part_lt hp (List.getElem_mem _)).2
  have y6 := N5.ext.trans x6
  obtain ⟨s7, i, cs, e7, S7, x7, F7, K7⟩ := windowsConstraints_ok (d := data.tables) S6 (fun _ => trivial) hn hbig hm0 hm hroutes (T0.mono y6)
    (C0.mono y6) (D0.mono y6) fun s' i e => K0 s' i (y6.trans e)
  obtain ⟨s8, ts, e8, S8, x8, F8⟩ := travels_ok (fun _ => trivial) hbig S7 (hroutes.imp fun _ _ h => h.mono x7) K7 []
  rw [List.nil_append] at e8
  obtain ⟨s9, e9, S9, x9, l9, C9⟩ := S8.nary trivial (ops := ts) (by
    rintro rfl
    cases hh : (List.range p.vehicles) with
    | nil => simp at hh; omega
    | cons a l =>
      rw [hh] at F8
      cases F8) F8
  refine ⟨⟨s9, some s8.length, cs⟩, ?_, ?_⟩
  · unfold Generators.windows
    rw [e0, Res.ok_bind]
    dsimp only
    rw [e5, Res.ok_bind]
    dsimp only
    rw [e6, Res.ok_bind]
    dsimp only
    rw [e7, Res.ok_bind]
    dsimp only
    rw [e8, Res.ok_bind]
    dsimp only
    rw [e9, Res.ok_bind]
    exact minimize_ok C9 none cs
  · refine State.proves (d := s0.length) S9 S9.good.complete (fun _ h => h) ?_ (o := s8.length) rfl C9.lt ?_
      (F7.imp fun _ _ h => (h.mono (x8.trans x9)).computes) ?_
    · intro A
      rfl
    · intro routes hr vals hrun
      rw [C9.front S9 ⟨routes, hr, rfl⟩ hrun]
      congr 1
      rw [sum_triples, List.map_map]
      show ((List.range p.vehicles).map fun k => (fun l : List Rat => look data.tables.out (l.take 1) + (look data.tables.back (l.drop (l.length - 1)) +
        data.tables.legs p.customers l)) ((listsVal routes).getD k ⟨[], []⟩).data).sum = _
      rw [map_shown (fun l : List Rat => look data.tables.out (l.take 1) + (look data.tables.back (l.drop (l.length - 1)) + data.tables.legs p.customers l))
        (v := p.vehicles) hr.1]
      show _ = (routes.map _).sum
      congr 1
      exact List.map_congr_left fun l hl => length_back h l (part_lt hr.2 hl).1
    · intro routes hr
      rw [hdc]
      exact windowsChecks_iff h ho hs hd hW hr.1 hr.2 rfl

end Verif
