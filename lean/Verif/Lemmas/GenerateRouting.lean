import Verif.Lemmas.ScriptDynamic
import Verif.Lemmas.GenerateBins
import Verif.Model.GeneratorsRouting
import Verif.Spec.ProblemsRouting

set_option linter.unusedSectionVars false
set_option linter.unusedSimpArgs false
set_option linter.unusedVariables false

/-! Helper lemmas: the model of vehicle routing. -/

namespace Verif

open Script

variable {full : Prop} {P : Nat → Prop} {s s' : Script} {D : Nat → Prop} {adm : (Nat → Val) → Prop}

theorem size_first (x : Nat) : SizeInfo.ofSlice x 1 1 ⟨0, 1, 1⟩ = .ok ⟨some x, 1, 0, none, some 1⟩ := by
  unfold SizeInfo.ofSlice
  rw [guardUB_true (by norm_num), Res.ok_bind, guardUB_true (by norm_num), Res.ok_bind]
  show Res.ok (SizeInfo.mk (some x) _ _ _ _) = Res.ok (SizeInfo.mk (some x) _ _ _ _)
  congr 2 <;> decide +kernel

theorem size_last (x : Nat) : SizeInfo.ofSlice x 1 1 ⟨-1, ssMax, 1⟩ = .ok ⟨some x, 1, 0, none, some 1⟩ := by
  unfold SizeInfo.ofSlice
  rw [guardUB_true (by norm_num), Res.ok_bind, guardUB_true (by norm_num), Res.ok_bind]
  show Res.ok (SizeInfo.mk (some x) _ _ _ _) = Res.ok (SizeInfo.mk (some x) _ _ _ _)
  congr 2 <;> decide +kernel

theorem size_init (x : Nat) : SizeInfo.ofSlice x 1 1 ⟨0, -1, 1⟩ = .ok ⟨some x, 1, -1, none, none⟩ := by
  unfold SizeInfo.ofSlice
  rw [guardUB_true (by norm_num), Res.ok_bind, guardUB_true (by norm_num), Res.ok_bind]
  show Res.ok (SizeInfo.mk (some x) _ _ _ _) = Res.ok (SizeInfo.mk (some x) _ _ _ _)
  congr 2 <;> decide +kernel

theorem size_tail (x : Nat) : SizeInfo.ofSlice x 1 1 ⟨1, ssMax, 1⟩ = .ok ⟨some x, 1, -1, none, none⟩ := by
  unfold SizeInfo.ofSlice
  rw [guardUB_true (by norm_num), Res.ok_bind, guardUB_true (by norm_num), Res.ok_bind]
  show Res.ok (SizeInfo.mk (some x) _ _ _ _) = Res.ok (SizeInfo.mk (some x) _ _ _ _)
  congr 2 <;> decide +kernel

/-- A route with some of `n` customers. -/
structure IsRoute (P : Nat → Prop) (adm : (Nat → Val) → Prop) (n : Nat) (s : Script) (r : Nat) (g : (Nat → Val) → List Rat) : Prop where
  index : IsIndex P s adm n r [-1] ⟨⟨0, n - 1⟩, true⟩ (.of r (some 0) (some n)) none g
  short : ∀ A, adm A → (g A).length ≤ n

theorem IsRoute.mono {n r : Nat} {g : (Nat → Val) → List Rat} (h : IsRoute P adm n s r g) (e : Ext P s s') : IsRoute P adm n s' r g :=
  ⟨h.index.mono e, h.short⟩

theorem IsRoute.slice {n r : Nat} {g : (Nat → Val) → List Rat} (h : IsRoute P adm n s r g) (S : State full P s D adm) (hP : P s.length)
    (hn : (n : Int) ≤ ssMax) (a b : Option Int) {sl : Slice} (hsl : Slice.make a b none = .ok sl) {z : SizeInfo}
    (hz : SizeInfo.ofSlice r 1 1 sl = .ok z) (hf : (BasicIndex.slice a b none).Fits) :
    ∃ s', s.add (.basic [.slice a b none]) [r] = .ok (s', s.length) ∧ State full P s' D adm ∧ Ext P s s' ∧ s'.length = s.length + 1 ∧
      IsIndex P s' adm n s.length [-1] ⟨⟨0, n - 1⟩, true⟩ z none (fun A => sliceOf a b (g A)) := by
  obtain ⟨s', e, N⟩ := S.sliceDynamic hP h.index.has a b hsl hz (fun A hA => by have := h.short A hA; omega) hf
  exact ⟨s', e, N.state, N.ext, N.len, N.has, rfl, h.index.low, h.index.high, fun A hA v hv => h.index.values A hA v (mem_sliceOf hv)⟩

/-- The values looked up. -/
def look (T : List Rat) (l : List Rat) : Rat := (l.map fun v => T.getD (toSS v).toNat 0).sum

/-- A constant. -/
def Table (P : Nat → Prop) (s : Script) (x : Nat) (sh : List Int) (T : List Rat) : Prop :=
  (⟨sh, T⟩ : Arr Rat).WF ∧ ∃ claim z, HasArr P s x sh claim (.fixed z) (some ⟨sh, T⟩) fun _ => T

theorem Table.mono {x : Nat} {sh : List Int} {T : List Rat} (h : Table P s x sh T) (e : Ext P s s') : Table P s' x sh T := by
  obtain ⟨w, c, z, h⟩ := h
  exact ⟨w, c, z, h.mono e⟩

theorem lookup_ok {n i x : Nat} {T : List Rat} {z : SizeInfo} {g : (Nat → Val) → List Rat} (S : State full P s D adm)
    (hP : P s.length) (hP' : P (s.length + 1)) (hT : Table P s x [(n : Int)] T) (hn : 0 < n)
    (hi : IsIndex P s adm n i [-1] ⟨⟨0, n - 1⟩, true⟩ z none g) :
    ∃ s1 s2, s.add (.advanced [true]) [x, i] = .ok (s1, s.length) ∧
      s1.add (.kind (.reduce .sum 0)) [s.length] = .ok (s2, s1.length) ∧ State full P s2 D adm ∧ Ext P s s2 ∧
      s1.length = s.length + 1 ∧ s2.length = s.length + 2 ∧ Computes P s2 s1.length fun A => look T (g A) := by
  obtain ⟨w, claim, z, h⟩ := hT
  obtain ⟨s1, e1, N1⟩ := S.advancedOne hP h (by
    rintro _ ⟨⟩
    exact ⟨rfl, w, fun _ _ => rfl⟩) hi (by simp) hn
  obtain ⟨s2, c, e2, N2⟩ := N1.state.sum (by rw [N1.len]; exact hP') N1.has (by simp [GoodShape])
  exact ⟨s1, s2, e1, e2, N2.state, N1.ext.trans N2.ext, N1.len, by rw [N2.len, N1.len], _, _, _, N2.has⟩

/-- What a route adds to the objective. -/
def routeTerms (n : Nat) (T O B : List Rat) (l : List Rat) : List Rat :=
  [look O (l.take 1), look B (l.drop (l.length - 1)),
    (l.dropLast.zipWith (fun u v => T.getD (toSS u * n + toSS v).toNat 0) l.tail).sum]

theorem route_ok {n r dist out back demand cap : Nat} {T O B W : List Rat} {c : Rat} {g : (Nat → Val) → List Rat}
    (S : State full P s D adm) (hP : ∀ i, P i) (hr : IsRoute P adm n s r g) (hn : 0 < n) (hbig : (n : Int) ≤ ssMax)
    (hT : Table P s dist [(n : Int), (n : Int)] T) (hO : Table P s out [(n : Int)] O) (hB : Table P s back [(n : Int)] B)
    (hW : Table P s demand [(n : Int)] W) (hc : Computes P s cap fun _ => c) (cs : List Nat) (terms : List Nat) :
    ∃ s' i1 i2 i3 i4, Generators.route dist out back demand cap (⟨s, none, cs⟩, terms) r =
        .ok (⟨s', none, cs ++ [i4]⟩, terms ++ [i1, i2, i3]) ∧ State full P s' D adm ∧ Ext P s s' ∧
      (Computes P s' i1 fun A => look O ((g A).take 1)) ∧ (Computes P s' i2 fun A => look B ((g A).drop ((g A).length - 1))) ∧
      (Computes P s' i3 fun A => ((g A).dropLast.zipWith (fun u v => T.getD (toSS u * n + toSS v).toNat 0) (g A).tail).sum) ∧
      Computes P s' i4 fun A => ofBool (decide (look W (g A) ≤ c)) := by
  obtain ⟨s1, e1, S1, x1, l1, I1⟩ := hr.slice S (hP _) hbig none (some 1) rfl (size_first r) (by simp [BasicIndex.Fits]; decide)
  obtain ⟨s2, s3, e2, e3, S3, x3, l2, l3, C3⟩ := lookup_ok S1 (hP _) (hP _) (hO.mono x1) hn I1
  have y3 := x1.trans x3
  obtain ⟨s4, e4, S4, x4, l4, I4⟩ := (hr.mono y3).slice S3 (hP _) hbig (some (-1)) none rfl (size_last r) (by simp [BasicIndex.Fits]; decide)
  obtain ⟨s5, s6, e5, e6, S6, x6, l5, l6, C6⟩ := lookup_ok S4 (hP _) (hP _) (hB.mono (y3.trans x4)) hn I4
  have y6 := y3.trans (x4.trans x6)
  obtain ⟨s7, e7, S7, x7, l7, I7⟩ := (hr.mono y6).slice S6 (hP _) hbig none (some (-1)) rfl (size_init r) (by simp [BasicIndex.Fits]; decide)
  obtain ⟨s8, e8, S8, x8, l8, I8⟩ := (hr.mono (y6.trans x7)).slice S7 (hP _) hbig (some 1) none rfl (size_tail r)
    (by simp [BasicIndex.Fits]; decide)
  have y8 := y6.trans (x7.trans x8)
  obtain ⟨w, claim, z, hT'⟩ := hT.mono y8
  obtain ⟨s9, e9, N9⟩ := S8.advancedTwo (hP _) hT' (by
    rintro _ ⟨⟩
    exact ⟨rfl, w, fun _ _ => rfl⟩) (I7.mono x8) I8 (by simp) rfl (by simp [SizeInfo.beq]) (by
      intro A hA
      rw [sliceOf_init, sliceOf_tail]
      simp) hn hn
  obtain ⟨s10, c10, e10, N10⟩ := N9.state.sum (hP _) N9.has (by simp [GoodShape])
  have y10 := y8.trans (N9.ext.trans N10.ext)
  obtain ⟨s11, s12, e11, e12, S12, x12, l11, l12, C12⟩ := lookup_ok N10.state (hP _) (hP _) (hW.mono y10) hn (hr.mono y10).index
  have y12 := y10.trans x12
  obtain ⟨_, _, _, C12'⟩ := C12
  obtain ⟨_, _, _, hc'⟩ := hc
  obtain ⟨s13, e13, N13⟩ := S12.truth (hP _) .lessEqual rfl C12' (hc'.mono y12) (by simp [GoodShape]) rfl
  refine ⟨s13, s2.length, s5.length, s9.length, s12.length, ?_, N13.state, y12.trans N13.ext, ?_, ?_, ?_, ?_⟩
  · unfold Generators.route
    simp only [e1, e2, e3, e4, e5, e6, e7, e8, e9, e10, e11, e12, e13, Res.ok_bind]
    rw [addConstraint_ok N13.has none cs]
    rfl
  · have := C3.mono (x4.trans (x6.trans (x7.trans (x8.trans (N9.ext.trans (N10.ext.trans (x12.trans N13.ext)))))))
    simpa only [sliceOf_first] using this
  · have := C6.mono (x7.trans (x8.trans (N9.ext.trans (N10.ext.trans (x12.trans N13.ext)))))
    simpa only [sliceOf_last] using this
  · have : Computes P s10 s9.length _ := ⟨_, _, _, N10.has⟩
    have := this.mono (x12.trans N13.ext)
    simpa only [sliceOf_init, sliceOf_tail] using this
  · exact ⟨_, _, _, N13.has⟩

theorem routes_ok {n dist out back demand cap : Nat} {T O B W : List Rat} {c : Rat} (hP : ∀ i, P i) (hn : 0 < n)
    (hbig : (n : Int) ≤ ssMax) : ∀ {rs : List Nat} {gs : List ((Nat → Val) → List Rat)} {s : Script}
    (S : State full P s D adm) (hr : List.Forall₂ (IsRoute P adm n s) rs gs)
    (hT : Table P s dist [(n : Int), (n : Int)] T) (hO : Table P s out [(n : Int)] O) (hB : Table P s back [(n : Int)] B)
    (hW : Table P s demand [(n : Int)] W) (hc : Computes P s cap fun _ => c) (cs : List Nat) (terms : List Nat),
    ∃ s' is ts, rs.foldlM (Generators.route dist out back demand cap) (⟨s, none, cs⟩, terms) =
        .ok (⟨s', none, cs ++ is⟩, terms ++ ts) ∧ State full P s' D adm ∧ Ext P s s' ∧
      List.Forall₂ (Computes P s') ts (gs.flatMap fun g => [fun A => look O ((g A).take 1), fun A => look B ((g A).drop ((g A).length - 1)),
        fun A => ((g A).dropLast.zipWith (fun u v => T.getD (toSS u * n + toSS v).toNat 0) (g A).tail).sum]) ∧
      List.Forall₂ (fun i (q : (Nat → Val) → Bool) => Computes P s' i fun A => ofBool (q A)) is
        (gs.map fun g A => decide (look W (g A) ≤ c)) := by
  intro rs
  induction rs with
  | nil =>
    intro gs s S hr _ _ _ _ _ cs terms
    cases hr
    exact ⟨s, [], [], by simp [Res.pure_eq], S, Ext.refl, .nil, .nil⟩
  | cons r rs ih =>
    intro gs s S hr hT hO hB hW hc cs terms
    cases hr with
    | cons h hs =>
    obtain ⟨s1, i1, i2, i3, i4, e1, S1, x1, C1, C2, C3, C4⟩ := route_ok S hP h hn hbig hT hO hB hW hc cs terms
    obtain ⟨s2, is, ts, e2, S2, x2, F2, G2⟩ := ih S1 (hs.imp fun _ _ h => h.mono x1) (hT.mono x1) (hO.mono x1) (hB.mono x1)
      (hW.mono x1) (hc.mono x1) (cs ++ [i4]) (terms ++ [i1, i2, i3])
    refine ⟨s2, i4 :: is, i1 :: i2 :: i3 :: ts, ?_, S2, x1.trans x2, ?_, .cons (C4.mono x2) G2⟩
    · rw [List.foldlM_cons, e1, Res.ok_bind, e2]
      simp
    · exact .cons (C1.mono x2) (.cons (C2.mono x2) (.cons (C3.mono x2) F2))

theorem look_cast (T : List Rat) (l : List Nat) : look T (l.map fun k : Nat => (k : Rat)) = (l.map fun k => T.getD k 0).sum := by
  unfold look
  rw [List.map_map]
  congr 1
  refine List.map_congr_left fun k _ => ?_
  show T.getD (toSS (k : Rat)).toNat 0 = _
  rw [toSS_natCast, Int.toNat_natCast]

/-- The arrays hold the numbers of the problem. -/
structure Routing.Agrees (p : Routing) (data : Generators.RoutingData) : Prop where
  dist : data.dist.IsMatrix p.customers p.customers
  out : data.out.IsVector p.customers
  back : data.back.IsVector p.customers
  demand : data.demand.IsVector p.customers
  distEq : ∀ i < p.customers, ∀ j < p.customers, data.dist.entry p.customers i j = p.dist i j
  outEq : ∀ i < p.customers, data.out.elem i = p.out i
  backEq : ∀ i < p.customers, data.back.elem i = p.back i
  demandEq : ∀ i < p.customers, data.demand.elem i = p.demand i

theorem legs_cons (f : Rat → Rat → Rat) (a b : Rat) (l : List Rat) :
    (List.zipWith f (a :: b :: l).dropLast (a :: b :: l).tail).sum = f a b + (List.zipWith f (b :: l).dropLast (b :: l).tail).sum := by
  simp

theorem look_last (B : List Rat) (a b : Rat) (l : List Rat) :
    look B ((a :: b :: l).drop ((a :: b :: l).length - 1)) = look B ((b :: l).drop ((b :: l).length - 1)) := by
  simp

theorem wayHome_eq {p : Routing} {data : Generators.RoutingData} (h : p.Agrees data) : ∀ (l : List Nat) (a : Nat),
    (∀ k ∈ a :: l, k < p.customers) →
    look data.back.data (((a :: l).map fun k : Nat => (k : Rat)).drop (((a :: l).map fun k : Nat => (k : Rat)).length - 1)) +
      (List.zipWith (fun u v => data.dist.data.getD (toSS u * p.customers + toSS v).toNat 0) ((a :: l).map fun k : Nat => (k : Rat)).dropLast
        ((a :: l).map fun k : Nat => (k : Rat)).tail).sum = p.wayHome a l := by
  intro l
  induction l with
  | nil =>
    intro a ha
    show look data.back.data [(a : Rat)] + 0 = p.back a
    rw [show ([(a : Rat)] : List Rat) = [a].map fun k : Nat => (k : Rat) from rfl, look_cast, add_zero]
    show data.back.data.getD a 0 + 0 = _
    rw [add_zero]
    exact h.backEq a (ha a (by simp))
  | cons b l ih =>
    intro a ha
    have := ih b fun k hk => ha k (by simp at hk ⊢; tauto)
    rw [List.map_cons, List.map_cons, look_last, legs_cons]
    rw [List.map_cons] at this
    rw [Routing.wayHome, ← this]
    have hd : data.dist.data.getD (toSS (a : Rat) * p.customers + toSS (b : Rat)).toNat 0 = p.dist a b := by
      rw [toSS_natCast, toSS_natCast, ← h.distEq a (ha a (by simp)) b (ha b (by simp))]
      rfl
    rw [hd]
    ring

theorem length_eq {p : Routing} {data : Generators.RoutingData} (h : p.Agrees data) (l : List Nat) (hl : ∀ k ∈ l, k < p.customers) :
    look data.out.data ((l.map fun k : Nat => (k : Rat)).take 1) +
      (look data.back.data ((l.map fun k : Nat => (k : Rat)).drop ((l.map fun k : Nat => (k : Rat)).length - 1)) +
      (List.zipWith (fun u v => data.dist.data.getD (toSS u * p.customers + toSS v).toNat 0) (l.map fun k : Nat => (k : Rat)).dropLast
        (l.map fun k : Nat => (k : Rat)).tail).sum) = p.length l := by
  cases l with
  | nil => simp [look, Routing.length]
  | cons a l =>
    rw [wayHome_eq h l a hl, Routing.length]
    congr 1
    show look data.out.data [(a : Rat)] = _
    rw [show ([(a : Rat)] : List Rat) = [a].map fun k : Nat => (k : Rat) from rfl, look_cast]
    show data.out.data.getD a 0 + 0 = _
    rw [add_zero]
    exact h.outEq a (hl a (by simp))

theorem load_eq {p : Routing} {data : Generators.RoutingData} (h : p.Agrees data) (l : List Nat) (hl : ∀ k ∈ l, k < p.customers) :
    look data.demand.data (l.map fun k : Nat => (k : Rat)) = (l.map p.demand).sum := by
  rw [look_cast]
  congr 1
  exact List.map_congr_left fun k hk => h.demandEq k (hl k hk)

theorem listsVal_getD {lists : List (List Nat)} {i : Nat} (hi : i < lists.length) :
    (listsVal lists).getD i ⟨[], []⟩ = ⟨[-1], lists[i].map fun k : Nat => (k : Rat)⟩ := by
  unfold listsVal
  rw [getD_of_lt (by simpa using hi)]
  simp

theorem part_lt {lists : List (List Nat)} {n : Nat} (h : lists.flatten.Perm (List.range n)) {l : List Nat} (hl : l ∈ lists) :
    (∀ k ∈ l, k < n) ∧ l.length ≤ n := by
  constructor
  · intro k hk
    exact List.mem_range.1 (h.subset (List.mem_flatten.2 ⟨l, hl, hk⟩))
  · have h1 := h.length_eq
    rw [List.length_range, List.length_flatten] at h1
    rw [← h1]
    exact List.single_le_sum (by simp) _ (List.mem_map.2 ⟨l, hl, rfl⟩)

theorem sum_triples {α : Type} (f1 f2 f3 : α → (Nat → Val) → Rat) (A : Nat → Val) (gs : List α) :
    ((gs.flatMap fun g => [f1 g, f2 g, f3 g]).map fun h => h A).sum = (gs.map fun g => f1 g A + (f2 g A + f3 g A)).sum := by
  induction gs with
  | nil => rfl
  | cons g gs ih =>
    rw [List.flatMap_cons, List.map_append, List.sum_append, ih, List.map_cons, List.sum_cons]
    simp

theorem map_shown {β : Type} (F : List Rat → β) {v : Nat} {routes : List (List Nat)} (h : routes.length = v) :
    ((List.range v).map fun k => F ((listsVal routes).getD k ⟨[], []⟩).data) = routes.map fun l => F (l.map fun k : Nat => (k : Rat)) := by
  refine List.ext_getElem (by simp [h]) fun i hi hi' => ?_
  simp only [List.getElem_map, List.getElem_range]
  rw [listsVal_getD (by simpa using hi')]

theorem routing_eq {data : Generators.RoutingData} {v n : Nat} {c : Rat} {s0 s1 s2 s3 s4 s5 s6 s7 s8 : Script}
    {i0 i1 i2 i3 i4 i5 i8 : Nat} {rs is ts : List Nat} {M : Generated} (hpos : ∀ x ∈ data.demand.data, x ≠ 0)
    (hn : data.demand.shape.headD 0 = (n : Int))
    (e0 : Script.add [] (.kind (.constant data.dist)) [] = .ok (s0, i0)) (e1 : s0.add (.kind (.constant data.out)) [] = .ok (s1, i1))
    (e2 : s1.add (.kind (.constant data.back)) [] = .ok (s2, i2)) (e3 : s2.add (.kind (.constant data.demand)) [] = .ok (s3, i3))
    (e4 : s3.add (.kind (.constant (Generators.scalar c))) [] = .ok (s4, i4))
    (e5 : s4.add (.kind (.disjointLists n v)) [] = .ok (s5, i5)) (e6 : Generators.outputs s5 i5 v = .ok (s6, rs))
    (e7 : rs.foldlM (Generators.route i0 i1 i2 i3 i4) (⟨s6, none, []⟩, []) = .ok (⟨s7, none, is⟩, ts))
    (e8 : s7.add (.kind (.nary .add)) ts = .ok (s8, i8)) (e9 : Generated.minimize ⟨s8, none, is⟩ i8 = .ok M) :
    Generators.routing data v c = .ok M := by
  unfold Generators.routing
  rw [guardThrow_true (by rintro ⟨x, hx, h⟩; exact hpos x hx h), Res.ok_bind]
  rw [e0, Res.ok_bind]
  dsimp only
  rw [e1, Res.ok_bind]
  dsimp only
  rw [e2, Res.ok_bind]
  dsimp only
  rw [e3, Res.ok_bind]
  dsimp only
  rw [e4, Res.ok_bind]
  dsimp only
  rw [hn, e5, Res.ok_bind]
  dsimp only
  rw [Int.toNat_natCast, e6, Res.ok_bind]
  dsimp only
  rw [e7, Res.ok_bind]
  dsimp only
  rw [e8, Res.ok_bind]
  exact e9

theorem routing_proves {p : Routing} {data : Generators.RoutingData} (h : p.Agrees data) (hpos : ∀ x ∈ data.demand.data, x ≠ 0)
    (hn : 0 < p.customers) (hv : 0 < p.vehicles) (hbig : (p.customers : Int) ≤ ssMax) :
    ∃ M, Generators.routing data p.vehicles p.capacity = .ok M ∧ Proves full (fun _ => True) M p.problem := by
  obtain ⟨⟨_, T⟩, ⟨_, O⟩, ⟨_, B⟩, ⟨_, W⟩⟩ := data
  have hT := h.dist
  have hO := h.out
  have hB := h.back
  have hW := h.demand
  obtain ⟨rfl, _⟩ := id hT
  obtain ⟨rfl, _⟩ := id hO
  obtain ⟨rfl, _⟩ := id hB
  obtain ⟨rfl, _⟩ := id hW
  obtain ⟨n, v, dist, out, back, demand, c⟩ := p
  simp only at h hT hO hB hW hpos hn hv hbig ⊢
  obtain ⟨s0, e0, N0⟩ := (state_nil (full := full) (P := fun _ => True)).constant trivial ⟨[(n : Int), (n : Int)], T⟩ (wf_of_matrix hT)
    (by simp [GoodShape]) (by simp [dynamicShape])
  obtain ⟨s1, e1, N1⟩ := N0.state.constant trivial ⟨[(n : Int)], O⟩ (wf_of_vector hO) (by simp [GoodShape]) (by simp [dynamicShape])
  obtain ⟨s2, e2, N2⟩ := N1.state.constant trivial ⟨[(n : Int)], B⟩ (wf_of_vector hB) (by simp [GoodShape]) (by simp [dynamicShape])
  obtain ⟨s3, e3, N3⟩ := N2.state.constant trivial ⟨[(n : Int)], W⟩ (wf_of_vector hW) (by simp [GoodShape]) (by simp [dynamicShape])
  obtain ⟨s4, e4, N4⟩ := N3.state.constant trivial (Generators.scalar c) (by simp [Generators.scalar, Arr.WF, Arr.dynamic, dynamicShape])
    (by simp [Generators.scalar, GoodShape]) rfl
  obtain ⟨s5, e5, N5⟩ := N4.state.lists trivial n v hv
  obtain ⟨s6, e6, S6, x6, l6, h6⟩ := outputs_ok N5.state (g := fun k A => ((A s4.length).getD k ⟨[], []⟩).data)
    (fun _ _ => trivial) N5.has (by simp [GoodShape]) (by
      rintro A ⟨lists, ⟨hl, _⟩, e⟩ k hk
      rw [e, listsVal_getD (by omega)])
  have hroutes : List.Forall₂ (IsRoute (fun _ => True)
      (fun A => ∃ lists : List (List Nat), (lists.length = v ∧ lists.flatten.Perm (List.range n)) ∧ A s4.length = listsVal lists) n s6)
      ((List.range v).map (s5.length + ·)) ((List.range v).map fun k A => ((A s4.length).getD k ⟨[], []⟩).data) := by
    rw [List.forall₂_map_left_iff, List.forall₂_map_right_iff, List.forall₂_same]
    intro k hk
    have hk := List.mem_range.1 hk
    have hh := h6 k hk
    rw [if_pos (by decide)] at hh
    refine ⟨⟨hh, rfl, le_rfl, by show (n : Rat) - 1 < n; linarith, ?_⟩, ?_⟩
    · rintro A ⟨lists, ⟨hl, hp⟩, e⟩ u hu
      simp only [e] at hu
      rw [listsVal_getD (by omega)] at hu
      obtain ⟨j, hj, rfl⟩ := List.mem_map.1 hu
      exact index_value ((part_lt hp (List.getElem_mem _)).1 j hj)
    · rintro A ⟨lists, ⟨hl, hp⟩, e⟩
      simp only [e]
      rw [listsVal_getD (by omega)]
      simpa using (part_lt hp (List.getElem_mem _)).2
  have z4 := N5.ext.trans x6
  have z3 := N4.ext.trans z4
  have z2 := N3.ext.trans z3
  have z1 := N2.ext.trans z2
  have z0 := N1.ext.trans z1
  obtain ⟨s7, is, ts, e7, S7, x7, F7, G7⟩ := routes_ok (fun _ => trivial) hn hbig S6 hroutes
    (⟨wf_of_matrix hT, _, _, N0.has.mono z0⟩ : Table _ _ _ _ T) (⟨wf_of_vector hO, _, _, N1.has.mono z1⟩ : Table _ _ _ _ O)
    (⟨wf_of_vector hB, _, _, N2.has.mono z2⟩ : Table _ _ _ _ B) (⟨wf_of_vector hW, _, _, N3.has.mono z3⟩ : Table _ _ _ _ W)
    (⟨_, _, _, N4.has.mono z4⟩ : Computes _ _ _ fun _ => c) [] []
  simp only [List.nil_append] at e7
  obtain ⟨s8, e8, S8, x8, l8, C8⟩ := S7.nary trivial (ops := ts) (by
    rintro rfl
    cases hh : (List.range v) with
    | nil => simp at hh; omega
    | cons a l =>
      rw [hh] at F7
      cases F7) F7
  refine ⟨⟨s8, some s7.length, is⟩, ?_, ?_⟩
  · exact routing_eq hpos rfl e0 e1 e2 e3 e4 e5 e6 e7 e8 (minimize_ok C8 none is)
  · refine State.proves (d := s4.length) S8 S8.good.complete (fun _ h => h) ?_ (o := s7.length) rfl C8.lt ?_
      (G7.imp fun _ _ h => h.mono x8) ?_
    · intro A
      rfl
    · intro routes hr vals hrun
      rw [C8.front S8 ⟨routes, hr, rfl⟩ hrun]
      congr 1
      rw [sum_triples, List.map_map]
      show ((List.range v).map fun k => (fun l : List Rat => look O (l.take 1) + (look B (l.drop (l.length - 1)) +
        (List.zipWith (fun u v => T.getD (toSS u * n + toSS v).toNat 0) l.dropLast l.tail).sum))
          ((listsVal routes).getD k ⟨[], []⟩).data).sum = _
      rw [map_shown (fun l : List Rat => look O (l.take 1) + (look B (l.drop (l.length - 1)) + (List.zipWith (fun u v => T.getD (toSS u * n + toSS v).toNat 0) l.dropLast l.tail).sum)) (v := v) hr.1]
      show _ = (routes.map _).sum
      congr 1
      exact List.map_congr_left fun l hl => length_eq h l (part_lt hr.2 hl).1
    · intro routes hr
      change _ ↔ ∀ r ∈ routes, (r.map demand).sum ≤ c
      rw [List.map_map]
      have : (∀ q ∈ ((List.range v).map fun k => (fun l : List Rat => decide (look W l ≤ c)) ((listsVal routes).getD k ⟨[], []⟩).data), q = true) ↔
          ∀ r ∈ routes, (r.map demand).sum ≤ c := by
        rw [map_shown (fun l : List Rat => decide (look W l ≤ c)) (v := v) hr.1, List.forall_mem_map]
        refine forall_congr' fun l => forall_congr' fun hl => ?_
        rw [decide_eq_true_iff, load_eq h l (part_lt hr.2 hl).1]
      rw [← this, List.forall_mem_map, List.forall_mem_map]
      rfl

theorem length_table (f : Nat → Nat → Rat) (m n : Nat) : ((List.range m).flatMap fun i => (List.range n).map (f i)).length = m * n := by
  induction m with
  | zero => simp
  | succ m ih => rw [List.range_succ, List.flatMap_append, List.length_append, ih, Nat.succ_mul]; simp

theorem getD_table (f : Nat → Nat → Rat) (m n : Nat) {i j : Nat} (hi : i < m) (hj : j < n) :
    ((List.range m).flatMap fun i => (List.range n).map (f i)).getD (i * n + j) 0 = f i j := by
  induction m with
  | zero => omega
  | succ m ih =>
    rw [List.range_succ, List.flatMap_append]
    rcases Nat.lt_or_ge i m with h | h
    · have hlt : i * n + j < m * n := by
        have : (i + 1) * n ≤ m * n := Nat.mul_le_mul_right n h
        rw [Nat.succ_mul] at this
        omega
      rw [← ih h, List.getD_eq_getElem?_getD, List.getD_eq_getElem?_getD, List.getElem?_append_left (by rw [length_table]; exact hlt)]
    · obtain rfl : i = m := by omega
      rw [List.getD_eq_getElem?_getD, List.getElem?_append_right (by rw [length_table]; omega), length_table, Nat.add_sub_cancel_left]
      simp [hj]

theorem getD_row (f : Nat → Rat) {n j : Nat} (hj : j < n) : ((List.range n).map f).getD j 0 = f j := by
  rw [getD_of_lt (by simpa using hj)]
  simp

theorem getD_drop_one (l : List Rat) (i : Nat) : (l.drop 1).getD i 0 = l.getD (i + 1) 0 := by
  cases l <;> simp

theorem dropFirst_vector {a : Arr Rat} {n : Nat} (h : a.IsVector (n + 1)) : (Generators.dropFirst a).IsVector n := by
  refine ⟨?_, ?_⟩
  · show [a.shape.headD 0 - 1] = _
    rw [h.1]
    simp
  · show (a.data.drop 1).length = n
    rw [List.length_drop, h.2]
    rfl

theorem agrees_distances {n v : Nat} {distances demand : Arr Rat} {c : Rat} (hw : demand.IsVector (n + 1)) :
    (routingOf n v distances demand c).Agrees (Generators.splitDistances n distances demand) where
  dist := ⟨rfl, length_table _ n n⟩
  out := ⟨rfl, by simp [Generators.splitDistances, routingOf]⟩
  back := ⟨rfl, by simp [Generators.splitDistances, routingOf]⟩
  demand := dropFirst_vector hw
  distEq := fun i hi j hj => getD_table _ n n hi hj
  outEq := fun i hi => by
    refine (getD_row _ hi).trans ?_
    show _ = distances.data.getD (0 * (n + 1) + (i + 1)) 0
    rw [Nat.zero_mul, Nat.zero_add]
  backEq := fun i hi => getD_row _ hi
  demandEq := fun i _ => getD_drop_one _ _

theorem agrees_plane {root : Rat → Rat} {n v : Nat} {xs ys : List Rat} {x0 y0 : Rat} {demand : Arr Rat} {c : Rat} (hx : xs.length = n)
    (hw : demand.IsVector n) :
    (planeRouting root n v (fun i => xs.getD i 0) (fun i => ys.getD i 0) demand.elem x0 y0 c).Agrees
      (Generators.planeDistances root xs ys x0 y0 demand) := by
  subst hx
  exact {
    dist := ⟨rfl, length_table _ _ _⟩
    out := ⟨rfl, by simp [Generators.planeDistances, planeRouting]⟩
    back := ⟨rfl, by simp [Generators.planeDistances, planeRouting]⟩
    demand := hw
    distEq := fun i hi j hj => (getD_table _ _ _ hi hj).trans (by
      show root _ = root _
      congr 1
      ring)
    outEq := fun i hi => getD_row _ hi
    backEq := fun i hi => getD_row _ hi
    demandEq := fun i _ => rfl }

end Verif
