import Verif.Lemmas.GenerateJobShop

set_option linter.unusedSectionVars false
set_option linter.unusedSimpArgs false
set_option linter.unusedVariables false

/-! Helper lemmas: the model of job-shop scheduling, all of it. -/

namespace Verif

open Script

variable {full : Prop} {J m : Nat} {T K : Arr Rat} {ks : List Nat} {upper : Option Int}

theorem sorted_row {r : List Nat} (h : r.Perm (List.range m)) :
    (r.map fun k : Nat => (k : Rat)).insertionSort (· ≤ ·) = (List.range m).map fun k : Nat => (k : Rat) := by
  refine List.Perm.eq_of_pairwise' (r := (· ≤ ·)) (List.pairwise_insertionSort _ _) ?_ ((List.perm_insertionSort _ _).trans (h.map _))
  rw [List.pairwise_map]
  exact List.pairwise_lt_range.imp fun h => by exact_mod_cast h.le

theorem getD_zipAdd {a b : List Rat} (hl : a.length = b.length) (i : Nat) :
    (List.zipWith BinaryOp.add.func a b).getD i 0 = a.getD i 0 + b.getD i 0 := by
  simp only [List.getD_eq_getElem?_getD, List.getElem?_zipWith]
  rcases Nat.lt_or_ge i a.length with h | h
  · rw [List.getElem?_eq_getElem h, List.getElem?_eq_getElem (hl ▸ h)]
    rfl
  · rw [List.getElem?_eq_none h, List.getElem?_eq_none (hl ▸ h)]
    simp

theorem getD_map_int (l : List Int) (i : Nat) : (l.map fun k : Int => (k : Rat)).getD i 0 = ((l.getD i 0 : Int) : Rat) := by
  simp only [List.getD_eq_getElem?_getD, List.getElem?_map]
  cases l[i]? <;> simp

theorem rowOf_eq_map {l : List Rat} {j : Nat} (hl : l.length = J * m) (hj : j < J) :
    rowOf l m j = (List.range m).map fun k => l.getD (j * m + k) 0 := by
  have h1 := length_rowOf hl hj
  refine List.ext_getElem (by simp [h1]) fun k k1 k2 => ?_
  rw [h1] at k1
  rw [List.getElem_map, List.getElem_range, ← getD_rowOf k1, getD_of_lt]

theorem jobShop_proves (hT : T.IsMatrix J m) (hK : K.IsMatrix J m) (hT0 : ∀ x ∈ T.data, 0 ≤ x) {base : Nat} (hbase : base = 0 ∨ base = 1)
    (hdata : K.data = ks.map fun k : Nat => ((k + base : Nat) : Rat))
    (hrow : ∀ j < J, ((ks.drop (j * m)).take m).Perm (List.range m)) (hJ0 : 0 < J) (hm0 : 0 < m)
    (hJ : (J : Int) ≤ ssMax) (hm : (m : Int) ≤ ssMax) (hJm : (J : Int) * m ≤ ssMax) (hup : ∀ u ∈ upper, 1 ≤ u)
    (hmax : upper.getD ⌊T.data.sum⌋ ≤ 2000000000) :
    ∃ M, Generators.jobShop T K upper = .ok M ∧ Proves full every M (jobShopOf J m T ks upper).problem := by
  obtain ⟨_, T⟩ := T
  obtain ⟨_, K⟩ := K
  obtain ⟨rfl, hTl⟩ := id hT
  obtain ⟨rfl, hKl⟩ := id hK
  simp only at hdata hT0 hTl hKl hmax
  have hreqT : Generators.require 2 false true false ⟨[(J : Int), (m : Int)], T⟩ = .ok ⟨[(J : Int), (m : Int)], T⟩ :=
    require_ok rfl (by simp) (fun _ => hT0) (by simp)
  have hreqK : Generators.require 2 false true false ⟨[(J : Int), (m : Int)], K⟩ = .ok ⟨[(J : Int), (m : Int)], K⟩ :=
    require_ok rfl (by simp) (fun _ => by
      show ∀ x ∈ K, 0 ≤ x
      rw [hdata]
      intro x hx
      obtain ⟨k, _, rfl⟩ := List.mem_map.1 hx
      positivity) (by simp)
  have hksl : ks.length = J * m := by rw [← hKl, hdata]; simp
  have hlt : ∀ k ∈ ks, k < m := by
    intro k hk
    obtain ⟨i, hi, rfl⟩ := List.getElem_of_mem hk
    have hj : i / m < J := (Nat.div_lt_iff_lt_mul hm0).2 (by rw [← hksl]; exact hi)
    have hr : i % m < m := Nat.mod_lt _ hm0
    have hdiv := Nat.div_add_mod' i m
    refine List.mem_range.1 ((hrow (i / m) hj).mem_iff.1 ?_)
    refine List.mem_iff_getElem?.2 ⟨i % m, ?_⟩
    rw [List.getElem?_take, if_pos hr, List.getElem?_drop, hdiv, List.getElem?_eq_getElem hi]
  have hfrom : Generators.fromZero ⟨[(J : Int), (m : Int)], K⟩ = ⟨[(J : Int), (m : Int)], ks.map fun k : Nat => (k : Rat)⟩ := by
    unfold Generators.fromZero
    rcases hbase with rfl | rfl
    · have h0 : (0 : Nat) ∈ ks := List.mem_of_mem_drop (List.mem_of_mem_take ((hrow 0 hJ0).mem_iff.2 (List.mem_range.2 hm0)))
      rw [if_neg, hdata]
      · rfl
      · intro h
        refine h 0 ?_ rfl
        show (0 : Rat) ∈ K
        rw [hdata]
        exact List.mem_map.2 ⟨0, h0, by simp⟩
    · rw [if_pos]
      · show (⟨_, K.map _⟩ : Arr Rat) = _
        rw [hdata, List.map_map]
        congr 1
        refine List.map_congr_left fun k _ => ?_
        simp
      · show ∀ x ∈ K, x ≠ 0
        rw [hdata]
        intro x hx
        obtain ⟨k, _, rfl⟩ := List.mem_map.1 hx
        exact_mod_cast Nat.succ_ne_zero k
  have hub : 0 ≤ upper.getD ⌊T.sum⌋ := by
    cases upper with
    | none => exact Int.floor_nonneg.2 (List.sum_nonneg hT0)
    | some u => exact le_trans (by decide) (hup u rfl)
  have hpos : (0 : Int) < (J : Int) * m := by exact_mod_cast Nat.mul_pos hJ0 hm0
  have hK' : (⟨[(J : Int), (m : Int)], ks.map fun k : Nat => (k : Rat)⟩ : Arr Rat).IsMatrix J m := ⟨rfl, by simpa using hksl⟩
  have hgood : GoodShape [(J : Int), (m : Int)] := by simp [GoodShape]
  have hdyn : dynamicShape [(J : Int), (m : Int)] = false := by simp [dynamicShape]
  obtain ⟨c, hcl, hc⟩ := constant_index (a := ⟨[(J : Int), (m : Int)], ks.map fun k : Nat => (k : Rat)⟩) hm0 rfl hlt
  obtain ⟨s1, e1, N1⟩ := (state_nil (full := full) (P := every)).constant trivial ⟨[(J : Int), (m : Int)], T⟩ (wf_of_matrix hT) hgood hdyn
  obtain ⟨s2, e2, N2⟩ := N1.state.constant trivial ⟨[(J : Int), (m : Int)], ks.map fun k : Nat => (k : Rat)⟩ (wf_of_matrix hK') hgood hdyn
  rw [hcl] at N2
  obtain ⟨s3, e3, N3⟩ := N2.state.integer trivial [(J : Int), (m : Int)] 0 (upper.getD ⌊T.sum⌋) hub (by decide) hmax hgood hdyn
  obtain ⟨s4, e4, N4⟩ := N3.state.binary trivial .add (by decide) N3.has (N1.has.mono (N2.ext.trans N3.ext)) hgood hdyn
  obtain ⟨s5, c5, e5, N5⟩ := N4.state.max trivial N4.has hgood hdyn (by simp; omega)
  obtain ⟨M, is, eM, SM, xM, oM, kM, qM⟩ := job_loop (full := full) hc hJ hm hJm hm0 hksl hlt (List.range J) ⟨s5, some s4.length, []⟩
    (fun j hj => List.mem_range.1 hj) N5.state (N2.has.mono (N3.ext.trans (N4.ext.trans N5.ext))) (N3.has.mono (N4.ext.trans N5.ext))
    (N4.has.mono N5.ext)
  simp only [List.nil_append] at kM
  have hU : (⟨[((Generators.pairs J).length : Int)], (Generators.pairs J).map fun p => (p.1 : Rat)⟩ : Arr Rat).IsVector (Generators.pairs J).length :=
    ⟨rfl, by simp⟩
  have hV : (⟨[((Generators.pairs J).length : Int)], (Generators.pairs J).map fun p => (p.2 : Rat)⟩ : Arr Rat).IsVector (Generators.pairs J).length :=
    ⟨rfl, by simp⟩
  obtain ⟨cu, hcu, iu⟩ := constant_index (a := ⟨[((Generators.pairs J).length : Int)], (Generators.pairs J).map fun p => (p.1 : Rat)⟩) hJ0
    (l := (Generators.pairs J).map Prod.fst) (by simp) (fun k hk => by
      obtain ⟨p, hp, rfl⟩ := List.mem_map.1 hk
      have := mem_pairs.1 hp
      omega)
  obtain ⟨cv, hcv, iv⟩ := constant_index (a := ⟨[((Generators.pairs J).length : Int)], (Generators.pairs J).map fun p => (p.2 : Rat)⟩) hJ0
    (l := (Generators.pairs J).map Prod.snd) (by simp) (fun k hk => by
      obtain ⟨p, hp, rfl⟩ := List.mem_map.1 hk
      have := mem_pairs.1 hp
      omega)
  obtain ⟨s6, e6, N6⟩ := SM.constant trivial ⟨[((Generators.pairs J).length : Int)], (Generators.pairs J).map fun p => (p.1 : Rat)⟩
    (wf_of_vector hU) (by simp [GoodShape]) (by simp [dynamicShape])
  obtain ⟨s7, e7, N7⟩ := N6.state.constant trivial ⟨[((Generators.pairs J).length : Int)], (Generators.pairs J).map fun p => (p.2 : Rat)⟩
    (wf_of_vector hV) (by simp [GoodShape]) (by simp [dynamicShape])
  rw [hcu] at N6
  rw [hcv] at N7
  have xs := N4.ext.trans (N5.ext.trans (xM.trans (N6.ext.trans N7.ext)))
  have xe := N5.ext.trans (xM.trans (N6.ext.trans N7.ext))
  obtain ⟨s8, e8, N8⟩ := N7.state.advancedRows (m := J) (n := m) trivial (N4.has.mono xe) (by rintro _ ⟨⟩)
    ⟨N6.has.mono N7.ext, iu.1, iu.2.1, iu.2.2.1, fun _ _ => iu.2.2.2⟩ hJ0 hm0
  obtain ⟨s9, e9, N9⟩ := N8.state.advancedRows (m := J) (n := m) trivial (N3.has.mono (xs.trans N8.ext)) (by rintro _ ⟨⟩)
    ⟨N7.has.mono N8.ext, iv.1, iv.2.1, iv.2.2.1, fun _ _ => iv.2.2.2⟩ hJ0 hm0
  have hg2 : GoodShape [((Generators.pairs J).length : Int), (m : Int)] := by simp [GoodShape]
  have hd2 : dynamicShape [((Generators.pairs J).length : Int), (m : Int)] = false := by simp [dynamicShape]
  obtain ⟨s10, e10, N10⟩ := N9.state.truth trivial .lessEqual rfl (N8.has.mono N9.ext) N9.has hg2 hd2
  have x10 := N8.ext.trans (N9.ext.trans N10.ext)
  obtain ⟨s11, e11, N11⟩ := N10.state.advancedRows (m := J) (n := m) trivial (N4.has.mono (xe.trans x10)) (by rintro _ ⟨⟩)
    ⟨N7.has.mono x10, iv.1, iv.2.1, iv.2.2.1, fun _ _ => iv.2.2.2⟩ hJ0 hm0
  obtain ⟨s12, e12, N12⟩ := N11.state.advancedRows (m := J) (n := m) trivial (N3.has.mono (xs.trans (x10.trans N11.ext))) (by rintro _ ⟨⟩)
    ⟨N6.has.mono (N7.ext.trans (x10.trans N11.ext)), iu.1, iu.2.1, iu.2.2.1, fun _ _ => iu.2.2.2⟩ hJ0 hm0
  obtain ⟨s13, e13, N13⟩ := N12.state.truth trivial .lessEqual rfl (N11.has.mono N12.ext) N12.has hg2 hd2
  obtain ⟨s14, e14, N14⟩ := N13.state.truth trivial .or rfl (N10.has.mono (N11.ext.trans (N12.ext.trans N13.ext))) N13.has hg2 hd2
  obtain ⟨s15, e15, N15⟩ := N14.state.all trivial N14.has hg2
  have x15 := N6.ext.trans (N7.ext.trans (x10.trans (N11.ext.trans (N12.ext.trans (N13.ext.trans (N14.ext.trans N15.ext))))))
  have hlen : ∀ A : Nat → Val, (∃ l : List Int, (l.length = [(J : Int), (m : Int)].prod.toNat ∧ ∀ k ∈ l, 0 ≤ k ∧ k ≤ upper.getD ⌊T.sum⌋) ∧
      A s2.length = [⟨[(J : Int), (m : Int)], l.map fun k : Int => (k : Rat)⟩]) →
      (single (A s2.length)).data.length = J * m := by
    rintro A ⟨l, ⟨h1, _⟩, e⟩
    rw [e]
    show (l.map _).length = _
    rw [List.length_map, h1]
    simp only [List.prod_cons, List.prod_nil, mul_one]
    exact_mod_cast Int.toNat_natCast _
  replace N15 := N15.congr
    (g' := fun A => [ofBool (apart J m (single (A s2.length)).data (List.zipWith BinaryOp.add.func (single (A s2.length)).data T))]) (by
    intro A hA
    show [allValue 1 _] = [_]
    congr 1
    exact allValue_eq (apart_iff (hlen A hA) (by rw [List.length_zipWith, hlen A hA, hTl, Nat.min_self])))
  have hadmEq : ∀ A : Nat → Val, (∃ l : List Int, (l.length = [(J : Int), (m : Int)].prod.toNat ∧ ∀ k ∈ l, 0 ≤ k ∧ k ≤ upper.getD ⌊T.sum⌋) ∧
      A s2.length = [⟨[(J : Int), (m : Int)], l.map fun k : Int => (k : Rat)⟩]) ↔
      ∃ l, (jobShopOf J m ⟨[(J : Int), (m : Int)], T⟩ ks upper).problem.valid l ∧
        A s2.length = (jobShopOf J m ⟨[(J : Int), (m : Int)], T⟩ ks upper).problem.values l s2.length := by
    intro A
    have hprod : [(J : Int), (m : Int)].prod.toNat = J * m := by
      simp only [List.prod_cons, List.prod_nil, mul_one]
      exact_mod_cast Int.toNat_natCast _
    rw [hprod]
    rfl
  refine ⟨⟨s15, some s4.length, is ++ [s14.length]⟩, ?_, ?_⟩
  · unfold Generators.jobShop
    rw [hreqT, hreqK, Res.ok_bind, Res.ok_bind, guardThrow_true rfl, Res.ok_bind, guardThrow_true (by simp; omega), Res.ok_bind]
    simp only [hfrom, List.getD_cons_zero, List.getD_cons_succ, Int.toNat_natCast]
    rw [guardThrow_true, Res.ok_bind, guardThrow_true (fun u hu => not_lt.2 (hup u hu)), Res.ok_bind]
    · simp only [e1, e2, e3, e4, e5, Res.ok_bind]
      rw [show Generated.minimize ⟨s5, none, []⟩ s4.length = _ from minimize_ok ⟨_, _, _, N5.has⟩ none [], Res.ok_bind, eM, Res.ok_bind]
      simp only [e6, e7, e8, e9, e10, e11, e12, e13, e14, e15, Res.ok_bind]
      rw [oM, kM]
      exact addConstraint_ok N15.has _ _
    · intro j hj
      rw [← List.map_drop, ← List.map_take]
      exact sorted_row (hrow j (List.mem_range.1 hj))
  · refine State.proves (d := s2.length) N15.state N15.state.good.complete (fun _ h => h) ?_ (o := s4.length) rfl
      (N5.has.mono (xM.trans x15)).is.lt ?_
      (qs := ((List.range J).map fun j A => inOrder m ks (single (A s2.length)).data (List.zipWith BinaryOp.add.func (single (A s2.length)).data T) j) ++
        [fun A => apart J m (single (A s2.length)).data (List.zipWith BinaryOp.add.func (single (A s2.length)).data T)])
      ?_ ?_
    · exact hadmEq
    · intro l hl vals hr
      have hadm := (hadmEq ((jobShopOf J m ⟨[(J : Int), (m : Int)], T⟩ ks upper).problem.values l)).2 ⟨l, hl, rfl⟩
      have hr' := xM.runs (x15.runs hr)
      rw [(N5.has.mono (xM.trans x15)).is.value _ vals ((N15.state.admits _).2 hadm) hr]
      show Res.ok (foldValue Max.max none (List.zipWith BinaryOp.add.func (l.map fun k : Int => (k : Rat)) T)) = Res.ok _
      congr 1
      have hfin : List.zipWith BinaryOp.add.func (l.map fun k : Int => (k : Rat)) T =
          (List.range J).flatMap fun j => (List.range m).map fun k => (jobShopOf J m ⟨[(J : Int), (m : Int)], T⟩ ks upper).finish l j k := by
        rw [← flatMap_rows J m (List.zipWith BinaryOp.add.func (l.map fun k : Int => (k : Rat)) T)
          (by rw [List.length_zipWith, List.length_map, hl.1, hTl]; exact Nat.min_self _)]
        refine List.flatMap_congr fun j hj => ?_
        have hj := List.mem_range.1 hj
        rw [rowOf_eq_map (J := J) (by rw [List.length_zipWith, List.length_map, hl.1, hTl]; exact Nat.min_self _) hj]
        refine List.map_congr_left fun k _ => ?_
        rw [getD_zipAdd (by rw [List.length_map, hl.1, hTl]; rfl), getD_map_int]
        rfl
      rw [hfin, foldValue_max_nonneg]
      · rfl
      · rw [← hfin]
        intro x hx
        obtain ⟨i, hi, rfl⟩ := List.getElem_of_mem hx
        rw [List.getElem_zipWith, List.getElem_map]
        refine add_nonneg ?_ (hT0 _ (List.getElem_mem _))
        exact_mod_cast (hl.2 _ (List.getElem_mem _)).1
    · refine List.rel_append ?_ (.cons ⟨_, _, _, N15.has⟩ .nil)
      exact qM.imp fun i q h => h.mono x15
    · intro l hl
      have hv : (single ((jobShopOf J m ⟨[(J : Int), (m : Int)], T⟩ ks upper).problem.values l s2.length)).data =
        l.map fun k : Int => (k : Rat) := rfl
      have hge : ∀ i, (List.zipWith BinaryOp.add.func (l.map fun k : Int => (k : Rat)) T).getD i 0 = ((l.getD i 0 : Int) : Rat) + T.getD i 0 := by
        intro i
        rw [getD_zipAdd (by rw [List.length_map, hl.1, hTl]; rfl), getD_map_int]
      have hin : ∀ j, inOrder m ks (l.map fun k : Int => (k : Rat)) (List.zipWith BinaryOp.add.func (l.map fun k : Int => (k : Rat)) T) j = true ↔
          (jobShopOf J m ⟨[(J : Int), (m : Int)], T⟩ ks upper).InOrder l j := by
        intro j
        unfold inOrder JobShop.InOrder
        simp only [decide_eq_true_eq, hge, getD_map_int]
        refine forall_congr' fun k => ?_
        constructor
        · intro h hk
          exact h (by have : k + 1 < m := hk; omega)
        · intro h hk
          exact h (by show k + 1 < m; omega)
      have hap : apart J m (l.map fun k : Int => (k : Rat)) (List.zipWith BinaryOp.add.func (l.map fun k : Int => (k : Rat)) T) = true ↔
          ∀ i < J, ∀ j < J, i ≠ j → (jobShopOf J m ⟨[(J : Int), (m : Int)], T⟩ ks upper).Apart l i j := by
        unfold apart
        simp only [decide_eq_true_eq, hge, getD_map_int]
        constructor
        · intro h i hi j hj hij k hk
          rcases Nat.lt_or_gt_of_ne hij with hlt | hlt
          · exact h (i, j) (mem_pairs.2 ⟨hlt, hj⟩) k hk
          · exact (h (j, i) (mem_pairs.2 ⟨hlt, hi⟩) k hk).symm
        · rintro h ⟨i, j⟩ hp k hk
          obtain ⟨h1, h2⟩ := mem_pairs.1 hp
          simp only at h1 h2
          exact h i (by omega) j h2 (by omega) k hk
      simp only [List.forall_mem_append, List.forall_mem_map, List.mem_singleton, forall_eq, hv, hin, hap, List.mem_range]
      rfl

/-- What is accepted. -/
theorem jobShop_accepted {M : Generated} (hT : T.IsMatrix J m) (hK : K.IsMatrix J m) (e : Generators.jobShop T K upper = .ok M) :
    (∀ x ∈ T.data, 0 ≤ x) ∧ 0 < J ∧ 0 < m ∧ (∀ u ∈ upper, 1 ≤ u) ∧
    ∃ base : Nat, (base = 0 ∨ base = 1) ∧ ∃ ks : List Nat, (K.data = ks.map fun k : Nat => ((k + base : Nat) : Rat)) ∧
      ∀ j < J, ((ks.drop (j * m)).take m).Perm (List.range m) := by
  obtain ⟨_, T⟩ := T
  obtain ⟨_, K⟩ := K
  obtain ⟨rfl, hTl⟩ := id hT
  obtain ⟨rfl, hKl⟩ := id hK
  unfold Generators.jobShop at e
  rcases require_cases 2 false true false ⟨[(J : Int), (m : Int)], T⟩ with e1 | ⟨_, _, hT0, _, e1⟩
  · rw [e1] at e; cases e
  rcases require_cases 2 false true false ⟨[(J : Int), (m : Int)], K⟩ with e2 | ⟨_, _, hK0, _, e2⟩
  · rw [e1, e2] at e; cases e
  rw [e1, e2] at e
  simp only [Res.ok_bind, List.length_cons, List.length_nil, Nat.sub_self, List.replicate_zero, List.nil_append] at e
  obtain ⟨_, _, e⟩ := Res.bind_eq_ok.1 e
  obtain ⟨_, g1, e⟩ := Res.bind_eq_ok.1 e
  obtain ⟨_, g2, e⟩ := Res.bind_eq_ok.1 e
  obtain ⟨_, g3, e⟩ := Res.bind_eq_ok.1 e
  clear e
  rw [guardThrow_eq_ok] at g1 g2 g3
  simp only [List.getD_cons_zero, List.getD_cons_succ, Int.toNat_natCast] at g2
  have hne : J * m ≠ 0 := by
    intro h
    apply g1
    simp only [List.prod_cons, List.prod_nil, mul_one]
    exact_mod_cast h
  have hJ0 : 0 < J := Nat.pos_of_ne_zero fun h => hne (by rw [h, Nat.zero_mul])
  have hm0 : 0 < m := Nat.pos_of_ne_zero fun h => hne (by rw [h, Nat.mul_zero])
  refine ⟨hT0 rfl, hJ0, hm0, fun u hu => not_lt.1 (g3 u hu), ?_⟩
  -- the machines counted from zero
  have hlen : (Generators.fromZero ⟨[(J : Int), (m : Int)], K⟩).data.length = J * m := by
    unfold Generators.fromZero
    split_ifs <;> simpa using hKl
  have hperm : ∀ j < J, (rowOf (Generators.fromZero ⟨[(J : Int), (m : Int)], K⟩).data m j).Perm ((List.range m).map fun k : Nat => (k : Rat)) := by
    intro j hj
    rw [← g2 j (List.mem_range.2 hj)]
    exact (List.perm_insertionSort _ _).symm
  obtain ⟨ks, hks, eks⟩ := map_cast_of_all (n := m) (data := (Generators.fromZero ⟨[(J : Int), (m : Int)], K⟩).data) (by
    intro v hv
    rw [← flatMap_rows J m _ hlen] at hv
    obtain ⟨j, hj, hv⟩ := List.mem_flatMap.1 hv
    obtain ⟨k, hk, rfl⟩ := List.mem_map.1 ((hperm j (List.mem_range.1 hj)).mem_iff.1 hv)
    exact ⟨k, List.mem_range.1 hk, rfl⟩)
  have hrows : ∀ j < J, ((ks.drop (j * m)).take m).Perm (List.range m) := by
    intro j hj
    have := hperm j hj
    rw [eks] at this
    unfold rowOf at this
    rw [← List.map_drop, ← List.map_take] at this
    exact (List.map_perm_map_iff (fun a b h => by exact_mod_cast h)).1 this
  unfold Generators.fromZero at eks
  split_ifs at eks with h
  · refine ⟨1, .inr rfl, ks, ?_, hrows⟩
    have := congrArg (List.map (· + 1)) eks
    simp only [List.map_map] at this
    simpa [Function.comp_def] using this
  · exact ⟨0, .inl rfl, ks, by simpa using eks, hrows⟩

end Verif
