import Verif.Lemmas.ScriptMore

set_option linter.unusedSectionVars false
set_option linter.unusedSimpArgs false
set_option linter.unusedVariables false

/-! Helper lemmas: the model of job-shop scheduling. -/

namespace Verif

open Script

variable {full : Prop} {J m : Nat} {ks : List Nat} {D : Nat → Prop} {adm : (Nat → Val) → Prop}

/-- All symbols are of interest. -/
abbrev every : Nat → Prop := fun _ => True

/-- The tasks of job `j` are in order. -/
def inOrder (m : Nat) (ks : List Nat) (gs ge : List Rat) (j : Nat) : Bool :=
  decide (∀ k < m - 1, ge.getD (j * m + ks.getD (j * m + k) 0) 0 ≤ gs.getD (j * m + ks.getD (j * m + (k + 1)) 0) 0)

/-- A selected row as a symbol. -/
theorem State.rowAt {s : Script} (S : State full every s D adm) {x : Nat} {claim : Res Claim} {size : SizeInfo}
    {const : Option (Arr Rat)} {g : (Nat → Val) → List Rat} (hx : HasArr every s x [(J : Int), (m : Int)] claim size const g) (j : Nat)
    (hJ : (J : Int) ≤ ssMax) (hm : (m : Int) ≤ ssMax) (hJm : (J : Int) * m ≤ ssMax) (hj : j < J) :
    ∃ s', s.add (.basic [.at j, .slice none none none]) [x] = .ok (s', s.length) ∧
      NextArr full every s s' D adm [(m : Int)] claim (.fixed m) none (fun A => rowOf (g A) m j) := by
  obtain ⟨s', e, N⟩ := S.rowFixed trivial hx j none none hJ hm hJm hj (by decide)
  have h : sliceHi none none m - sliceLo none none m = m := by
    have := length_sliceOf none none (List.replicate m 0)
    rw [sliceOf_all, List.length_replicate] at this
    exact this.symm
  rw [h] at N
  refine ⟨s', e, N.congr fun A hA => ?_⟩
  have hl := hx.length S hA (by simp [dynamicShape])
  simp only [List.prod_cons, List.prod_nil, mul_one] at hl
  rw [select_row _ J m j (by exact_mod_cast hl) hj, sliceOf_all]
  rfl

theorem inOrder_iff {gs ge : List Rat} (hks : ks.length = J * m) (hlt : ∀ k ∈ ks, k < m) {j : Nat} (hj : j < J) :
    (∀ x ∈ List.zipWith BinaryOp.lessEqual.func
        ((rowOf (ks.map fun k : Nat => (k : Rat)) m j).dropLast.map fun v => (rowOf ge m j).getD (toSS v).toNat 0)
        ((rowOf (ks.map fun k : Nat => (k : Rat)) m j).tail.map fun v => (rowOf gs m j).getD (toSS v).toNat 0), x ≠ 0) ↔
      inOrder m ks gs ge j = true := by
  have hr : rowOf (ks.map fun k : Nat => (k : Rat)) m j = ((ks.drop (j * m)).take m).map fun k : Nat => (k : Rat) := by
    unfold rowOf
    rw [List.map_take, List.map_drop]
  have hlen : ((ks.drop (j * m)).take m).length = m := by
    have := length_rowOf (l := ks.map fun k : Nat => (k : Rat)) (j := j) (by simpa using hks) hj
    rw [hr] at this
    simpa using this
  have hget : ∀ k < m, ((ks.drop (j * m)).take m).getD k 0 = ks.getD (j * m + k) 0 := by
    intro k hk
    simp only [List.getD_eq_getElem?_getD, List.getElem?_take, if_pos hk, List.getElem?_drop]
  have hsmall : ∀ k < m, ks.getD (j * m + k) 0 < m := by
    intro k hk
    have : j * m + k < ks.length := by
      rw [hks]
      have : (j + 1) * m ≤ J * m := Nat.mul_le_mul_right _ hj
      have e : (j + 1) * m = j * m + m := Nat.succ_mul j m
      omega
    rw [getD_of_lt this]
    exact hlt _ (List.getElem_mem _)
  rw [hr, ← List.map_dropLast, ← List.map_tail, List.map_map, List.map_map, List.zipWith_map, zipWith_dropLast_tail, hlen]
  unfold inOrder
  simp only [List.forall_mem_map, List.mem_range, decide_eq_true_eq, Function.comp]
  refine forall_congr' fun k => forall_congr' fun hk => ?_
  rw [hget k (by omega), hget (k + 1) (by omega), toSS_natCast, toSS_natCast, Int.toNat_natCast, Int.toNat_natCast,
    getD_rowOf (hsmall k (by omega)), getD_rowOf (hsmall (k + 1) (by omega))]
  simp [BinaryOp.func, ofBool]

theorem job_step {M : Generated} (S : State full every M.rows D adm) {mi st en : Nat} {c : Claim} {cs ce : Res Claim} {zs ze : Int}
    {sm : SizeInfo} {cm : Option (Arr Rat)} {gs ge : (Nat → Val) → List Rat}
    (hm : HasArr every M.rows mi [(J : Int), (m : Int)] (.ok c) sm cm fun _ => ks.map fun k : Nat => (k : Rat))
    (hc : c.integral = true ∧ 0 ≤ c.range.lo ∧ c.range.hi < m ∧
      ∀ v ∈ ks.map fun k : Nat => (k : Rat), v.den = 1 ∧ c.range.lo ≤ v ∧ v ≤ c.range.hi)
    (hs : HasArr every M.rows st [(J : Int), (m : Int)] cs (.fixed zs) none gs)
    (he : HasArr every M.rows en [(J : Int), (m : Int)] ce (.fixed ze) none ge)
    (hJ : (J : Int) ≤ ssMax) (hms : (m : Int) ≤ ssMax) (hJm : (J : Int) * m ≤ ssMax) (hm0 : 0 < m) {j : Nat} (hj : j < J)
    (hks : ks.length = J * m) (hlt : ∀ k ∈ ks, k < m) :
    ∃ M' i, Generators.jobConstraint mi st en M j = .ok M' ∧ State full every M'.rows D adm ∧ Ext every M.rows M'.rows ∧
      M'.objective = M.objective ∧ M'.constraints = M.constraints ++ [i] ∧
      Computes every M'.rows i fun A => ofBool (inOrder m ks (gs A) (ge A) j) := by
  obtain ⟨s1, e1, N1⟩ := S.rowFixed trivial hm j none (some (-1)) hJ hms hJm hj (by decide)
  replace N1 := N1.congr (g' := fun _ => (rowOf (ks.map fun k : Nat => (k : Rat)) m j).dropLast) (by
    intro A hA
    rw [select_row _ J m j (by simpa using hks) hj, sliceOf_init]
    rfl)
  obtain ⟨s2, e2, N2⟩ := State.rowAt N1.state (he.mono N1.ext) j hJ hms hJm hj
  obtain ⟨s3, e3, N3⟩ := N2.state.advancedOne (n := m) trivial N2.has (by rintro _ ⟨⟩)
    ⟨N1.has.mono N2.ext, hc.1, hc.2.1, hc.2.2.1, fun A hA v hv => hc.2.2.2 v (mem_rowOf (List.mem_of_mem_dropLast hv))⟩ (by simp) hm0
  have f3 := N1.ext.trans (N2.ext.trans N3.ext)
  obtain ⟨s4, e4, N4⟩ := N3.state.rowFixed trivial (hm.mono f3) j (some 1) none hJ hms hJm hj (by decide)
  replace N4 := N4.congr (g' := fun _ => (rowOf (ks.map fun k : Nat => (k : Rat)) m j).tail) (by
    intro A hA
    rw [select_row _ J m j (by simpa using hks) hj, sliceOf_tail]
    rfl)
  rw [← slice_sizes] at N4
  obtain ⟨s5, e5, N5⟩ := State.rowAt N4.state (hs.mono (f3.trans N4.ext)) j hJ hms hJm hj
  obtain ⟨s6, e6, N6⟩ := N5.state.advancedOne (n := m) trivial N5.has (by rintro _ ⟨⟩)
    ⟨N4.has.mono N5.ext, hc.1, hc.2.1, hc.2.2.1, fun A hA v hv => hc.2.2.2 v (mem_rowOf (List.mem_of_mem_tail hv))⟩ (by simp) hm0
  obtain ⟨s7, e7, N7⟩ := N6.state.truth trivial .lessEqual rfl (N3.has.mono (N4.ext.trans (N5.ext.trans N6.ext))) N6.has
    (by simp [GoodShape]) (by simp [dynamicShape])
  obtain ⟨s8, e8, N8⟩ := N7.state.all trivial N7.has (by simp [GoodShape])
  replace N8 := N8.congr (g' := fun A => [ofBool (inOrder m ks (gs A) (ge A) j)]) (by
    intro A hA
    show [allValue 1 _] = [_]
    congr 1
    exact allValue_eq (inOrder_iff hks hlt hj))
  refine ⟨⟨s8, M.objective, M.constraints ++ [s7.length]⟩, s7.length, ?_, N8.state,
    f3.trans (N4.ext.trans (N5.ext.trans (N6.ext.trans (N7.ext.trans N8.ext)))), rfl, rfl, ⟨_, _, _, N8.has⟩⟩
  unfold Generators.jobConstraint
  simp only [e1, e2, e3, e4, e5, e6, e7, e8, Res.ok_bind]
  exact addConstraint_ok N8.has _ _

/-- The loop over the jobs. -/
theorem job_loop {mi st en : Nat} {c : Claim} {cs ce : Res Claim} {zs ze : Int}
    {sm : SizeInfo} {cm : Option (Arr Rat)} {gs ge : (Nat → Val) → List Rat}
    (hc : c.integral = true ∧ 0 ≤ c.range.lo ∧ c.range.hi < m ∧
      ∀ v ∈ ks.map fun k : Nat => (k : Rat), v.den = 1 ∧ c.range.lo ≤ v ∧ v ≤ c.range.hi)
    (hJ : (J : Int) ≤ ssMax) (hms : (m : Int) ≤ ssMax) (hJm : (J : Int) * m ≤ ssMax) (hm0 : 0 < m)
    (hks : ks.length = J * m) (hlt : ∀ k ∈ ks, k < m) :
    ∀ (js : List Nat) (M : Generated), (∀ j ∈ js, j < J) → State full every M.rows D adm →
      HasArr every M.rows mi [(J : Int), (m : Int)] (.ok c) sm cm (fun _ => ks.map fun k : Nat => (k : Rat)) →
      HasArr every M.rows st [(J : Int), (m : Int)] cs (.fixed zs) none gs →
      HasArr every M.rows en [(J : Int), (m : Int)] ce (.fixed ze) none ge →
      ∃ M' is, js.foldlM (Generators.jobConstraint mi st en) M = .ok M' ∧ State full every M'.rows D adm ∧ Ext every M.rows M'.rows ∧
        M'.objective = M.objective ∧ M'.constraints = M.constraints ++ is ∧
        List.Forall₂ (fun i (q : (Nat → Val) → Bool) => Computes every M'.rows i fun A => ofBool (q A)) is
          (js.map fun j A => inOrder m ks (gs A) (ge A) j) := by
  intro js
  induction js with
  | nil =>
    intro M _ S _ _ _
    exact ⟨M, [], rfl, S, Ext.refl, rfl, by simp, .nil⟩
  | cons j js ih =>
    intro M hj S h1 h2 h3
    obtain ⟨M1, i, e1, S1, x1, o1, k1, q1⟩ := job_step S h1 hc h2 h3 hJ hms hJm hm0 (hj j (by simp)) hks hlt
    obtain ⟨M2, is, e2, S2, x2, o2, k2, q2⟩ := ih M1 (fun i hi => hj i (by simp [hi])) S1 (h1.mono x1) (h2.mono x1) (h3.mono x1)
    refine ⟨M2, i :: is, ?_, S2, x1.trans x2, o2.trans o1, by rw [k2, k1]; simp, .cons (q1.mono x2) q2⟩
    rw [List.foldlM_cons, e1]
    exact e2

theorem zipWith_flatMap {α β γ δ : Type} (h : β → γ → δ) (f : α → List β) (g : α → List γ) (l : List α)
    (hl : ∀ a ∈ l, (f a).length = (g a).length) :
    List.zipWith h (l.flatMap f) (l.flatMap g) = l.flatMap fun a => List.zipWith h (f a) (g a) := by
  induction l with
  | nil => rfl
  | cons a l ih =>
    simp only [List.flatMap_cons]
    rw [List.zipWith_append (hl a (by simp)), ih fun b hb => hl b (by simp [hb])]

theorem mem_pairs {n : Nat} {p : Nat × Nat} : p ∈ Generators.pairs n ↔ p.1 < p.2 ∧ p.2 < n := by
  obtain ⟨i, j⟩ := p
  simp only [Generators.pairs, List.mem_flatMap, List.mem_range, List.mem_map, List.mem_filter, decide_eq_true_eq, Prod.mk.injEq]
  constructor
  · rintro ⟨i', hi, j', ⟨hj, hij⟩, rfl, rfl⟩
    exact ⟨hij, hj⟩
  · rintro ⟨h1, h2⟩
    exact ⟨i, by omega, j, ⟨h2, h1⟩, rfl, rfl⟩

/-- Jobs are not on a machine at the same time. -/
def apart (J m : Nat) (gs ge : List Rat) : Bool :=
  decide (∀ p ∈ Generators.pairs J, ∀ k < m,
    ge.getD (p.1 * m + k) 0 ≤ gs.getD (p.2 * m + k) 0 ∨ ge.getD (p.2 * m + k) 0 ≤ gs.getD (p.1 * m + k) 0)

theorem zipWith_rows {h : Rat → Rat → Rat} {l l' : List Rat} {i j : Nat} (hl : l.length = J * m) (hl' : l'.length = J * m) (hi : i < J) (hj : j < J) :
    List.zipWith h (rowOf l m i) (rowOf l' m j) = (List.range m).map fun k => h (l.getD (i * m + k) 0) (l'.getD (j * m + k) 0) := by
  have h1 := length_rowOf hl hi
  have h2 := length_rowOf hl' hj
  refine List.ext_getElem (by simp [h1, h2]) fun k k1 k2 => ?_
  simp only [List.length_zipWith, h1, h2, Nat.min_self] at k1
  rw [List.getElem_zipWith, List.getElem_map, List.getElem_range, ← getD_rowOf k1, ← getD_rowOf k1, getD_of_lt, getD_of_lt]

theorem apart_iff {gs ge : List Rat} (h1 : gs.length = J * m) (h2 : ge.length = J * m) :
    (∀ x ∈ List.zipWith BinaryOp.or.func
      (List.zipWith BinaryOp.lessEqual.func
        (((Generators.pairs J).map fun p => (p.1 : Rat)).flatMap fun v => (ge.drop ((toSS v).toNat * m)).take m)
        (((Generators.pairs J).map fun p => (p.2 : Rat)).flatMap fun v => (gs.drop ((toSS v).toNat * m)).take m))
      (List.zipWith BinaryOp.lessEqual.func
        (((Generators.pairs J).map fun p => (p.2 : Rat)).flatMap fun v => (ge.drop ((toSS v).toNat * m)).take m)
        (((Generators.pairs J).map fun p => (p.1 : Rat)).flatMap fun v => (gs.drop ((toSS v).toNat * m)).take m)), x ≠ 0) ↔
      apart J m gs ge = true := by
  have hp : ∀ p ∈ Generators.pairs J, p.1 < J ∧ p.2 < J := fun p hp => by
    have := mem_pairs.1 hp
    omega
  have hrow : ∀ (l : List Rat) (k : Nat), (l.drop ((toSS (k : Rat)).toNat * m)).take m = rowOf l m k := by
    intro l k
    rw [toSS_natCast, Int.toNat_natCast]
    rfl
  simp only [List.flatMap_map, hrow]
  rw [zipWith_flatMap _ _ _ _ fun p h => by rw [length_rowOf h2 (hp p h).1, length_rowOf h1 (hp p h).2],
    zipWith_flatMap _ _ _ _ fun p h => by rw [length_rowOf h2 (hp p h).2, length_rowOf h1 (hp p h).1],
    zipWith_flatMap _ _ _ _ fun p h => by
      simp only [List.length_zipWith, length_rowOf h2 (hp p h).1, length_rowOf h1 (hp p h).2, length_rowOf h2 (hp p h).2,
        length_rowOf h1 (hp p h).1]]
  unfold apart
  simp only [List.mem_flatMap, decide_eq_true_eq, forall_exists_index, and_imp]
  rw [forall_comm]
  refine forall_congr' fun p => ?_
  rw [forall_comm]
  refine forall_congr' fun h => ?_
  rw [zipWith_rows h2 h1 (hp p h).1 (hp p h).2, zipWith_rows h2 h1 (hp p h).2 (hp p h).1, List.zipWith_map, List.zipWith_self]
  simp only [List.forall_mem_map, List.mem_range]
  refine forall_congr' fun k => forall_congr' fun hk => ?_
  generalize ge.getD (p.1 * m + k) 0 = w
  generalize gs.getD (p.2 * m + k) 0 = x
  generalize ge.getD (p.2 * m + k) 0 = y
  generalize gs.getD (p.1 * m + k) 0 = z
  simp only [BinaryOp.func, ofBool, truth]
  by_cases a : w ≤ x <;> by_cases b : y ≤ z <;> simp [a, b]

theorem flatMap_rows : ∀ (J m : Nat) (l : List Rat), l.length = J * m → (List.range J).flatMap (rowOf l m) = l := by
  intro J m
  induction J with
  | zero =>
    intro l hl
    rw [Nat.zero_mul] at hl
    rw [List.eq_nil_of_length_eq_zero hl]
    rfl
  | succ J ih =>
    intro l hl
    rw [List.range_succ_eq_map, List.flatMap_cons, List.flatMap_map]
    have h1 : (fun j => rowOf l m (j + 1)) = rowOf (l.drop m) m := by
      funext j
      unfold rowOf
      rw [List.drop_drop, Nat.succ_mul, Nat.add_comm]
    rw [h1, ih (l.drop m) (by rw [List.length_drop, hl, Nat.succ_mul]; omega)]
    unfold rowOf
    simp

theorem foldl_max_eq : ∀ (xs : List Rat) (x : Rat), 0 ≤ x → xs.foldl max x = max x (xs.foldr max 0) := by
  intro xs
  induction xs with
  | nil => intro x hx; simp [hx]
  | cons y ys ih =>
    intro x hx
    rw [List.foldl_cons, ih _ (le_max_of_le_left hx), List.foldr_cons, max_assoc]

theorem foldValue_max_nonneg {xs : List Rat} (hx : ∀ x ∈ xs, 0 ≤ x) : foldValue Max.max none xs = xs.foldr max 0 := by
  cases xs with
  | nil => rfl
  | cons x xs => exact foldl_max_eq xs x (hx x (by simp))

end Verif
