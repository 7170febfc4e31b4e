import Verif.Props.Floating
import Verif.Props.Quadratic

/-!
# C67, quadratic models
-/

namespace Verif

open QModel

/-- All biases are whole numbers of magnitude at most `B`. -/
structure WholeBiases (B : Int) (b : Biases) : Prop where
  linear : ∀ v, Whole B (b.linear v)
  square : ∀ v, Whole B (b.square v)
  pair : ∀ u v c, b.pair u v = some c → Whole B c

theorem whole_range_sum {C : Int} {g : Nat → Rat} : ∀ {n : Nat}, (∀ i < n, Whole C (g i)) →
    Whole (n * C) (∑ i ∈ Finset.range n, g i) := by
  intro n
  induction n with
  | zero => intro _; simpa using whole_zero (le_refl 0)
  | succ n ih =>
    intro h
    rw [Finset.sum_range_succ]
    refine ((ih fun i hi => h i (by omega)).add (h n (by omega))).mono (le_of_eq ?_)
    push_cast
    ring

theorem Sorted.length_le {n : Nat} {ps : List (Nat × Rat)} (hs : Sorted ps) (h : ∀ p ∈ ps, p.1 < n) : ps.length ≤ n := by
  have hn : (ps.map Prod.fst).Nodup := by
    rw [List.Nodup, List.pairwise_map]
    exact hs.imp fun h => by omega
  have := hn.subperm (l₂ := List.range n) (by
    intro v hv
    obtain ⟨p, hp, rfl⟩ := List.mem_map.1 hv
    exact List.mem_range.2 (h p hp))
  simpa using this.length_le

section

variable {q : QModel} {b : Biases} (hq : QInv q b) {B M : Int} (hB : WholeBiases B b) (hM1 : 1 ≤ M)
  (hbound : ((q.n : Int) + 2) ^ 2 * (B * M ^ 2) ≤ 2 ^ 53)

/-- The number at one place of a list. -/
theorem whole_getD (hM : 0 ≤ M) {x : List Rat} (hx : ∀ v ∈ x, Whole M v) (i : Nat) : Whole M (x.getD i 0) := by
  rw [List.getD_eq_getElem?_getD]
  cases h : x[i]? with
  | none => exact whole_zero hM
  | some v => exact hx v (List.mem_of_getElem? h)

include hB hM1 in
/-- The terms of one variable. -/
theorem whole_term {x : List Rat} (hx : ∀ v ∈ x, Whole M v) {i : Nat} (hi : i ≤ q.n) :
    Whole ((q.n + 2) * (B * M ^ 2)) (b.linear i * x.getD i 0 + b.square i * (x.getD i 0 * x.getD i 0) +
      ∑ j ∈ Finset.range i, (b.pair i j).getD 0 * (x.getD i 0 * x.getD j 0)) := by
  have hB0 := (hB.linear 0).nonneg
  have wx := fun j => whole_getD (by omega : 0 ≤ M) hx j
  have hp : ∀ j, Whole B ((b.pair i j).getD 0) := by
    intro j
    cases h : b.pair i j with
    | none => exact whole_zero hB0
    | some c => exact hB.pair _ _ _ h
  have h1 := ((hB.linear i).mul (wx i))
  have h2 := ((hB.square i).mul ((wx i).mul (wx i)))
  have h3 := whole_range_sum (n := i) (C := B * (M * M)) (g := fun j => (b.pair i j).getD 0 * (x.getD i 0 * x.getD j 0))
    (fun j _ => (hp j).mul ((wx i).mul (wx j)))
  refine ((h1.add h2).add h3).mono ?_
  have hMM : M ≤ M * M := by nlinarith
  have e1 : B * M ≤ B * (M * M) := mul_le_mul_of_nonneg_left hMM hB0
  have e2 : (i : Int) * (B * (M * M)) ≤ q.n * (B * (M * M)) :=
    mul_le_mul_of_nonneg_right (by exact_mod_cast hi) (mul_nonneg hB0 (by nlinarith))
  rw [pow_two]
  linarith

theorem value_as_terms (b : Biases) (n : Nat) (x : Nat → Rat) : b.value n x = ∑ i ∈ Finset.range n,
    (b.linear i * x i + b.square i * (x i * x i) + ∑ j ∈ Finset.range i, (b.pair i j).getD 0 * (x i * x j)) := by
  unfold Biases.value
  rw [Finset.sum_add_distrib, Finset.sum_add_distrib]

include hB hM1 in
theorem whole_value {x : List Rat} (hx : ∀ v ∈ x, Whole M v) :
    Whole (q.n * ((q.n + 2) * (B * M ^ 2))) (b.value q.n (fun i => x.getD i 0)) := by
  rw [value_as_terms]
  exact whole_range_sum fun i hi => whole_term (q := q) hB hM1 hx (by omega)

include hB hM1 hbound

/-- The bounds that are used. -/
theorem quadratic_bounds : 0 ≤ B ∧ 0 ≤ B * M ^ 2 ∧ B ≤ B * M ∧ B * M ≤ B * M ^ 2 ∧ (q.n : Int) * ((q.n + 2) * (B * M ^ 2)) ≤ 2 ^ 53 ∧
    ((q.n : Int) + 2) * (B * M) ≤ 2 ^ 53 ∧ ((q.n : Int) + 2) * (B * M ^ 2) ≤ 2 ^ 53 ∧
    ((1 : Int) ≤ q.n → 2 * ((q.n : Int) + 3) * (B * M ^ 2) ≤ 2 ^ 53) := by
  have hB0 := (hB.linear 0).nonneg
  have c0 : 0 ≤ B * M ^ 2 := by positivity
  have c1 : B ≤ B * M := by nlinarith
  have c2 : B * M ≤ B * M ^ 2 := by
    rw [pow_two, ← mul_assoc]
    nlinarith [mul_nonneg hB0 (by omega : 0 ≤ M)]
  have hn : (0 : Int) ≤ q.n := by omega
  generalize (q.n : Int) = n at *
  have c3 : (n + 2) * (B * M ^ 2) ≤ 2 ^ 53 := by nlinarith
  refine ⟨hB0, c0, c1, c2, by nlinarith, ?_, c3, fun h => ?_⟩
  · nlinarith
  · nlinarith

include hq in
/-- The products with the neighbours. -/
theorem flInteract_all {fl : Rat → Rat} (K : KeepsWhole fl) {x : List Rat} (hx : ∀ v ∈ x, Whole M v) (hl : x.length = q.n)
    {u : Nat} (hu : u < q.n) {N : Neighborhood} (hN : q.adj[u]? = some N) (ps : List (Nat × Rat))
    (hps : ps.Sublist (N.neighbors.zip N.biases)) :
    ps.mapM (flInteract fl x) = ps.mapM (interact x) ∧ ∀ terms, ps.mapM (interact x) = .ok terms →
      terms.length ≤ q.n ∧ ∀ t ∈ terms, Whole (B * M) t := by
  obtain ⟨hB0, c0, c1, c2, c3, c4, c5, _⟩ := quadratic_bounds (q := q) hB hM1 hbound
  obtain ⟨N', hN', hinv⟩ := hq.adj u hu
  obtain rfl : N' = N := by rw [hN] at hN'; exact (Option.some.inj hN').symm
  obtain ⟨qs, hp, hs, _, hr, hlook⟩ := hinv.ex
  rw [hp.zip] at hps
  have hss : Sorted ps := List.Pairwise.sublist hps hs
  have hps1 : ∀ p ∈ ps, p.1 < q.n := fun p hp' => (hr p (hps.subset hp')).1
  have hw : ∀ p ∈ ps, Whole (B * M) (x.getD p.1 0 * p.2) := by
    intro p hp'
    have : Whole B p.2 := hB.pair u p.1 p.2 (by rw [← hlook]; exact alook_of_mem hs (hps.subset hp'))
    rw [mul_comm B]
    exact (whole_getD (by omega) hx p.1).mul this
  have e1 := interact_all hl hps1
  have hBM : B * M ≤ 2 ^ 53 := by
    have : (0 : Int) ≤ q.n := by omega
    nlinarith
  constructor
  · rw [e1]
    refine mapM_ok _ _ ps (fun p hp' => ?_)
    have hg : x[p.1]? = some (x.getD p.1 0) := by
      simp [List.getD_eq_getElem?_getD, hl, hps1 p hp']
    simp only [flInteract, hg, flMul]
    rw [K.eq (hw p hp') hBM]
  · intro terms ht
    rw [e1] at ht
    have := Res.ok.inj ht
    subst this
    refine ⟨by simpa using hss.length_le hps1, ?_⟩
    intro t ht
    obtain ⟨p, hp', rfl⟩ := List.mem_map.1 ht
    exact hw p hp'

include hq in
theorem flEffective_eq {fl ext : Rat → Rat} (K : KeepsWhole fl) (E : KeepsWhole ext) {x : List Rat} (hx : ∀ v ∈ x, Whole M v)
    (hl : x.length = q.n) {u : Nat} (hu : u < q.n) :
    flEffective fl ext q u x = q.effectiveLinearBias u x ∧
      ∀ lin, q.effectiveLinearBias u x = .ok lin → Whole ((q.n + 1) * (B * M)) lin := by
  obtain ⟨hB0, c0, c1, c2, c3, c4, c5, _⟩ := quadratic_bounds (q := q) hB hM1 hbound
  obtain ⟨N, hN, hinv⟩ := hq.adj u hu
  obtain ⟨f1, f2⟩ := flInteract_all hq hB hM1 hbound K hx hl hu hN _ (List.Sublist.refl _)
  obtain ⟨terms, et, _⟩ := hinv.all_sum hl
  obtain ⟨t1, t2⟩ := f2 terms et
  have hBM : 0 ≤ B * M := by omega
  have w : Whole ((q.n + 1) * (B * M)) (b.linear u + terms.sum) := by
    refine ((hB.linear u).add (whole_sum t2)).mono ?_
    have : (terms.length : Int) * (B * M) ≤ q.n * (B * M) := mul_le_mul_of_nonneg_right (by exact_mod_cast t1) hBM
    linarith
  have hle : ((q.n : Int) + 1) * (B * M) ≤ 2 ^ 53 := by linarith
  have e1 : terms.foldl (flAdd ext) (b.linear u) = b.linear u + terms.sum :=
    (combines_foldl (flAdd ext) terms (b.linear u)).whole E (hB.linear u) t2 t1 hBM (by linarith)
  constructor
  · simp only [flEffective, effectiveLinearBias, guardUB_true hl, Res.ok_bind, hq.linear u hu, hN, f1, et, e1, K.eq w hle]
  · intro lin h
    simp only [effectiveLinearBias, guardUB_true hl, Res.ok_bind, hq.linear u hu, hN, et] at h
    rw [← Res.ok.inj h]
    exact w

include hq in
theorem flComputeValue_eq {fl ext : Rat → Rat} (K : KeepsWhole fl) (E : KeepsWhole ext) {x : List Rat} (hx : ∀ v ∈ x, Whole M v)
    (hl : x.length = q.n) : flComputeValue fl ext q x = .ok (b.value q.n (fun i => x.getD i 0)) := by
  obtain ⟨hB0, c0, c1, c2, c3, c4, c5, _⟩ := quadratic_bounds (q := q) hB hM1 hbound
  have hBM : 0 ≤ B * M := by omega
  have key : ∀ m, m ≤ q.n → (List.range m).foldlM (flValueStep fl ext q x) 0 = .ok (∑ i ∈ Finset.range m,
      (b.linear i * x.getD i 0 + b.square i * (x.getD i 0 * x.getD i 0) +
        ∑ j ∈ Finset.range i, (b.pair i j).getD 0 * (x.getD i 0 * x.getD j 0))) := by
    intro m
    induction m with
    | zero => intro _; rfl
    | succ m ih =>
      intro hm
      have hi : m < q.n := by omega
      rw [List.range_succ, List.foldlM_append, ih (by omega), Res.ok_bind, List.foldlM_cons]
      have hsum : Whole (((m + 1 : Nat) : Int) * ((q.n + 2) * (B * M ^ 2))) (∑ i ∈ Finset.range (m + 1),
          (b.linear i * x.getD i 0 + b.square i * (x.getD i 0 * x.getD i 0) +
            ∑ j ∈ Finset.range i, (b.pair i j).getD 0 * (x.getD i 0 * x.getD j 0))) :=
        whole_range_sum fun i hi => whole_term (q := q) hB hM1 hx (by omega)
      have hsum' := K.eq (hsum.mono (by
        exact mul_le_mul_of_nonneg_right (by exact_mod_cast hm) (mul_nonneg (by omega) c0))) c3
      have hsumE := E.eq (hsum.mono (by
        exact mul_le_mul_of_nonneg_right (by exact_mod_cast hm) (mul_nonneg (by omega) c0))) c3
      have hterm := whole_term (q := q) (i := m) hB hM1 hx (by omega)
      rw [Finset.sum_range_succ] at hsumE ⊢
      generalize (∑ i ∈ Finset.range m, (b.linear i * x.getD i 0 + b.square i * (x.getD i 0 * x.getD i 0) +
        ∑ j ∈ Finset.range i, (b.pair i j).getD 0 * (x.getD i 0 * x.getD j 0))) = acc at *
      obtain ⟨N, hN, hinv⟩ := hq.adj m hi
      obtain ⟨terms, et, es⟩ := hinv.smaller_sum hl
      obtain ⟨f1, f2⟩ := flInteract_all hq hB hM1 hbound K hx hl hi hN ((N.neighbors.zip N.biases).take N.smaller)
        (List.take_sublist _ _)
      obtain ⟨t1, t2⟩ := f2 terms et
      have hg : x[m]? = some (x.getD m 0) := by
        simp [List.getD_eq_getElem?_getD, hl, hi]
      have wx := whole_getD (by omega : 0 ≤ M) hx m
      have hT : b.linear m * x.getD m 0 + b.square m * (x.getD m 0 * x.getD m 0) +
          ∑ j ∈ Finset.range m, (b.pair m j).getD 0 * (x.getD m 0 * x.getD j 0) =
          x.getD m 0 * (b.linear m + b.square m * x.getD m 0 + terms.sum) := by
        rw [es, mul_add, Finset.mul_sum]
        have : ∀ j ∈ Finset.range m, x.getD m 0 * (x.getD j 0 * (b.pair m j).getD 0) =
            (b.pair m j).getD 0 * (x.getD m 0 * x.getD j 0) := fun j _ => by ring
        rw [Finset.sum_congr rfl this]
        ring
      rw [hT] at hterm hsumE ⊢
      have hstep : flValueStep fl ext q x acc m = .ok (acc + x.getD m 0 * (b.linear m + b.square m * x.getD m 0 + terms.sum)) := by
        simp only [flValueStep, hg, hq.linear m hi, hq.square m hi, hN, f1, et, Res.ok_bind]
        by_cases c : x.getD m 0 = 0
        · rw [if_pos c, c]; simp
        · rw [if_neg c]
          have w1 := (hB.square m).mul wx
          have w2 := (hB.linear m).add w1
          have hBM' : B + B * M ≤ 2 ^ 53 := by
            have : (0 : Int) ≤ q.n := by omega
            nlinarith
          have g1 : fl (b.square m * x.getD m 0) = b.square m * x.getD m 0 := K.eq w1 (by omega)
          have g2 : fl (b.linear m + b.square m * x.getD m 0) = b.linear m + b.square m * x.getD m 0 := K.eq w2 hBM'
          have g3 : terms.foldl (flAdd ext) (b.linear m + b.square m * x.getD m 0) =
              b.linear m + b.square m * x.getD m 0 + terms.sum :=
            (combines_foldl (flAdd ext) terms _).whole E w2 t2 t1 hBM (by linarith)
          rw [show flMul fl (b.square m) (x.getD m 0) = _ from g1, show flAdd fl _ _ = _ from g2, g3, flMul, E.eq hterm c5, flAdd, hsumE]
      rw [hstep]
      rfl
  have hv := K.eq (whole_value (q := q) hB hM1 hx) c3
  simp only [flComputeValue, guardUB_true hl, Res.ok_bind, key q.n (le_refl _)]
  rw [← value_as_terms b q.n (fun i => x.getD i 0), hv]

/-- The state without compensation. -/
def FlQState.plain (s : QState) : FlQState := ⟨⟨s.valueOld, 0⟩, ⟨s.value, 0⟩, s.previous, s.changes⟩

include hq in
theorem flQuadraticStep_eq {fl ext : Rat → Rat} (K : KeepsWhole fl) (E : KeepsWhole ext) (hs : ∀ u v, b.pair u v = b.pair v u)
    (hd : ∀ u, b.pair u u = none) (hB1 : 1 ≤ B) {com tgt : List Rat} (hc : com.length = q.n) (ht : tgt.length = q.n)
    (htw : ∀ v ∈ tgt, Whole M v) (hcw : ∀ v ∈ com, Whole M v)
    {done : List Nat} {s : QState} (hl : QLoop q b com tgt done s) {u : Update Rat} (hu : u.index < q.n) :
    ∃ s', quadraticStep q tgt s u = .ok s' ∧ flQuadraticStep fl ext q tgt (.plain s) u = .ok (.plain s') ∧
      QLoop q b com tgt (u.index :: done) s' := by
  obtain ⟨hB0, c0, c1, c2, c3, c4, c5, c6⟩ := quadratic_bounds (q := q) hB hM1 hbound
  have c6 := c6 (by omega)
  have prevw : ∀ {done s}, QLoop q b com tgt done s → ∀ v ∈ s.previous, Whole M v := by
    intro done s hl v hv
    obtain ⟨i, hi⟩ := List.mem_iff_getElem?.1 hv
    rcases hl.either i with e | e
    · exact hcw v (List.mem_of_getElem? (e ▸ hi))
    · exact htw v (List.mem_of_getElem? (e ▸ hi))
  obtain ⟨s', e1, l1⟩ := hl.step hq hs hd hc ht hu
  refine ⟨s', e1, ?_, l1⟩
  have hpw := prevw hl
  have g1 : tgt[u.index]? = some (tgt.getD u.index 0) := by simp [List.getD_eq_getElem?_getD, ht, hu]
  have g2 : s.previous[u.index]? = some (s.previous.getD u.index 0) := by
    simp [List.getD_eq_getElem?_getD, hl.length, hu]
  have hsq : q.getQuadratic u.index u.index = .ok (b.square u.index) := by
    simp only [QModel.getQuadratic, guardUB_true (show u.index < q.n ∧ u.index < q.n from ⟨hu, hu⟩),
      Res.ok_bind, if_true, hq.square _ hu]
  obtain ⟨k1, k2⟩ := flEffective_eq hq hB hM1 hbound K E hpw hl.length hu
  have k3 := hq.effective hl.length hu
  have wl := k2 _ k3
  simp only [quadraticStep, g1, g2, hsq, Res.ok_bind, k3] at e1
  simp only [flQuadraticStep, FlQState.plain, g1, g2, hsq, Res.ok_bind, k1, k3]
  have wn := whole_getD (by omega : 0 ≤ M) htw u.index
  have wo := whole_getD (by omega : 0 ≤ M) hpw u.index
  have wold := whole_value (q := q) hB hM1 hpw
  have wnew := whole_value (q := q) hB hM1 (prevw l1)
  rw [← hl.value] at wold
  rw [← l1.value] at wnew
  generalize tgt.getD u.index 0 = neo at *
  generalize s.previous.getD u.index 0 = old at *
  generalize b.linear u.index + ∑ w ∈ Finset.range q.n, s.previous.getD w 0 * (b.pair u.index w).getD 0 = lin at *
  split_ifs at e1 ⊢ with c
  · have := Res.ok.inj e1
    subst this
    dsimp only at wnew
    have hBM : 0 ≤ B * M := by omega
    have hn : (0 : Int) ≤ q.n := by omega
    have w1 := wn.add wo
    have w2 := (hB.square u.index).mul w1
    have w3 := w2.add wl
    have w4 := wn.sub wo
    have w5 := w4.mul w3
    have b5 : (M + M) * (B * (M + M) + (q.n + 1) * (B * M)) ≤ 2 ^ 53 := by
      have : (M + M) * (B * (M + M) + (q.n + 1) * (B * M)) = 2 * ((q.n : Int) + 3) * (B * M ^ 2) := by ring
      omega
    have b3 : B * (M + M) + (q.n + 1) * (B * M) ≤ 2 ^ 53 := by
      have : 0 ≤ B * (M + M) + (q.n + 1) * (B * M) := by positivity
      nlinarith
    have b2 : B * (M + M) ≤ 2 ^ 53 := by
      have : 0 ≤ ((q.n : Int) + 1) * (B * M) := by positivity
      linarith
    have b1 : M + M ≤ 2 ^ 53 := by
      have h1 : M * 1 ≤ M * B := mul_le_mul_of_nonneg_left hB1 (by omega)
      linarith
    have f1 : fl (neo + old) = neo + old := K.eq w1 b1
    have f2 : fl (b.square u.index * (neo + old)) = b.square u.index * (neo + old) := K.eq w2 b2
    have f3 : fl (b.square u.index * (neo + old) + lin) = b.square u.index * (neo + old) + lin := K.eq w3 b3
    have f4 : fl (neo - old) = neo - old := K.eq w4 b1
    have f5 : fl ((neo - old) * (b.square u.index * (neo + old) + lin)) = (neo - old) * (b.square u.index * (neo + old) + lin) :=
      K.eq w5 b5
    have f6 := K.eq wnew c3
    have f0 : fl 0 = 0 := K.eq (whole_zero (le_refl 0)) (by norm_num)
    simp only [flAdd, flMul, flSub, Kahan.add, f1, f2, f3, f4, f5, f6, sub_zero, add_sub_cancel_left, sub_self, f0]
  · have := Res.ok.inj e1
    subst this
    rfl

end

/-- As long as biases and values are whole numbers (of magnitudes at most `B` and `M`) and `(n + 2)² B M²` does not exceed 2^53, the value
of a quadratic model with `n` variables is exact in the arithmetic of doubles, after every history; `ext` is the rounding to
`long double`, which may be that to double or better. -/
theorem C67_quadratic {fl ext : Rat → Rat} (R : Rounding fl) (E : KeepsWhole ext) (n : Nat) (ops : List BiasOp)
    (ho : ∀ op ∈ ops, op.inRange n) {B M : Int} (hB : WholeBiases B (biasesOf ops)) (hB1 : 1 ≤ B) (hM1 : 1 ≤ M)
    (hbound : ((n : Int) + 2) ^ 2 * (B * M ^ 2) ≤ 2 ^ 53) :
    ∃ q, QModel.build n ops = .ok q ∧
      IncrementalWithin (WholeRel n M) ArrRel []
        (flQuadraticNode fl ext q (fun x => (biasesOf ops).value n (fun i => x.getD i 0)))
        (fun xs => ⟨[], [(biasesOf ops).value n (fun i => (xs.headD ⟨[], []⟩).data.getD i 0)]⟩)
        (fun xs => ∃ x : Arr Rat, xs = [x] ∧ x.shape = [(n : Int)] ∧ x.WF ∧ WholeArr n M x) := by
  obtain ⟨q, e, rfl, h⟩ := build_inv n ho
  refine ⟨q, e, ?_⟩
  have K := R.keepsWhole
  have shp : ∀ {z : Arr Rat}, z.shape = [(q.n : Int)] → z.WF → z.data.length = q.n ∧ z.dynamic = false := by
    intro z hsh hw
    refine ⟨?_, by simp [Arr.dynamic, hsh, dynamicShape]⟩
    simp only [Arr.WF, Arr.dynamic, hsh, dynamicShape, show ¬ ((q.n : Int) < 0) by omega] at hw
    simpa using hw
  refine IncrementalWithin.imitate (N := flQuadraticNode fl ext q (fun x => (biasesOf ops).value q.n (fun i => x.getD i 0)))
    (quadraticContract h (biasesOf_symm ops) (biasesOf_diag ops)) FlQState.plain (fun xs h => ?_) (fun _ _ _ h => h.exact)
    (fun _ => rfl) (fun _ => rfl) (fun s c hc => ?_) (fun s c hc => ?_) ?_ ?_
  · obtain ⟨x, rfl, hs, hw, _⟩ := h
    exact ⟨x, rfl, by simp [quadraticShape, hs, guardThrow], hw⟩
  · have := Res.ok.inj hc
    subst this
    rfl
  · have := Res.ok.inj hc
    subst this
    rfl
  · rintro xs s ⟨x, rfl, hs, hw, hx⟩ hi
    obtain ⟨hl, _⟩ := shp hs hw
    simp only [h.computeValue hl, Res.ok_bind] at hi
    have := Res.ok.inj hi
    subst this
    simp only [flComputeValue_eq h hB hM1 hbound K E hx.whole hl, Res.ok_bind]
    rfl
  · rintro s xs ins ys s' hc ⟨x, rfl, hsx, hwx, hx⟩ ⟨y, rfl, hsy, hwy, hy⟩ hi hp
    obtain ⟨x', hx', rfl⟩ := hc
    cases hx'
    obtain ⟨d, y', rfl, hyy, hr⟩ := hi.one
    cases hyy
    obtain ⟨lx, dx⟩ := shp hsx hwx
    obtain ⟨ly, dy⟩ := shp hsy hwy
    obtain ⟨_, hin, _⟩ := replays_changes hr.exact.replays (hr.exact.fixed dx)
    have key : ∀ (d : List (Update Rat)) {done : List Nat} {s : QState}, QLoop q (biasesOf ops) x.data y.data done s →
        (∀ u ∈ d, u.index < q.n) → ∀ s', d.foldlM (quadraticStep q y.data) s = .ok s' →
        d.foldlM (flQuadraticStep fl ext q y.data) (.plain s) = .ok (.plain s') := by
      intro d
      induction d with
      | nil =>
        intro done s _ _ s' hs'
        have := Res.ok.inj hs'
        subst this
        rfl
      | cons u d ih =>
        intro done s hl hu s' hs'
        obtain ⟨s1, e1, e2, l1⟩ := flQuadraticStep_eq h hB hM1 hbound K E (biasesOf_symm ops) (biasesOf_diag ops) hB1 lx ly hy.whole
          hx.whole hl (hu u List.mem_cons_self)
        rw [List.foldlM_cons, e1] at hs'
        rw [List.foldlM_cons, e2]
        exact ih l1 (fun w hw => hu w (List.mem_cons_of_mem _ hw)) s' hs'
    have l0 : QLoop q (biasesOf ops) x.data y.data [] ⟨(biasesOf ops).value q.n (fun i => x.data.getD i 0),
        (biasesOf ops).value q.n (fun i => x.data.getD i 0), x.data, []⟩ :=
      ⟨lx, rfl, rfl, rfl, fun i => .inl rfl, by simp⟩
    dsimp only at hp ⊢
    by_cases c : d = []
    · subst c
      have := Res.ok.inj hp
      subst this
      rfl
    · rw [if_neg c] at hp ⊢
      exact key d l0 (fun u hu => by have := hin u hu; omega) s' hp

/-- A model that meets the hypotheses: `3 x₀ - x₁ + 5 x₀ x₁ + 2 x₁²` with values up to a million. -/
example : ∃ q, QModel.build 2 [.setLinear 0 3, .setLinear 1 (-1), .addQuadratic 0 1 5, .setQuadratic 1 1 2] = .ok q ∧
    IncrementalWithin (WholeRel 2 1000000) ArrRel [] (flQuadraticNode roundDouble roundDouble q (fun x =>
        (biasesOf [.setLinear 0 3, .setLinear 1 (-1), .addQuadratic 0 1 5, .setQuadratic 1 1 2]).value 2 (fun i => x.getD i 0)))
      (fun xs => ⟨[], [(biasesOf [.setLinear 0 3, .setLinear 1 (-1), .addQuadratic 0 1 5, .setQuadratic 1 1 2]).value 2
        (fun i => (xs.headD ⟨[], []⟩).data.getD i 0)]⟩)
      (fun xs => ∃ x : Arr Rat, xs = [x] ∧ x.shape = [((2 : Nat) : Int)] ∧ x.WF ∧ WholeArr 2 1000000 x) := by
  refine C67_quadratic roundDouble_rounding roundDouble_rounding.keepsWhole 2 _ (by decide) (B := 5) ⟨?_, ?_, ?_⟩
    (by norm_num) (by norm_num) (by norm_num)
  · intro v
    have e : (biasesOf [.setLinear 0 3, .setLinear 1 (-1), .addQuadratic 0 1 5, .setQuadratic 1 1 2]).linear v =
        if v = 1 then -1 else if v = 0 then 3 else 0 := by
      simp [biasesOf, BiasOp.apply, Biases.onLinear, Biases.onQuadratic, Biases.zero]
    rw [e]
    split_ifs
    · exact ⟨-1, by norm_num, by norm_num⟩
    · exact ⟨3, by norm_num, by norm_num⟩
    · exact ⟨0, by norm_num, by norm_num⟩
  · intro v
    have e : (biasesOf [.setLinear 0 3, .setLinear 1 (-1), .addQuadratic 0 1 5, .setQuadratic 1 1 2]).square v =
        if v = 1 then 2 else 0 := by
      simp [biasesOf, BiasOp.apply, Biases.onLinear, Biases.onQuadratic, Biases.zero]
    rw [e]
    split_ifs
    · exact ⟨2, by norm_num, by norm_num⟩
    · exact ⟨0, by norm_num, by norm_num⟩
  · intro u v c h
    simp [biasesOf, BiasOp.apply, Biases.onLinear, Biases.onQuadratic, Biases.zero] at h
    rw [← h.2]
    exact ⟨5, by norm_num, by norm_num⟩

/-- The model of `C67_quadratic_fails`: `x[0] + 2**55 * x[1]`. -/
def bigModel : QModel := ⟨2, [1, 2 ^ 55], [0, 0], [Neighborhood.empty, Neighborhood.empty]⟩

example : QModel.build 2 [.setLinear 0 1, .setLinear 1 (2 ^ 55)] = .ok bigModel := by rfl

/-- The second variable is set and unset. -/
def bigHistory : List (Round (Arr Rat) (List (Update Rat))) :=
  [⟨[(⟨[2], [1, 1]⟩, [⟨1, some 0, some 1⟩])], true⟩, ⟨[(⟨[2], [1, 0]⟩, [⟨1, some 1, some 0⟩])], true⟩]

/-- The property fails for large biases, compensated summation notwithstanding: with a penalty of 2^55 next to a bias of 1, setting and
unsetting the penalised variable leaves the value 0, where it was 1 before. -/
theorem C67_quadratic_fails {fl ext : Rat → Rat} (R : Rounding fl) (E : KeepsWhole ext) (f : List Rat → Rat) :
    let N := flQuadraticNode fl ext bigModel f
    Legal ArrRel (fun xs => ∃ x : Arr Rat, xs = [x] ∧ x.shape = [2] ∧ x.WF) [⟨[2], [1, 0]⟩] bigHistory [⟨[2], [1, 0]⟩] ∧
    ∃ s0 s, N.init [⟨[2], [1, 0]⟩] = .ok s0 ∧ N.view s0 = ⟨[], [1]⟩ ∧ bigHistory.foldlM N.round s0 = .ok s ∧ N.view s = ⟨[], [0]⟩ := by
  intro N
  have K := R.keepsWhole
  have h0 : fl 0 = 0 := K.eq (whole_zero (le_refl 0)) (by norm_num)
  have h1 : fl 1 = 1 := K.eq (M := 1) ⟨1, by norm_num, by norm_num⟩ (by norm_num)
  have hm1 : fl (-1) = -1 := K.eq (M := 1) ⟨-1, by norm_num, by norm_num⟩ (by norm_num)
  have g1 : ext 1 = 1 := E.eq (M := 1) ⟨1, by norm_num, by norm_num⟩ (by norm_num)
  have big : (2 : Rat) ^ 56 ≤ greatestDouble := by
    have : (2 : Rat) ^ 56 ≤ (2 ^ 53 - 1) * 2 ^ (10 : Nat) := by norm_num
    refine le_trans this ?_
    unfold greatestDouble
    refine mul_le_mul_of_nonneg_left ?_ (by norm_num)
    rw [← zpow_natCast]
    exact zpow_le_zpow_right₀ (by norm_num) (by norm_num)
  have b1 : fl (2 ^ 55) = 2 ^ 55 :=
    R.exact ⟨1, 55, by norm_num, by norm_num, by norm_num, by norm_num⟩ (le_trans (by norm_num [abs_of_pos]) big)
  have b2 : fl (-2 ^ 55) = -2 ^ 55 :=
    R.exact ⟨-1, 55, by norm_num, by norm_num, by norm_num, by norm_num⟩ (le_trans (by norm_num [abs_of_pos]) big)
  have b3 : fl (1 + 2 ^ 55) = 2 ^ 55 := by
    rw [R.eq_of_close (2 ^ 52) 3 (by norm_num) (by norm_num) (by norm_num) (by norm_num) (le_trans (by norm_num) big)
      (by rw [abs_lt]; norm_num)]
    norm_num
  have b4 : fl (2 ^ 55 - 1) = 2 ^ 55 := by
    rw [R.eq_of_near (2 ^ 53) 2 ⟨1, 55, by norm_num, by norm_num, by norm_num, by norm_num⟩ (by norm_num) (le_trans (by norm_num) big)
      (by rw [abs_lt]; norm_num)]
    norm_num
  have r1 : ArrRel (⟨[2], [1, 0]⟩ : Arr Rat) [⟨1, some 0, some 1⟩] ⟨[2], [1, 1]⟩ := by decide +kernel
  have r2 : ArrRel (⟨[2], [1, 1]⟩ : Arr Rat) [⟨1, some 1, some 0⟩] ⟨[2], [1, 0]⟩ := by decide +kernel
  refine ⟨.cons (.cons r1 .nil) ⟨_, rfl, by decide +kernel⟩ (.cons (.cons r2 .nil) ⟨_, rfl, by decide +kernel⟩ .nil),
    ⟨⟨1, 0⟩, ⟨1, 0⟩, [1, 0], []⟩, ⟨⟨0, 0⟩, ⟨0, 0⟩, [1, 0], []⟩, ?_, rfl, ?_, rfl⟩
  · have : flComputeValue fl ext bigModel [1, 0] = .ok 1 := by
      simp [flComputeValue, bigModel, guardUB, List.range_succ, flValueStep, Neighborhood.empty, flAdd, flMul, h0, h1, g1]
    simp only [N, this, Res.ok_bind]
  · have e1 : ∀ x, flEffective fl ext bigModel 1 [1, x] = .ok (2 ^ 55) := by
      intro x
      simp [flEffective, bigModel, guardUB, Neighborhood.empty, b1]
    have q1 : bigModel.getQuadratic 1 1 = .ok 0 := by decide +kernel
    have s1 : flQuadraticStep fl ext bigModel [1, 1] ⟨⟨1, 0⟩, ⟨1, 0⟩, [1, 0], []⟩ ⟨1, some 0, some 1⟩ =
        .ok ⟨⟨1, 0⟩, ⟨2 ^ 55, 0⟩, [1, 1], [(1, 0)]⟩ := by
      simp only [flQuadraticStep, List.getElem?_cons_succ, List.getElem?_cons_zero, ne_eq, one_ne_zero, not_false_eq_true, if_true,
        q1, e1, Res.ok_bind, flAdd, flSub, flMul, Kahan.add, sub_zero, add_zero, zero_mul, zero_add, one_mul, h0, h1, b1, b3, b4,
        sub_self, List.set_cons_succ, List.set_cons_zero, List.nil_append]
    have s2 : flQuadraticStep fl ext bigModel [1, 0] ⟨⟨2 ^ 55, 0⟩, ⟨2 ^ 55, 0⟩, [1, 1], []⟩ ⟨1, some 1, some 0⟩ =
        .ok ⟨⟨2 ^ 55, 0⟩, ⟨0, 0⟩, [1, 0], [(1, 1)]⟩ := by
      simp only [flQuadraticStep, List.getElem?_cons_succ, List.getElem?_cons_zero, ne_eq, zero_ne_one, not_false_eq_true, if_true,
        q1, e1, Res.ok_bind, flAdd, flSub, flMul, Kahan.add, sub_zero, zero_sub, zero_mul, zero_add, neg_mul, one_mul, h0, h1, hm1, b1, b2,
        add_neg_cancel, sub_self, List.set_cons_succ, List.set_cons_zero, List.nil_append]
    have t1 : N.round ⟨⟨1, 0⟩, ⟨1, 0⟩, [1, 0], []⟩ ⟨[(⟨[2], [1, 1]⟩, [⟨1, some 0, some 1⟩])], true⟩ =
        .ok ⟨⟨2 ^ 55, 0⟩, ⟨2 ^ 55, 0⟩, [1, 1], []⟩ := by
      simp only [N, NodeSem.round, List.foldlM_cons, List.foldlM_nil, s1, Res.ok_bind]
      rfl
    have t2 : N.round ⟨⟨2 ^ 55, 0⟩, ⟨2 ^ 55, 0⟩, [1, 1], []⟩ ⟨[(⟨[2], [1, 0]⟩, [⟨1, some 1, some 0⟩])], true⟩ =
        .ok ⟨⟨0, 0⟩, ⟨0, 0⟩, [1, 0], []⟩ := by
      simp only [N, NodeSem.round, List.foldlM_cons, List.foldlM_nil, s2, Res.ok_bind]
      rfl
    rw [bigHistory, List.foldlM_cons, t1, Res.ok_bind, List.foldlM_cons, t2]
    rfl

end Verif
