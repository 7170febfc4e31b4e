import Verif.Props.DriftNary
import Verif.Props.DriftProduct

/-!
# C68, element-wise products of several arrays
-/

namespace Verif

open ArrayState

theorem prod_zero_mem {l : List Rat} (h : 0 ∈ l) : l.prod = 0 := by
  obtain ⟨a, b, rfl⟩ := List.append_of_mem h
  simp

/-- A product of moderate numbers that is not zero. -/
theorem prod_moderate {B : Rat} (hB : 1 ≤ B) {k : Nat} {l : List Rat} (hl : l.length ≤ k) (hw : ∀ v ∈ l, Moderate B v)
    (h : l.prod ≠ 0) : 1 / B ^ k ≤ |l.prod| ∧ |l.prod| ≤ B ^ k := by
  have := summary_moderate (I := 1) (init := 1) hB one_pos (by norm_num) hl hw
  rw [one_mul, one_mul, nzProd_eq (fun hm => h (prod_zero_mem hm))] at this
  exact this

theorem Close.zero {g p : Rat} (h : Close g p 0) : p = 0 := by
  unfold Close at h
  rw [sub_zero, abs_zero, mul_zero] at h
  exact abs_eq_zero.1 (le_antisymm h (abs_nonneg _))

theorem Close.of_zero (g : Rat) : Close g 0 0 := by simp [Close]

section

variable {fl : Rat → Rat} (h0 : fl 0 = 0) {B C : Rat} (hB : 1 ≤ B) {k limit : Nat} (hC : B ^ k ≤ C)
  (rnd : ∀ {g q Q D : Rat}, Close g q Q → g ≤ 3 / 2 → 0 < D → D ≤ C → 1 / D ≤ |Q| → |Q| ≤ D → Close (g * (1 + 1 / 2 ^ 53)) (fl q) Q)
  (hlim : ∀ j, j ≤ k + 2 * limit → grow j ≤ 3 / 2)

include h0 hB hC rnd in
/-- One rounded multiplication or division. -/
theorem prod_drift_times {g p t : Rat} {l m : List Rat} (hg1 : 1 ≤ g) (hg : g ≤ 3 / 2) (hm : m.length ≤ k) (hw : ∀ v ∈ m, Moderate B v)
    (hc : Close g p l.prod) (e : l.prod * t = m.prod) : Close (g * (1 + 1 / 2 ^ 53)) (fl (p * t)) m.prod := by
  have h1 := hc.mul hg1 (Close.refl (le_refl 1) t)
  rw [mul_one, e] at h1
  by_cases hz : m.prod = 0
  · rw [hz] at h1 ⊢
    rw [h1.zero, h0]
    exact Close.of_zero _
  · obtain ⟨b1, b2⟩ := prod_moderate hB hm hw hz
    exact rnd h1 hg (pow_pos (by linarith) _) hC b1 b2

include h0 hB hC rnd in
/-- One change: the old factor is divided out and the new one multiplied. -/
theorem prod_drift_step {g c o v : Rat} {pre post : List Rat} (hg1 : 1 ≤ g) (hg : g * (1 + 1 / 2 ^ 53) ≤ 3 / 2)
    (hl : (pre ++ post).length + 1 ≤ k) (hw : ∀ x ∈ pre ++ post, Moderate B x) (hv : Moderate B v) (ho : o ≠ 0)
    (hc : Close g c (pre ++ o :: post).prod) :
    Close (g * (1 + 1 / 2 ^ 53) * (1 + 1 / 2 ^ 53)) (fl (fl (c / o) * v)) (pre ++ v :: post).prod := by
  have hgg : g ≤ g * (1 + 1 / 2 ^ 53) := le_mul_of_one_le_right (by linarith) (by norm_num)
  have e1 : (pre ++ o :: post).prod * o⁻¹ = (pre ++ post).prod := by
    simp only [List.prod_append, List.prod_cons]
    field_simp
  have e2 : (pre ++ post).prod * v = (pre ++ v :: post).prod := by
    simp only [List.prod_append, List.prod_cons]
    ring
  have h1 := prod_drift_times h0 hB hC rnd hg1 (by linarith) (by omega) hw hc e1
  rw [← div_eq_mul_inv] at h1
  refine prod_drift_times h0 hB hC rnd (by linarith) hg (by simp at hl ⊢; omega) ?_ h1 e2
  intro x hx
  simp only [List.mem_append, List.mem_cons] at hx hw
  rcases hx with hx | rfl | hx
  · exact hw x (Or.inl hx)
  · exact hv
  · exact hw x (Or.inr hx)

include h0 hB hC rnd hlim in
/-- The product calculated anew. -/
theorem prod_drift_fold (l : List Rat) : ∀ (pre : List Rat) (p : Rat), pre ≠ [] → (∀ z ∈ pre ++ l, Moderate B z) → (pre ++ l).length ≤ k →
    Close (grow pre.length) p pre.prod →
    Close (grow (pre ++ l).length) (l.foldl (fun val y => flMul fl y val) p) (pre ++ l).prod := by
  induction l with
  | nil => intro pre p _ _ _ hc; simpa using hc
  | cons z l ih =>
    intro pre p hne hw hl hc
    have h1 := prod_drift_times h0 hB hC rnd (t := z) (m := pre ++ [z]) (one_le_grow _) (hlim _ (by simp at hl; omega))
      (by simp at hl ⊢; omega) (fun v hv => hw v (by simp only [List.mem_append, List.mem_cons] at hv ⊢; tauto)) hc (by simp)
    rw [← grow_succ] at h1
    have := ih (pre ++ [z]) (flMul fl z p) (by simp) (by simpa using hw) (by simpa using hl) (by
      rw [List.length_append, List.length_singleton]
      rw [mul_comm p z] at h1
      exact h1)
    simpa using this

/-- What holds in the loops over the diffs: positions to be recomputed hold zero, the others are nearly right. -/
structure ProdMid (k n j : Nat) (fixed : Bool) (com : List Rat) (zs : List (Arr Rat)) (st : ArrayState Rat × List Nat) (l : List Rat) : Prop where
  rep : RepA fixed st.1 com l
  length : l.length = n
  stale : ∀ i ∈ st.2, l[i]? = some 0
  close : ∀ i v, i ∉ st.2 → l[i]? = some v → Close (grow (k + 2 * j)) v (column i zs).prod

include h0 hB hC rnd hlim in
/-- One operand's changes. -/
theorem prod_drift_operand {fixed : Bool} {com : List Rat} {n : Nat} (pre post : List (Arr Rat)) (shape : List Int) (d : List (Update Rat))
    {b : List Rat} (hpl : ∀ y ∈ pre ++ post, y.data.length = n) (hpw : ∀ y ∈ pre ++ post, ∀ v ∈ y.data, IsDouble v ∧ Moderate B v)
    (hk : (pre ++ post).length + 1 ≤ k) :
    ∀ {j : Nat} {a l : List Rat} {st : ArrayState Rat × List Nat}, ProdMid k n j fixed com (pre ++ ⟨shape, a⟩ :: post) st l → a.length = n →
      (∀ v ∈ a, IsDouble v ∧ Moderate B v) → Replays a d b → (∀ u ∈ d, u.isChange = true) →
      (∀ u ∈ d, ∀ w, u.value = some w → IsDouble w ∧ Moderate B w) → j + d.length ≤ limit →
      ∃ st1 l1, d.foldlM (naryInverse (flMul fl) (flTimesInv fl)) st = .ok st1 ∧
        ProdMid k n (j + d.length) fixed com (pre ++ ⟨shape, b⟩ :: post) st1 l1 := by
  induction d with
  | nil =>
    intro j a l st h _ _ hr _ _ _
    simp only [replays_nil] at hr
    subst hr
    exact ⟨st, l, rfl, h⟩
  | cons u d ih =>
    intro j a l st h hal haw hr hch hv hj
    rw [List.length_cons] at hj
    obtain ⟨m, hm, hr'⟩ := replays_cons.1 hr
    rcases step_cases hm with ⟨w, rfl, rfl⟩ | ⟨w, rfl, rfl⟩ | ⟨o, w, ho, hu, rfl⟩
    · have := hch _ List.mem_cons_self
      simp [Update.isChange] at this
    · have := hch _ List.mem_cons_self
      simp [Update.isChange] at this
    have hi : u.index < n := by
      by_contra hn
      rw [List.getElem?_eq_none (by omega)] at ho; cases ho
    have huo : u.old = some o := by rw [hu]
    have huv : u.value = some w := by rw [hu]
    obtain ⟨do', mo⟩ := haw o (List.mem_of_getElem? ho)
    obtain ⟨dw, mw⟩ := hv u List.mem_cons_self w huv
    have hll := h.length
    have hpl' : u.index < l.length := by omega
    have hget : l[u.index]? = some l[u.index] := List.getElem?_eq_getElem hpl'
    have hcol := mem_column hi hpl hpw
    rw [column_append] at hcol
    have c1 : ∀ (i : Nat) (x : Rat), a[i]? = some x → column i (pre ++ ⟨shape, a⟩ :: post) = column i pre ++ x :: column i post := by
      intro i x hx
      have : a.getD i default = x := by simp [List.getD_eq_getElem?_getD, hx]
      simp only [column, List.map_append, List.map_cons, this]
    have c2 : column u.index (pre ++ ⟨shape, a.set u.index w⟩ :: post) = column u.index pre ++ w :: column u.index post := by
      simp [column, List.getD_eq_getElem?_getD, hal, hi]
    have c3 : ∀ i, i ≠ u.index → column i (pre ++ ⟨shape, a.set u.index w⟩ :: post) = column i (pre ++ ⟨shape, a⟩ :: post) := by
      intro i hne
      simp only [column, List.map_append, List.map_cons, List.getD_eq_getElem?_getD, List.getElem?_set_ne (Ne.symm hne)]
    have gm : grow (k + 2 * j) ≤ grow (k + 2 * (j + 1)) := grow_mono (by omega)
    -- what one update does
    have hone : ∃ st1 l1, naryInverse (flMul fl) (flTimesInv fl) st u = .ok st1 ∧
        ProdMid k n (j + 1) fixed com (pre ++ ⟨shape, a.set u.index w⟩ :: post) st1 l1 := by
      by_cases hoz : o = 0
      · refine ⟨(st.1, st.2 ++ [u.index]), l, ?_, h.rep, hll, ?_, ?_⟩
        · simp only [naryInverse, h.rep.rep.buf, hget, huo, huv, flTimesInv, hoz, if_true]
        · intro i hmem
          rcases List.mem_append.1 hmem with hmem | hmem
          · exact h.stale i hmem
          · rw [List.mem_singleton.1 hmem]
            by_cases hst : u.index ∈ st.2
            · exact h.stale _ hst
            · have := h.close u.index _ hst hget
              rw [c1 _ _ ho, hoz] at this
              have e : (column u.index pre ++ 0 :: column u.index post).prod = 0 := by simp
              rw [e] at this
              rw [hget, this.zero]
        · intro i v hni hv'
          rw [List.mem_append, List.mem_singleton, not_or] at hni
          rw [c3 i hni.2]
          exact (h.close i v hni.1 hv').mono gm
      · obtain ⟨s1, e1, h1⟩ := h.rep.write' hpl' (fl (fl (l[u.index] / o) * w))
        refine ⟨(s1, st.2), _, ?_, h1, by simpa using hll, ?_, ?_⟩
        · simp only [naryInverse, h.rep.rep.buf, hget, huo, huv, flTimesInv, if_neg hoz, flMul, flDiv, e1, Res.ok_bind]
        · intro i hmem
          by_cases hiu : i = u.index
          · subst hiu
            have hz := h.stale _ hmem
            rw [hget, Option.some.injEq] at hz
            rw [List.getElem?_set_self hpl', hz, zero_div, h0, zero_mul, h0]
          · rw [List.getElem?_set_ne (Ne.symm hiu)]
            exact h.stale i hmem
        · intro i v hni hv'
          by_cases hiu : i = u.index
          · subst hiu
            rw [List.getElem?_set_self hpl', Option.some.injEq] at hv'
            subst hv'
            have hcl := h.close u.index _ hni hget
            rw [c1 _ _ ho] at hcl
            rw [c2, show k + 2 * (j + 1) = k + 2 * j + 1 + 1 by omega, grow_succ, grow_succ]
            exact prod_drift_step h0 hB hC rnd (one_le_grow _) (by rw [← grow_succ]; exact hlim _ (by omega))
              (by simpa [column] using hk) (fun x hx => (hcol x hx).2) mw hoz hcl
          · rw [List.getElem?_set_ne (Ne.symm hiu)] at hv'
            rw [c3 i hiu]
            exact (h.close i v hni hv').mono gm
    obtain ⟨st1, l1, e1, h1⟩ := hone
    obtain ⟨st2, l2, e3, h2⟩ := ih h1 (by simpa using hal) (by
      intro v hv'
      rcases List.mem_or_eq_of_mem_set hv' with hv' | rfl
      · exact haw v hv'
      · exact ⟨dw, mw⟩) hr' (fun v hv' => hch v (List.mem_cons_of_mem _ hv')) (fun v hv' => hv v (List.mem_cons_of_mem _ hv')) (by omega)
    refine ⟨st2, l2, by rw [List.foldlM_cons, e1]; exact e3, ?_⟩
    rw [List.length_cons, show j + (d.length + 1) = j + 1 + d.length by omega]
    exact h2

include h0 hB hC rnd hlim in
/-- All operands' changes. -/
theorem prod_drift_operands {fixed : Bool} {com : List Rat} {n size : Nat} {shape : List Int} (hd : dynamicShape shape = false)
    {xs ins ys} (hi : Ins (DoubleRel size (Moderate B)) xs ins ys) :
    ∀ (pre : List (Arr Rat)) {j : Nat} {l : List Rat} {st : ArrayState Rat × List Nat},
      (∀ x ∈ xs, x.shape = shape) → (∀ y ∈ ys, ∀ v ∈ y.data, IsDouble v ∧ Moderate B v) → (∀ y ∈ pre ++ xs, y.data.length = n) →
      (∀ y ∈ pre ++ xs, ∀ v ∈ y.data, IsDouble v ∧ Moderate B v) → (pre ++ xs).length ≤ k → j + changesIn ins ≤ limit →
      ProdMid k n j fixed com (pre ++ xs) st l →
      ∃ st1 l1, ins.foldlM (fun st x => x.2.foldlM (naryInverse (flMul fl) (flTimesInv fl)) st) st = .ok st1 ∧
        ProdMid k n (j + changesIn ins) fixed com (pre ++ ys) st1 l1 := by
  induction hi with
  | nil =>
    intro pre j l st _ _ _ _ _ _ h
    exact ⟨st, l, rfl, by simpa [changesIn] using h⟩
  | cons hr _ ih =>
    rename_i x d y xs ins ys _
    intro pre j l st hx hyw hl hw hk hj h
    have hcd : changesIn ((y, d) :: ins) = d.length + changesIn ins := by simp [changesIn]
    rw [hcd] at hj ⊢
    have hsx := hx x List.mem_cons_self
    have hsy : y.shape = shape := by rw [← hr.exact.shape, hsx]
    have hfix := hr.exact.fixed (by rw [Arr.dynamic, hsx, hd])
    have sub : ∀ {P : Arr Rat → Prop}, (∀ z ∈ pre ++ x :: xs, P z) → P x ∧ ∀ z ∈ pre ++ xs, P z := by
      intro P h
      simp only [List.mem_append, List.mem_cons] at h ⊢
      exact ⟨h x (by simp), fun z hz => h z (by tauto)⟩
    obtain ⟨c1, _⟩ := replays_changes hr.exact.replays hfix
    have ex : (⟨shape, x.data⟩ : Arr Rat) = x := by rw [← hsx]
    have ey : (⟨shape, y.data⟩ : Arr Rat) = y := by rw [← hsy]
    obtain ⟨s1, l1, e1, h1⟩ := prod_drift_operand h0 hB hC rnd hlim pre xs shape d (b := y.data) (sub hl).2 (sub hw).2
      (by simp at hk ⊢; omega) (j := j) (a := x.data) (by rw [ex]; exact h) (sub hl).1 (sub hw).1 hr.exact.replays hfix hr.new
      (by omega)
    rw [ey] at h1
    have put : ∀ {P : Arr Rat → Prop}, P y → (∀ z ∈ pre ++ xs, P z) → ∀ z ∈ (pre ++ [y]) ++ xs, P z := by
      intro P h1 h2 z hz
      simp only [List.mem_append, List.mem_singleton] at hz h2
      rcases hz with (hz | rfl) | hz
      · exact h2 z (Or.inl hz)
      · exact h1
      · exact h2 z (Or.inr hz)
    obtain ⟨s2, l2, e2, h2⟩ := ih (pre ++ [y]) (j := j + d.length) (fun z hz => hx z (List.mem_cons_of_mem _ hz))
      (fun z hz => hyw z (List.mem_cons_of_mem _ hz)) (put (by have := (sub hl).1; omega) (sub hl).2)
      (put (hyw y List.mem_cons_self) (sub hw).2) (by simp at hk ⊢; omega) (by omega) (by simpa using h1)
    refine ⟨s2, l2, by rw [List.foldlM_cons, e1]; exact e2, ?_⟩
    rw [Nat.add_assoc] at h2
    simpa using h2

include h0 hB hC rnd hlim in
/-- One position calculated anew. -/
theorem prod_drift_fresh {n i : Nat} (hi : i < n) {xs : List (Arr Rat)} (hne : xs ≠ []) (hk : xs.length ≤ k) (hl : ∀ x ∈ xs, x.data.length = n)
    (hw : ∀ x ∈ xs, ∀ v ∈ x.data, IsDouble v ∧ Moderate B v) :
    ∃ v, naryFold (flMul fl) i xs = .ok v ∧ Close (grow k) v (column i xs).prod := by
  cases xs with
  | nil => exact absurd rfl hne
  | cons x rest =>
    refine ⟨_, naryFold_ok _ hl hi, ?_⟩
    have hcol := mem_column hi hl hw
    have ec : column i (x :: rest) = [x.data.getD i default] ++ column i rest := rfl
    rw [ec] at hcol ⊢
    have hkl : ([x.data.getD i default] ++ column i rest).length ≤ k := by simpa [column] using hk
    have := prod_drift_fold h0 hB hC rnd hlim (column i rest) [x.data.getD i default] (x.data.getD i default) (by simp)
      (fun z hz => (hcol z hz).2) hkl (by rw [List.prod_singleton]; exact Close.refl (one_le_grow _) _)
    have e : (column i rest).foldl (fun val y => flMul fl y val) (x.data.getD i default) =
        rest.foldl (fun val y => flMul fl (y.data.getD i default) val) (x.data.getD i default) := by
      rw [column, List.foldl_map]
    rw [e] at this
    exact this.mono (grow_mono hkl)

include h0 hB hC rnd hlim in
/-- The positions that have been put aside are recomputed. -/
theorem prod_drift_recompute {fixed : Bool} {com : List Rat} {n j : Nat} {ys : List (Arr Rat)} (hne : ys ≠ []) (hk : ys.length ≤ k)
    (hl : ∀ x ∈ ys, x.data.length = n) (hw : ∀ x ∈ ys, ∀ v ∈ x.data, IsDouble v ∧ Moderate B v) (re : List Nat) :
    ∀ {s : ArrayState Rat} {l : List Rat}, RepA fixed s com l → l.length = n → (∀ i ∈ re, i < n) →
      (∀ i v, i ∉ re → l[i]? = some v → Close (grow (k + 2 * j)) v (column i ys).prod) →
      ∃ s1 l1, re.foldlM (naryRecompute (flMul fl) ys) s = .ok s1 ∧ RepA fixed s1 com l1 ∧ l1.length = n ∧
        ∀ i v, l1[i]? = some v → Close (grow (k + 2 * j)) v (column i ys).prod := by
  induction re with
  | nil => intro s l h hll _ hc; exact ⟨s, l, rfl, h, hll, fun i v => hc i v (by simp)⟩
  | cons i re ih =>
    intro s l h hll hre hc
    have hi := hre i List.mem_cons_self
    obtain ⟨v, e1, c1⟩ := prod_drift_fresh h0 hB hC rnd hlim hi hne hk hl hw
    obtain ⟨s1, e2, h1⟩ := h.set (i := i) (by omega) v
    obtain ⟨s2, l2, e3, r⟩ := ih h1 (by simpa using hll) (fun i hi => hre i (List.mem_cons_of_mem _ hi)) (by
      intro i' v' hni hv'
      by_cases hii : i' = i
      · subst hii
        rw [List.getElem?_set_self (by omega), Option.some.injEq] at hv'
        subst hv'
        exact c1.mono (grow_mono (by omega))
      · rw [List.getElem?_set_ne (Ne.symm hii)] at hv'
        exact hc i' v' (by simp [hii, hni]) hv')
    refine ⟨s2, l2, ?_, r⟩
    rw [List.foldlM_cons, naryRecompute, e1, Res.ok_bind, e2]
    exact e3

end

theorem naryValue_prods {n i : Nat} (hi : i < n) {xs : List (Arr Rat)} (hne : xs ≠ []) (hl : ∀ x ∈ xs, x.data.length = n) :
    (naryValue (· * ·) xs)[i]? = some (column i xs).prod := by
  cases xs with
  | nil => exact absurd rfl hne
  | cons x rest =>
    rw [naryValue_get _ (hl x List.mem_cons_self) hi]
    congr 1
    have : ∀ (l : List Rat) (a : Rat), l.foldl (fun val y => y * val) a = a * l.prod := by
      intro l
      induction l with
      | nil => simp
      | cons z l ih => intro a; rw [List.foldl_cons, ih, List.prod_cons]; ring
    rw [this]
    simp [column]

/-- C68, element-wise products of several arrays.  Let the elements of at most `k` arrays of one fixed shape be zero or doubles of
magnitude between `1 / B` and `B`.  After every history in which `c` changes have been committed, every element of the product in the
arithmetic of doubles differs from the exact product by at most `(k + 2c) / 2^52` times the exact product; in particular it is zero if and
only if there is a zero among the factors.  Changes that are reverted leave no error. -/
theorem C68_nary_multiply {fl : Rat → Rat} (R : Rounding fl) {shape : List Int} (hd : dynamicShape shape = false) {B : Rat} (hB : 1 ≤ B)
    (size : Nat) {k limit : Nat} (hbig : B ^ k ≤ 2 ^ 1000) (hlim : k + 2 * limit ≤ 2 ^ 51) :
    DriftsEverywhere (DoubleRel size (Moderate B)) (naryNode (flMul fl) (some (flTimesInv fl)) shape)
      (fun xs => ⟨shape, naryValue (· * ·) xs⟩)
      (fun xs => xs ≠ [] ∧ xs.length ≤ k ∧ ∀ x ∈ xs, x.shape = shape ∧ x.WF ∧ ∀ v ∈ x.data, IsDouble v ∧ Moderate B v)
      (fun c w => (k + 2 * c) / 2 ^ 52 * |w|) limit := by
  -- the numbers are too large to be calculated with
  obtain ⟨C, hC, rnd⟩ : ∃ C : Rat, B ^ k ≤ C ∧ ∀ {g q Q D : Rat}, Close g q Q → g ≤ 3 / 2 → 0 < D → D ≤ C →
      1 / D ≤ |Q| → |Q| ≤ D → Close (g * (1 + 1 / 2 ^ 53)) (fl q) Q :=
    ⟨2 ^ 1000, hbig, fun h hg hD hD' hl hu => h.round R hg hD hD' hl hu⟩
  clear hbig
  have h0 : fl 0 = 0 := R.keepsWhole.eq (whole_zero (le_refl 0)) (by norm_num)
  have hg : ∀ j, j ≤ k + 2 * limit → grow j ≤ 3 / 2 := by
    intro j hj
    have h1 : grow j ≤ 1 + (j : Rat) / 2 ^ 52 := grow_le (le_trans (le_trans hj hlim) (by norm_num))
    have h2 : (j : Rat) ≤ 2 ^ 51 := by exact_mod_cast le_trans hj hlim
    have h3 : (j : Rat) / 2 ^ 52 ≤ 2 ^ 51 / 2 ^ 52 := div_le_div_of_nonneg_right h2 (by norm_num)
    have h4 : (2 : Rat) ^ 51 / 2 ^ 52 = 1 / 2 := by norm_num
    linarith
  refine arrayNode_drifts (fun j xs l => ∃ n : Nat, (n : Int) = shape.prod ∧ (∀ x ∈ xs, x.data.length = n) ∧ l.length = n ∧
    ∀ i v, l[i]? = some v → Close (grow (k + 2 * j)) v (column i xs).prod) ?_ ?_ ?_
  · rintro xs ⟨hne, hk, hx⟩
    obtain ⟨n, hp, hn⟩ := fixed_lengths hd (fun x hx' => ⟨(hx x hx').1, (hx x hx').2.1⟩) hne
    have each : ∀ i ∈ List.range n, ∃ v, naryFold (flMul fl) i xs = .ok v ∧ Close (grow k) v (column i xs).prod := fun i hi =>
      prod_drift_fresh h0 hB hC rnd hg (List.mem_range.1 hi) hne hk hn (fun x hx' => (hx x hx').2.2)
    choose! F hF using each
    refine ⟨(List.range n).map F, ?_, n, hp, hn, by simp, ?_⟩
    · cases xs with
      | nil => exact absurd rfl hne
      | cons x rest =>
        simp only [naryInit, hn x List.mem_cons_self]
        exact mapM_ok _ F _ (fun i hi => (hF i hi).1)
    · intro i v hv
      rw [List.getElem?_map] at hv
      obtain ⟨m, hm, rfl⟩ := Option.map_eq_some_iff.1 hv
      obtain ⟨hm1, hm2⟩ := List.getElem?_eq_some_iff.1 hm
      rw [List.getElem_range] at hm2
      subst hm2
      exact (hF i (List.mem_of_getElem? hm)).2
  · rintro j xs ins ys l ⟨hne, hk, hx⟩ ⟨hne', hk', hy⟩ hi hj ⟨n, hp, hn, hll, hc⟩
    obtain ⟨n', hp', hn'⟩ := fixed_lengths hd (fun x hx' => ⟨(hy x hx').1, (hy x hx').2.1⟩) hne'
    obtain rfl : n = n' := by omega
    obtain ⟨st, l1, e1, h1⟩ := prod_drift_operands h0 hB hC rnd hg (fixed := !dynamicShape shape) (com := l) (n := n) hd hi [] (j := j)
      (l := l) (st := (ArrayState.mk' l, []))
      (fun x hx' => (hx x hx').1) (fun x hx' => (hy x hx').2.2) (by simpa using hn) (by simpa using fun x hx' => (hx x hx').2.2)
      (by simpa using hk) hj ⟨RepA.mk'_ l, hll, by simp, fun i v _ => hc i v⟩
    have toArr : ∀ {xs ins ys}, Ins (DoubleRel size (Moderate B)) xs ins ys → Ins ArrRel xs ins ys := by
      intro xs ins ys h
      induction h with
      | nil => exact .nil
      | cons h _ ih => exact .cons h.exact ih
    obtain ⟨_, _, h3⟩ := ins_fixed hd (toArr hi) (fun x hx' => ⟨(hx x hx').1, (hx x hx').2.1⟩)
    obtain ⟨s2, l2, e2, h2, hl2, c2⟩ := prod_drift_recompute h0 hB hC rnd hg hne' hk' hn' (fun x hx' => (hy x hx').2.2) st.2 h1.rep h1.length
      (fun i hi' => by
        have := h1.stale i hi'
        by_contra hn''
        rw [List.getElem?_eq_none (by have := h1.length; omega)] at this; cases this) h1.close
    refine ⟨s2, l2, ?_, h2, n, hp, hn', hl2, c2⟩
    simp only [naryPropagate, e1, Res.ok_bind]
    rw [← h3]
    exact e2
  · rintro j xs l ⟨hne, hk, hx⟩ hj ⟨n, hp, hn, hll, hc⟩
    refine ⟨rfl, by rw [naryValue_length _ hne hn, hll], fun i v w hv hw => ?_⟩
    have hi : i < n := by
      by_contra hn'
      dsimp only at hv
      rw [List.getElem?_eq_none (by omega)] at hv; cases hv
    dsimp only at hw
    rw [naryValue_prods hi hne hn] at hw
    cases hw
    refine le_trans (hc i v hv) (mul_le_mul_of_nonneg_right ?_ (abs_nonneg _))
    have h1 : grow (k + 2 * j) ≤ 1 + ((k + 2 * j : Nat) : Rat) / 2 ^ 52 := grow_le (by
      have : (2 : Nat) ^ 51 ≤ 2 ^ 52 := by norm_num
      omega)
    have h2 : ((k + 2 * j : Nat) : Rat) / 2 ^ 52 = (k + 2 * j) / 2 ^ 52 := by push_cast; ring
    linarith

example : DriftsEverywhere (DoubleRel 2 (Moderate 16)) (naryNode (flMul roundDouble) (some (flTimesInv roundDouble)) [2])
    (fun xs => ⟨[2], naryValue (· * ·) xs⟩)
    (fun xs => xs ≠ [] ∧ xs.length ≤ 50 ∧ ∀ x ∈ xs, x.shape = [2] ∧ x.WF ∧ ∀ v ∈ x.data, IsDouble v ∧ Moderate 16 v)
    (fun c w => ((50 : Nat) + 2 * c) / 2 ^ 52 * |w|) (10 ^ 9) ∧
    (((50 : Nat) : Rat) + 2 * (10 ^ 9 : Nat)) / 2 ^ 52 < 1 / 10 ^ 6 :=
  ⟨C68_nary_multiply roundDouble_rounding (by decide) (by norm_num) 2
    (by rw [show (16 : Rat) = 2 ^ 4 by norm_num, ← pow_mul]; exact pow_le_pow_right₀ (by norm_num) (by norm_num)) (by norm_num),
    by norm_num⟩

end Verif
