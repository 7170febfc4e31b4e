import Verif.Spec.Archive
import Verif.Props.Quadratic
import Mathlib.Tactic.SplitIfs

set_option linter.unusedSectionVars false
set_option linter.unusedSimpArgs false
set_option linter.unusedVariables false

/-!
# Quadratic models are loaded with the biases they were saved with
-/

namespace Verif

open QModel

/-- Requests say nothing about variables that do not exist. -/
theorem biases_outside {n : Nat} (ops : List BiasOp) (ho : ∀ op ∈ ops, op.inRange n) : ∀ (b : Biases),
    (∀ w, n ≤ w → b.linear w = 0 ∧ b.square w = 0) → (∀ u w, n ≤ w → b.pair u w = none ∧ b.pair w u = none) →
    (∀ w, n ≤ w → (ops.foldl BiasOp.apply b).linear w = 0 ∧ (ops.foldl BiasOp.apply b).square w = 0) ∧
      ∀ u w, n ≤ w → (ops.foldl BiasOp.apply b).pair u w = none ∧ (ops.foldl BiasOp.apply b).pair w u = none := by
  induction ops with
  | nil => intro b h h'; exact ⟨h, h'⟩
  | cons op ops ih =>
    intro b h h'
    have hop := ho op List.mem_cons_self
    have hl : ∀ v f, v < n → ∀ w, n ≤ w → (b.onLinear v f).linear w = 0 ∧ (b.onLinear v f).square w = 0 := by
      intro v f hv w hw
      simp only [Biases.onLinear]
      rw [if_neg (by omega)]
      exact h w hw
    have hq : ∀ u v f, u < n → v < n →
        (∀ w, n ≤ w → (b.onQuadratic u v f).linear w = 0 ∧ (b.onQuadratic u v f).square w = 0) ∧
        ∀ x w, n ≤ w → (b.onQuadratic u v f).pair x w = none ∧ (b.onQuadratic u v f).pair w x = none := by
      intro u v f hu hv
      simp only [Biases.onQuadratic]
      split_ifs with c
      · refine ⟨fun w hw => ?_, h'⟩
        simp only
        rw [if_neg (by omega)]
        exact h w hw
      · refine ⟨h, fun x w hw => ?_⟩
        simp only
        rw [if_neg (by omega), if_neg (by omega)]
        exact h' x w hw
    have ih := ih fun o ho' => ho o (List.mem_cons_of_mem _ ho')
    cases op with
    | setLinear v c => exact ih (b.onLinear v fun _ => c) (hl v _ hop) h'
    | addLinear v c => exact ih (b.onLinear v fun a => a + c) (hl v _ hop) h'
    | setQuadratic u v c => exact ih _ (hq u v _ hop.1 hop.2).1 (hq u v _ hop.1 hop.2).2
    | addQuadratic u v c => exact ih _ (hq u v _ hop.1 hop.2).1 (hq u v _ hop.1 hop.2).2

/-- Adding one linear bias to each variable. -/
theorem fold_linear (f : Nat → Rat) (n : Nat) (b : Biases) :
    ((List.range n).map fun i => BiasOp.addLinear i (f i)).foldl BiasOp.apply b =
      ⟨fun w => b.linear w + if w < n then f w else 0, b.square, b.pair⟩ := by
  induction n with
  | zero => cases b; simp
  | succ n ih =>
    rw [List.range_succ, List.map_append, List.foldl_append, ih]
    simp only [List.map_cons, List.map_nil, List.foldl_cons, List.foldl_nil, BiasOp.apply, Biases.onLinear,
      Biases.mk.injEq, and_true]
    funext w
    by_cases c : w = n
    · subst c; simp
    · by_cases c2 : w < n
      · rw [if_neg c, if_pos c2, if_pos (by omega)]
      · rw [if_neg c, if_neg c2, if_neg (by omega)]

/-- Adding one square bias to each variable. -/
theorem fold_square (f : Nat → Rat) (n : Nat) (b : Biases) :
    ((List.range n).map fun i => BiasOp.addQuadratic i i (f i)).foldl BiasOp.apply b =
      ⟨b.linear, fun w => b.square w + if w < n then f w else 0, b.pair⟩ := by
  induction n with
  | zero => cases b; simp
  | succ n ih =>
    rw [List.range_succ, List.map_append, List.foldl_append, ih]
    simp only [List.map_cons, List.map_nil, List.foldl_cons, List.foldl_nil, BiasOp.apply, Biases.onQuadratic,
      if_true, Biases.mk.injEq, and_true, true_and]
    funext w
    by_cases c : w = n
    · subst c; simp
    · by_cases c2 : w < n
      · rw [if_neg c, if_pos c2, if_pos (by omega)]
      · rw [if_neg c, if_neg c2, if_neg (by omega)]

/-- An interaction added. -/
def Biases.withPair (b : Biases) (u v : Nat) (c : Rat) : Biases :=
  { b with
    pair := fun x y => if (x = u ∧ y = v) ∨ (x = v ∧ y = u) then some ((b.pair x y).getD 0 + c) else b.pair x y }

/-- Adding interactions of different pairs of variables. -/
theorem fold_pairs (ts : List (Nat × Nat × Rat)) : ∀ (b : Biases), (ts.map fun t => (t.1, t.2.1)).Nodup →
    (∀ t ∈ ts, t.1 < t.2.1) → (∀ t ∈ ts, b.pair t.1 t.2.1 = none) →
    ((ts.map fun t => BiasOp.addQuadratic t.1 t.2.1 t.2.2).foldl BiasOp.apply b).linear = b.linear ∧
    ((ts.map fun t => BiasOp.addQuadratic t.1 t.2.1 t.2.2).foldl BiasOp.apply b).square = b.square ∧
    ∀ x y, x < y → ((ts.map fun t => BiasOp.addQuadratic t.1 t.2.1 t.2.2).foldl BiasOp.apply b).pair x y =
      match ts.find? fun t => decide (t.1 = x ∧ t.2.1 = y) with
      | some t => some t.2.2
      | none => b.pair x y := by
  induction ts with
  | nil => intro b _ _ _; exact ⟨rfl, rfl, fun _ _ _ => rfl⟩
  | cons t ts ih =>
    intro b hnd hlt hnone
    obtain ⟨u, v, c⟩ := t
    have huv : u < v := hlt (u, v, c) (by simp)
    have hbn : b.pair u v = none := hnone (u, v, c) (by simp)
    have hnd2 := List.nodup_cons.1 hnd
    simp only [List.map_cons, List.foldl_cons, BiasOp.apply]
    have e : b.onQuadratic u v (fun a => a + c) = (b.withPair u v c) := by
      simp only [Biases.onQuadratic]
      rw [if_neg (by omega)]
      rfl
    rw [e]
    obtain ⟨h1, h2, h3⟩ := ih (b.withPair u v c) hnd2.2
      (fun t ht => hlt t (List.mem_cons_of_mem _ ht)) (by
        intro t ht
        have hne : (t.1, t.2.1) ≠ (u, v) := fun he => hnd2.1 (List.mem_map.2 ⟨t, ht, he⟩)
        have := hlt t (List.mem_cons_of_mem _ ht)
        have hne' : ¬ (t.1 = u ∧ t.2.1 = v) := fun ⟨h1, h2⟩ => hne (by rw [h1, h2])
        simp only [Biases.withPair]
        rw [if_neg (by omega)]
        exact hnone t (List.mem_cons_of_mem _ ht))
    refine ⟨h1, h2, fun x y hxy => ?_⟩
    rw [h3 x y hxy]
    by_cases hc : u = x ∧ v = y
    · obtain ⟨rfl, rfl⟩ := hc
      have : (ts.find? fun t => decide (t.1 = u ∧ t.2.1 = v)) = none := by
        rw [List.find?_eq_none]
        intro t ht hcon
        simp only [decide_eq_true_eq] at hcon
        exact hnd2.1 (List.mem_map.2 ⟨t, ht, by rw [hcon.1, hcon.2]⟩)
      rw [this]
      simp [hbn, Biases.withPair]
    · rw [List.find?_cons_of_neg (by simpa using hc)]
      simp only [Biases.withPair]
      rw [if_neg (by omega)]

namespace Kind

theorem qModel_spec {n : Nat} {ops : List BiasOp} (ho : ∀ op ∈ ops, op.inRange n) :
    (∀ i < n, (qModel n ops).linear.getD i 0 = (biasesOf ops).linear i) ∧
    (∀ i < n, (qModel n ops).square.getD i 0 = (biasesOf ops).square i) ∧
    ((exported (qModel n ops)).map fun t => (t.1, t.2.1)).Nodup ∧
    ∀ u v b, (u, v, b) ∈ exported (qModel n ops) ↔ u < v ∧ v < n ∧ (biasesOf ops).pair u v = some b := by
  obtain ⟨q, e, hn, h⟩ := build_inv n ho
  obtain ⟨q', ts, e1, e2, -, e3, e4⟩ := C34_export n ops ho
  rw [e] at e1
  obtain rfl : q = q' := by simpa using e1
  have hq : qModel n ops = q := by simp only [qModel, e]
  have hx : exported q = ts := by simp only [exported, e2]
  rw [hq, hx]
  refine ⟨fun i hi => ?_, fun i hi => ?_, e3, e4⟩
  · rw [List.getD_eq_getElem?_getD, h.linear i (by omega)]; rfl
  · rw [List.getD_eq_getElem?_getD, h.square i (by omega)]; rfl

theorem savedLinear_eq {n : Nat} {ops : List BiasOp} (ho : ∀ op ∈ ops, op.inRange n) :
    savedLinear n ops = (List.range n).map (biasesOf ops).linear := by
  unfold savedLinear
  refine List.map_congr_left fun i hi => (qModel_spec ho).1 i (List.mem_range.1 hi)

end Kind

open Kind Draft

/-- The requests made when a saved quadratic model is loaded give the same biases. -/
theorem loaded_biases {n : Nat} {ops : List BiasOp} (ho : ∀ op ∈ ops, op.inRange n) {binary : Bool}
    (hb : binary = true → ∀ i, (biasesOf ops).square i = 0) :
    biasesOf (loadedBiases binary (savedLinear n ops) (savedTerms n ops)) = biasesOf ops := by
  obtain ⟨h1, h2, h3, h4⟩ := qModel_spec ho
  obtain ⟨o1, o2⟩ := biases_outside ops ho Biases.zero (fun _ _ => ⟨rfl, rfl⟩) (fun _ _ _ => ⟨rfl, rfl⟩)
  have e1 : (savedLinear n ops).zipIdx.map (fun p => BiasOp.addLinear p.2 p.1) =
      (List.range n).map fun i => BiasOp.addLinear i ((biasesOf ops).linear i) := by
    rw [savedLinear_eq ho]
    refine List.ext_getElem? fun i => ?_
    by_cases hi : i < n
    · simp [List.getElem?_zipIdx, hi]
    · rw [List.getElem?_eq_none (by simp; omega), List.getElem?_eq_none (by simp; omega)]
  have hlt : ∀ t ∈ exported (qModel n ops), t.1 < t.2.1 := by
    rintro ⟨u, v, c⟩ ht
    exact ((h4 u v c).1 ht).1
  have e2 : (savedTerms n ops).map (fun t =>
        if binary = true ∧ t.1 = t.2.1 then BiasOp.addLinear t.1.toNat t.2.2
        else BiasOp.addQuadratic t.1.toNat t.2.1.toNat t.2.2) =
      ((List.range n).map fun i => if binary = true then BiasOp.addLinear i ((biasesOf ops).square i)
        else BiasOp.addQuadratic i i ((biasesOf ops).square i)) ++
      (exported (qModel n ops)).map fun t => BiasOp.addQuadratic t.1 t.2.1 t.2.2 := by
    unfold savedTerms
    rw [List.map_append]
    congr 1
    · rw [List.map_map]
      refine List.map_congr_left fun i hi => ?_
      simp only [Function.comp, Int.toNat_natCast, and_true, h2 i (List.mem_range.1 hi)]
    · rw [List.map_map]
      refine List.map_congr_left fun t ht => ?_
      have := hlt t ht
      simp only [Function.comp, Int.toNat_natCast]
      rw [if_neg (by omega)]
  have hsym := biasesOf_symm (loadedBiases binary (savedLinear n ops) (savedTerms n ops))
  have hdiag := biasesOf_diag (loadedBiases binary (savedLinear n ops) (savedTerms n ops))
  -- after the linear biases and the squares
  have hmid : (((List.range n).map fun i => if binary = true then BiasOp.addLinear i ((biasesOf ops).square i)
        else BiasOp.addQuadratic i i ((biasesOf ops).square i)).foldl BiasOp.apply
      (((List.range n).map fun i => BiasOp.addLinear i ((biasesOf ops).linear i)).foldl BiasOp.apply
        Biases.zero)) = ⟨(biasesOf ops).linear, (biasesOf ops).square, fun _ _ => none⟩ := by
    rw [fold_linear]
    cases binary with
    | true =>
      have hz : ∀ i, (biasesOf ops).square i = 0 := hb rfl
      simp only [if_true]
      rw [fold_linear]
      simp only [Biases.mk.injEq, Biases.zero]
      refine ⟨?_, ?_, trivial⟩
      · funext w
        by_cases c : w < n
        · simp [c, hz]
        · simp only [c, if_false, add_zero]
          exact ((o1 w (by omega)).1).symm
      · funext w; exact (hz w).symm
    | false =>
      simp only [Bool.false_eq_true, if_false]
      rw [fold_square]
      simp only [Biases.mk.injEq, Biases.zero]
      refine ⟨?_, ?_, trivial⟩
      · funext w
        by_cases c : w < n
        · simp [c]
        · simp only [c, if_false, add_zero]
          exact ((o1 w (by omega)).1).symm
      · funext w
        by_cases c : w < n
        · simp [c]
        · simp only [c, if_false, add_zero]
          exact ((o1 w (by omega)).2).symm
  have hall : biasesOf (loadedBiases binary (savedLinear n ops) (savedTerms n ops)) =
      ((exported (qModel n ops)).map fun t => BiasOp.addQuadratic t.1 t.2.1 t.2.2).foldl BiasOp.apply
        ⟨(biasesOf ops).linear, (biasesOf ops).square, fun _ _ => none⟩ := by
    rw [biasesOf]
    unfold loadedBiases
    rw [e1, e2, List.foldl_append, List.foldl_append, hmid]
  obtain ⟨p1, p2, p3⟩ := fold_pairs (exported (qModel n ops))
    ⟨(biasesOf ops).linear, (biasesOf ops).square, fun _ _ => none⟩ h3 hlt (fun _ _ => rfl)
  rw [← hall] at p1 p2 p3
  have hpair : ∀ x y, x < y → (biasesOf (loadedBiases binary (savedLinear n ops) (savedTerms n ops))).pair x y =
      (biasesOf ops).pair x y := by
    intro x y hxy
    rw [p3 x y hxy]
    cases hf : (exported (qModel n ops)).find? fun t => decide (t.1 = x ∧ t.2.1 = y) with
    | some t =>
      have ht := List.find?_some hf
      have hm := List.mem_of_find?_eq_some hf
      simp only [decide_eq_true_eq] at ht
      obtain ⟨u, v, c⟩ := t
      obtain ⟨rfl, rfl⟩ := ht
      exact ((h4 _ _ c).1 hm).2.2.symm
    | none =>
      simp only
      rw [List.find?_eq_none] at hf
      cases hp : (biasesOf ops).pair x y with
      | none => rfl
      | some c =>
        by_cases hy : y < n
        · have := (h4 x y c).2 ⟨hxy, hy, hp⟩
          exact absurd (by simp) (hf _ this)
        · rw [show (biasesOf ops).pair x y = none from (o2 x y (by omega)).1] at hp
          cases hp
  have hp : (biasesOf (loadedBiases binary (savedLinear n ops) (savedTerms n ops))).pair = (biasesOf ops).pair := by
    funext x y
    rcases Nat.lt_trichotomy x y with h | rfl | h
    · exact hpair x y h
    · rw [hdiag, biasesOf_diag]
    · rw [hsym, biasesOf_symm ops, hpair y x h]
  cases h1 : biasesOf (loadedBiases binary (savedLinear n ops) (savedTerms n ops)) with
  | mk l s p =>
    cases h2 : biasesOf ops with
    | mk l' s' p' =>
      rw [h1, h2] at p1 p2 hp
      simp only at p1 p2 hp
      rw [p1, p2, hp]

/-- They name existing variables only. -/
theorem loaded_inRange {n : Nat} {ops : List BiasOp} (ho : ∀ op ∈ ops, op.inRange n) (binary : Bool) :
    ∀ op ∈ loadedBiases binary (savedLinear n ops) (savedTerms n ops), op.inRange n := by
  obtain ⟨h1, h2, h3, h4⟩ := qModel_spec ho
  intro op hop
  unfold loadedBiases at hop
  rcases List.mem_append.1 hop with hop | hop
  · obtain ⟨⟨c, i⟩, hm, rfl⟩ := List.mem_map.1 hop
    have := List.mk_mem_zipIdx_iff_getElem?.1 hm
    have := (List.getElem?_eq_some_iff.1 this).1
    rw [savedLinear_eq ho] at this
    simp only [List.length_map, List.length_range] at this
    exact this
  · obtain ⟨t, hm, rfl⟩ := List.mem_map.1 hop
    unfold savedTerms at hm
    rcases List.mem_append.1 hm with hm | hm
    · obtain ⟨i, hi, rfl⟩ := List.mem_map.1 hm
      have hi := List.mem_range.1 hi
      simp only [Int.toNat_natCast]
      split_ifs
      · exact hi
      · exact ⟨hi, hi⟩
    · obtain ⟨⟨u, v, c⟩, hi, rfl⟩ := List.mem_map.1 hm
      obtain ⟨a, b, -⟩ := (h4 u v c).1 hi
      simp only [Int.toNat_natCast]
      split_ifs
      · show u < n; omega
      · exact ⟨by omega, b⟩

/-- The constructor's checks. -/
theorem biasesFit_saved {n : Nat} {ops : List BiasOp} (ho : ∀ op ∈ ops, op.inRange n) (hn : 1 ≤ n) :
    biasesFit [(n : Int)] (savedLinear n ops) (savedTerms n ops) := by
  obtain ⟨h1, h2, h3, h4⟩ := qModel_spec ho
  refine ⟨by simp [dynamicShape], rfl, by simp; omega, by simp [savedLinear_eq ho], ?_, ?_⟩
  · unfold savedTerms
    intro h
    have := congrArg List.length h
    simp at this
    omega
  · intro t hm
    unfold savedTerms at hm
    rcases List.mem_append.1 hm with hm | hm
    · obtain ⟨i, hi, rfl⟩ := List.mem_map.1 hm
      have hi := List.mem_range.1 hi
      simp
      omega
    · obtain ⟨⟨u, v, c⟩, hi, rfl⟩ := List.mem_map.1 hm
      obtain ⟨a, b, -⟩ := (h4 u v c).1 hi
      simp
      omega

end Verif
