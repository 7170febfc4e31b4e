import Verif.Lemmas.Floating
import Verif.Props.Binary
import Verif.Props.Unary
import Mathlib.Tactic.NormNum

/-!
# C67: arithmetic with doubles

All theorems are about every rounding to nearest (`Rounding`), whatever it does with ties, and about every order in which
`std::reduce` may add.
-/

namespace Verif

/-! ## Symbols that calculate each element anew -/

/-- Whatever the operation on doubles is and however it rounds: after every history, an element-wise symbol of one or two operands has
the elements that the operation gives for its operands' current elements (for two operands under the conditions of
`C23_binary_partial`), so these symbols do not drift. -/
theorem C67_elementwise (unary : Rat → Rat) (binary : Rat → Rat → Rat) (fl : Rat → Rat) (shape : List Int) {ls rs shape' : List Int}
    (h : BinaryShapes ls rs shape') :
    Incremental ArrRel [] (unaryNode (fun x => fl (unary x)) shape)
      (fun xs => ⟨shape, (xs.headD ⟨[], []⟩).data.map fun x => fl (unary x)⟩) (fun xs => xs.map Arr.shape = [shape]) ∧
    Incremental ArrRel [] (binaryNode (fun x y => fl (binary x y)) ls rs shape')
      (fun xs => ⟨shape', match xs with
        | [l, r] => binaryValue (fun x y => fl (binary x y)) l r
        | _ => []⟩)
      (fun xs => xs.map Arr.shape = [ls, rs] ∧ ∀ x ∈ xs, x.WF) :=
  ⟨C22_unary (fun x => fl (unary x)) shape, by
    have e := C23_binary_partial (fun x y => fl (binary x y)) h
    convert e using 1
    funext xs
    match xs with
    | [] => rfl
    | [_] => rfl
    | [_, _] => rfl
    | _ :: _ :: _ :: _ => rfl⟩

/-! ## Sum -/

/-- As long as all elements are whole numbers and no sum of magnitudes exceeds 2^53, a sum in the arithmetic of doubles is the exact
sum, after every history.  `I` bounds the initial value, `M` the elements, `n` their number.  Missing: numbers that are not whole, see
`C67_sum_fails`. -/
theorem C67_sum_partial {fl : Rat → Rat} (R : Rounding fl) {red : List Rat → Rat}
    (hred : ∀ xs, xs ≠ [] → Combines (flAdd fl) xs (red xs)) {init : Rat} {I M : Int} {n : Nat} (hi : Whole I init)
    (hM0 : 0 ≤ M) (hM : I + (n + 1) * M ≤ 2 ^ 53) :
    IncrementalWithin (WholeRel n M) ArrRel [] (flSumNode fl red init)
      (fun xs => ⟨[], [init + (xs.headD ⟨[], []⟩).data.sum]⟩)
      (fun xs => ∃ x, xs = [x] ∧ WholeArr n M x) := by
  have K := R.keepsWhole
  have hI : 0 ≤ I := hi.nonneg
  have hMn : 0 ≤ (n : Int) * M := mul_nonneg (by omega) hM0
  have hM' : I + n * M + M ≤ 2 ^ 53 := by linarith
  refine IncrementalWithin.imitate (N := flSumNode fl red init) (sumContract init) id (fun xs h => ?_) (fun _ _ _ h => h.exact)
    (fun _ => rfl) (fun _ => rfl) (fun _ _ h => h) (fun _ _ h => h) ?_ ?_
  · obtain ⟨x, rfl, _⟩ := h
    exact ⟨x, rfl, trivial⟩
  · rintro xs s ⟨x, rfl, hx⟩ h
    have e1 : red (init :: x.data) = init + x.data.sum :=
      (hred (init :: x.data) (by simp)).whole K hi hx.whole hx.size hM0 (by omega)
    simp only [plainInit, reduceFold, foldl_add, Res.ok_bind] at h
    simp only [Res.ok_bind, e1]
    exact h
  · rintro s xs ins ys s' hc ⟨x, rfl, hx⟩ ⟨y, rfl, hy⟩ hins h
    obtain ⟨x', hx', rfl⟩ := hc
    cases hx'
    obtain ⟨d, y', rfl, hyy, hr⟩ := hins.one
    cases hyy
    have tot : ∀ k : List Rat, k.length ≤ n → (∀ z ∈ k, Whole M z) → Whole (I + n * M) (init + k.sum) := by
      intro k hk hkw
      refine (hi.add (whole_sum hkw)).mono ?_
      have : (k.length : Int) * M ≤ n * M := mul_le_mul_of_nonneg_right (by exact_mod_cast hk) hM0
      omega
    have hag := foldlM_agree (step := sumStep) (step' := flSumStep fl)
      (fun v d => ∃ l b, v = init + l.sum ∧ Replays l d b ∧ l.length ≤ n ∧ (∀ z ∈ l, Whole M z) ∧
        (∀ u ∈ d, u.index < n) ∧ (∀ u ∈ d, ∀ o, u.old = some o → Whole M o) ∧ (∀ u ∈ d, ∀ w, u.value = some w → Whole M w)) (by
      rintro v u d ⟨l, b, rfl, hrep, hl, hw, hix, ho, hv⟩
      obtain ⟨m, hm, hrep'⟩ := replays_cons.1 hrep
      have rest : ∀ v', v' = init + m.sum → m.length ≤ n → (∀ z ∈ m, Whole M z) → ∃ l b, v' = init + l.sum ∧ Replays l d b ∧
          l.length ≤ n ∧ (∀ z ∈ l, Whole M z) ∧ (∀ u ∈ d, u.index < n) ∧ (∀ u ∈ d, ∀ o, u.old = some o → Whole M o) ∧
          (∀ u ∈ d, ∀ w, u.value = some w → Whole M w) := fun v' hv' hml hmw =>
        ⟨m, b, hv', hrep', hml, hmw, fun u hu => hix u (List.mem_cons_of_mem _ hu), fun u hu => ho u (List.mem_cons_of_mem _ hu),
          fun u hu => hv u (List.mem_cons_of_mem _ hu)⟩
      have hiu := hix u List.mem_cons_self
      have hou := ho u List.mem_cons_self
      have hvu := hv u List.mem_cons_self
      rcases step_cases hm with ⟨w, rfl, rfl⟩ | ⟨w, rfl, rfl⟩ | ⟨o, w, hlo, hu, rfl⟩
      · have hmw : ∀ z ∈ l ++ [w], Whole M z := by
          intro z hz
          rcases List.mem_append.1 hz with hz | hz
          · exact hw z hz
          · rw [List.mem_singleton.1 hz]; exact hvu w rfl
        have hml : (l ++ [w]).length ≤ n := by simp at hiu ⊢; omega
        have es : init + l.sum + w = init + (l ++ [w]).sum := by simp [add_assoc]
        have ef : fl (init + l.sum + w) = init + l.sum + w := by rw [es]; exact K.eq (tot _ hml hmw) (by omega)
        refine ⟨by simp only [flSumStep, sumStep, flAdd, ef], ?_⟩
        intro s1 hs1
        simp only [sumStep] at hs1
        exact rest s1 (by rw [← Res.ok.inj hs1, es]) hml hmw
      · have hmw : ∀ z ∈ m, Whole M z := fun z hz => hw z (List.mem_append_left _ hz)
        have hml : m.length ≤ n := by simp at hl; omega
        have es : init + (m ++ [w]).sum - w = init + m.sum := by rw [List.sum_append]; simp only [List.sum_singleton]; ring
        have ef : fl (init + (m ++ [w]).sum - w) = init + (m ++ [w]).sum - w := by rw [es]; exact K.eq (tot _ hml hmw) (by omega)
        refine ⟨by simp only [flSumStep, sumStep, flSub, ef], ?_⟩
        intro s1 hs1
        simp only [sumStep] at hs1
        exact rest s1 (by rw [← Res.ok.inj hs1, es]) hml hmw
      · have huo : u.old = some o := by rw [hu]
        have huw : u.value = some w := by rw [hu]
        have hmw : ∀ z ∈ l.set u.index w, Whole M z := by
          intro z hz
          rcases List.mem_or_eq_of_mem_set hz with hz | hz
          · exact hw z hz
          · rw [hz]; exact hvu w huw
        have hml : (l.set u.index w).length ≤ n := by simpa using hl
        have es : init + l.sum + (w - o) = init + (l.set u.index w).sum := by
          have := sum_map_set id l u.index o w hlo
          simp only [List.map_id, id] at this
          linarith
        have e1 : fl (w - o) = w - o := K.eq ((hvu w huw).sub (hou o huo)) (by
          have : M ≤ n * M := by
            have h1 : (1 : Int) ≤ n := by omega
            nlinarith
          omega)
        have ef : fl (init + l.sum + (w - o)) = init + l.sum + (w - o) := by rw [es]; exact K.eq (tot _ hml hmw) (by omega)
        refine ⟨by simp only [flSumStep, sumStep, huo, huw, flAdd, flSub, e1, ef], ?_⟩
        intro s1 hs1
        simp only [sumStep, huo, huw] at hs1
        exact rest s1 (by rw [← Res.ok.inj hs1, es]) hml hmw) d (init + x.data.sum)
      ⟨x.data, y.data, rfl, hr.exact.replays, hx.size, hx.whole, hr.index, hr.old, hr.new⟩
    simp only [ReduceState.mk', sumPropagate] at h
    simp only [ReduceState.mk', flSumPropagate, id]
    rw [hag]
    exact h

/-- A thousand elements up to a billion; here added from the left. -/
example : IncrementalWithin (WholeRel 1000 (10 ^ 9)) ArrRel []
    (flSumNode roundDouble (fun xs => xs.tail.foldl (flAdd roundDouble) (xs.headD 0)) 7)
    (fun xs => ⟨[], [7 + (xs.headD ⟨[], []⟩).data.sum]⟩) (fun xs => ∃ x, xs = [x] ∧ WholeArr 1000 (10 ^ 9) x) :=
  C67_sum_partial roundDouble_rounding (fun xs h => by
    cases xs with
    | nil => exact absurd rfl h
    | cons x l => exact combines_foldl _ l x) (I := 7) ⟨7, by norm_num, by norm_num⟩ (by norm_num) (by norm_num)

/-- An array that changes, grows and shrinks. -/
example : Legal (WholeRel 1000 (10 ^ 9)) (fun xs => ∃ x, xs = [x] ∧ WholeArr 1000 (10 ^ 9) x) [⟨[-1], [3, -4]⟩]
    [⟨[(⟨[-1], [8, -4, 1]⟩, [⟨0, some 3, some 8⟩, ⟨2, none, some 1⟩])], true⟩] [⟨[-1], [8, -4, 1]⟩] := by
  have w : ∀ z : Int, |z| ≤ 8 → Whole (10 ^ 9) z := fun z hz => ⟨z, by omega, rfl⟩
  have w1 : Whole (10 ^ 9) 1 := by simpa using w 1 (by norm_num)
  have w3 : Whole (10 ^ 9) 3 := by simpa using w 3 (by norm_num)
  have w4 : Whole (10 ^ 9) (-4) := by simpa using w (-4) (by norm_num)
  have w8 : Whole (10 ^ 9) 8 := by simpa using w 8 (by norm_num)
  exact .cons (.cons ⟨by decide +kernel, by simp, by simpa using w3, by simpa using ⟨w8, w1⟩⟩ .nil)
    ⟨_, rfl, by simp, by simpa using ⟨w8, w4, w1⟩⟩ .nil

/-! ## Product -/

/-- Where an element that is not zero changes, it divides its new value. -/
def Divides (d : List (Update Rat)) : Prop :=
  ∀ u ∈ d, ∀ o v, u.old = some o → u.value = some v → o ≠ 0 → ∃ k : Int, v = o * k

theorem whole_prodSummary {M I : Int} (hM : 1 ≤ M) {init : Rat} (hi : Whole I init) : ∀ {l : List Rat}, (∀ x ∈ l, Whole M x) →
    Whole (I * M ^ l.length) (prodSummary init l).1 := by
  intro l
  induction l with
  | nil => intro _; simpa [prodSummary, nzProd] using hi
  | cons x l ih =>
    intro hw
    have h1 := ih (fun y hy => hw y (List.mem_cons_of_mem _ hy))
    have h2 : Whole M (noZero x) := by
      unfold noZero
      split_ifs
      · exact ⟨1, by simpa using hM, by simp⟩
      · exact hw x List.mem_cons_self
    have := h1.mul h2
    have e : (prodSummary init (x :: l)).1 = (prodSummary init l).1 * noZero x := by
      simp only [prodSummary, nzProd, List.map_cons, List.prod_cons]
      ring
    rw [e, List.length_cons, pow_succ, ← mul_assoc]
    exact this

theorem whole_div {M : Int} {o v : Rat} (ho : ∃ z : Int, o = z) (hne : o ≠ 0) (hv : Whole M v) (hk : ∃ k : Int, v = o * k) :
    Whole M (v / o) := by
  obtain ⟨z, rfl⟩ := ho
  obtain ⟨w, hw, rfl⟩ := hv
  obtain ⟨k, hk⟩ := hk
  refine ⟨k, ?_, by rw [hk, mul_comm, mul_div_assoc, div_self hne, mul_one]⟩
  have hz : z ≠ 0 := by exact_mod_cast hne
  have e : w = z * k := by exact_mod_cast hk
  rw [e, abs_mul] at hw
  have h1 : 1 ≤ |z| := Int.one_le_abs hz
  have := mul_le_mul_of_nonneg_right h1 (abs_nonneg k)
  linarith

/-- As long as all elements are whole numbers, no product of the magnitudes exceeds 2^53, and elements that change from one non-zero
value to another are multiplied by a whole number (as with the values -1, 0 and 1), a product in the arithmetic of doubles is the exact
product, after every history.  Missing: other changes, see `C67_product_fails`. -/
theorem C67_product_partial {fl : Rat → Rat} (R : Rounding fl) {init : Rat} {I M : Int} {n : Nat} (hi : Whole I init)
    (hM1 : 1 ≤ M) (hI : 1 ≤ I) (hM : I * M ^ n ≤ 2 ^ 53) :
    IncrementalWithin (fun x d y => WholeRel n M x d y ∧ Divides d) ArrRel [] (flProdNode fl init)
      (fun xs => ⟨[], [init * (xs.headD ⟨[], []⟩).data.prod]⟩)
      (fun xs => ∃ x, xs = [x] ∧ WholeArr n M x) := by
  have K := R.keepsWhole
  have tot : ∀ k : List Rat, k.length ≤ n → (∀ z ∈ k, Whole M z) → fl (prodSummary init k).1 = (prodSummary init k).1 := by
    intro k hk hkw
    refine K.eq (whole_prodSummary hM1 hi hkw) (le_trans ?_ hM)
    exact mul_le_mul_of_nonneg_left (pow_le_pow_right₀ hM1 hk) (by omega)
  have hM53 : 1 ≤ n → M ≤ 2 ^ 53 := by
    intro hn
    have h1 : M ^ 1 ≤ M ^ n := pow_le_pow_right₀ hM1 hn
    have h2 : 0 ≤ M ^ n := by positivity
    nlinarith
  refine IncrementalWithin.imitate (N := flProdNode fl init) (prodContract init) id (fun xs h => ?_) (fun _ _ _ h => h.1.exact)
    (fun _ => rfl) (fun _ => rfl) (fun _ _ h => h) (fun _ _ h => h) ?_ ?_
  · obtain ⟨x, rfl, _⟩ := h
    exact ⟨x, rfl, trivial⟩
  · rintro xs s ⟨x, rfl, hx⟩ h
    have key : ∀ (post pre : List Rat), (∀ z ∈ pre ++ post, Whole M z) → (pre ++ post).length ≤ n →
        post.foldl (flProdCount fl) (prodSummary init pre) = post.foldl prodCount (prodSummary init pre) := by
      intro post
      induction post with
      | nil => intro pre _ _; rfl
      | cons z post ih =>
        intro pre hw hl
        have hz : prodCount (prodSummary init pre) z = prodSummary init (pre ++ [z]) := by
          unfold prodCount prodSummary
          by_cases h0 : z = 0
          · simp [h0, nzProd, noZero, zeros_snoc, isz_zero]
          · simp [h0, nzProd, noZero, zeros_snoc, isz_ne h0, mul_assoc]
        have hf : flProdCount fl (prodSummary init pre) z = prodSummary init (pre ++ [z]) := by
          rw [← hz]
          unfold flProdCount prodCount
          split_ifs with h0
          · rfl
          · have e : (prodSummary init pre).1 * z = (prodSummary init (pre ++ [z])).1 := by
              rw [← hz]; simp [prodCount, h0]
            rw [flMul, e, tot]
            · simp at hl ⊢; omega
            · intro y hy
              refine hw y ?_
              simp only [List.mem_append, List.mem_cons] at hy ⊢
              tauto
        rw [List.foldl_cons, List.foldl_cons, hf, hz]
        exact ih (pre ++ [z]) (by simpa using hw) (by simpa using hl)
    have e0 : ((init, 0) : Rat × Int) = prodSummary init [] := by simp [prodSummary, nzProd, zeros]
    have e1 := key x.data [] (by simpa using hx.whole) (by simpa using hx.size)
    rw [← e0] at e1
    simp only [prodInit] at h
    simp only [flProdInit, e1]
    exact h
  · rintro s xs ins ys s' hc ⟨x, rfl, hx⟩ ⟨y, rfl, hy⟩ hins h
    obtain ⟨x', hx', rfl⟩ := hc
    cases hx'
    obtain ⟨d, y', rfl, hyy, hr, hdiv⟩ := hins.one
    cases hyy
    have hag := foldlM_agree (step := prodStep) (step' := flProdStep fl)
      (fun v d => ∃ l b, v = prodSummary init l ∧ Replays l d b ∧ l.length ≤ n ∧ (∀ z ∈ l, Whole M z) ∧
        (∀ u ∈ d, u.index < n) ∧ (∀ u ∈ d, ∀ o, u.old = some o → Whole M o) ∧ (∀ u ∈ d, ∀ w, u.value = some w → Whole M w) ∧
        Divides d) (by
      rintro v u d ⟨l, b, rfl, hrep, hl, hw, hix, ho, hv, hdv⟩
      obtain ⟨m, hm, hrep'⟩ := replays_cons.1 hrep
      have hone : prodStep (prodSummary init l) u = .ok (prodSummary init m) := by
        have := prodStep_ok init (d := [u]) (a := l) (b := m) (by simp [Replays, hm])
        rw [List.foldlM_cons] at this
        simp only [List.foldlM_nil] at this
        obtain ⟨r, hr, hr'⟩ := Res.bind_eq_ok.1 this
        rw [hr]
        exact hr'
      have rest : m.length ≤ n → (∀ z ∈ m, Whole M z) → ∀ v', prodStep (prodSummary init l) u = .ok v' →
          ∃ l b, v' = prodSummary init l ∧ Replays l d b ∧
          l.length ≤ n ∧ (∀ z ∈ l, Whole M z) ∧ (∀ u ∈ d, u.index < n) ∧ (∀ u ∈ d, ∀ o, u.old = some o → Whole M o) ∧
          (∀ u ∈ d, ∀ w, u.value = some w → Whole M w) ∧ Divides d := fun hml hmw v' hv' =>
        ⟨m, b, by rw [hone] at hv'; exact (Res.ok.inj hv').symm, hrep', hml, hmw, fun u hu => hix u (List.mem_cons_of_mem _ hu),
          fun u hu => ho u (List.mem_cons_of_mem _ hu),
          fun u hu => hv u (List.mem_cons_of_mem _ hu), fun u hu => hdv u (List.mem_cons_of_mem _ hu)⟩
      have hiu := hix u List.mem_cons_self
      have hou := ho u List.mem_cons_self
      have hvu := hv u List.mem_cons_self
      have hdu := hdv u List.mem_cons_self
      -- the only thing to show: intermediate results are exact
      have fin : m.length ≤ n → (∀ z ∈ m, Whole M z) → fl (prodSummary init m).1 = (prodSummary init m).1 := fun a b => tot m a b
      rcases step_cases hm with ⟨w, rfl, rfl⟩ | ⟨w, rfl, rfl⟩ | ⟨o, w, hlo, hu, rfl⟩
      · have hmw : ∀ z ∈ l ++ [w], Whole M z := by
          intro z hz
          rcases List.mem_append.1 hz with hz | hz
          · exact hw z hz
          · rw [List.mem_singleton.1 hz]; exact hvu w rfl
        have hml : (l ++ [w]).length ≤ n := by simp at hiu ⊢; omega
        refine ⟨?_, rest hml hmw⟩
        have hf := fin hml hmw
        simp only [flProdStep, prodStep] at hone ⊢
        split_ifs with h0
        · rfl
        · rw [if_neg h0] at hone
          have e := congrArg Prod.fst (Res.ok.inj hone)
          dsimp only at e
          rw [flMul, e, hf]
      · have hmw : ∀ z ∈ m, Whole M z := fun z hz => hw z (List.mem_append_left _ hz)
        have hml : m.length ≤ n := by simp at hl; omega
        refine ⟨?_, rest hml hmw⟩
        have hf := fin hml hmw
        simp only [flProdStep, prodStep] at hone ⊢
        split_ifs with h0
        · rfl
        · rw [if_neg h0] at hone
          have e := congrArg Prod.fst (Res.ok.inj hone)
          dsimp only at e
          rw [flDiv, e, hf]
      · have huo : u.old = some o := by rw [hu]
        have huw : u.value = some w := by rw [hu]
        have hmw : ∀ z ∈ l.set u.index w, Whole M z := by
          intro z hz
          rcases List.mem_or_eq_of_mem_set hz with hz | hz
          · exact hw z hz
          · rw [hz]; exact hvu w huw
        have hml : (l.set u.index w).length ≤ n := by simpa using hl
        refine ⟨?_, rest hml hmw⟩
        have hf := fin hml hmw
        simp only [flProdStep, prodStep, huo, huw] at hone ⊢
        split_ifs at hone ⊢ with h00 h0 h1
        · rfl
        · have e := congrArg Prod.fst (Res.ok.inj hone)
          dsimp only at e
          rw [flMul, e, hf]
        · have e := congrArg Prod.fst (Res.ok.inj hone)
          dsimp only at e
          rw [flDiv, e, hf]
        · have e := congrArg Prod.fst (Res.ok.inj hone)
          dsimp only at e
          have hq : fl (w / o) = w / o :=
            K.eq (whole_div ((hou o huo).imp fun z h => h.2) h0 (hvu w huw) (hdu o w huo huw h0)) (hM53 (by omega))
          rw [flMul, flDiv, hq, e, hf]) d (prodSummary init x.data)
      ⟨x.data, y.data, rfl, hr.exact.replays, hx.size, hx.whole, hr.index, hr.old, hr.new, hdiv⟩
    simp only [ReduceState.mk', prodPropagate] at h
    simp only [ReduceState.mk', flProdPropagate, id]
    rw [hag]
    exact h

/-- Signs: any number of factors -1, 0 and 1. -/
example (n : Nat) : IncrementalWithin (fun x d y => WholeRel n 1 x d y ∧ Divides d) ArrRel [] (flProdNode roundDouble 1)
    (fun xs => ⟨[], [1 * (xs.headD ⟨[], []⟩).data.prod]⟩) (fun xs => ∃ x, xs = [x] ∧ WholeArr n 1 x) :=
  C67_product_partial roundDouble_rounding (I := 1) ⟨1, by norm_num, by norm_num⟩ (le_refl 1) (le_refl 1) (by simp)

/-- Among -1, 0 and 1 every change is of the kind that is asked for. -/
theorem divides_signs {n : Nat} {x y : Arr Rat} {d : List (Update Rat)} (h : WholeRel n 1 x d y) : Divides d := by
  intro u hu o v ho hv hne
  obtain ⟨a, ha, rfl⟩ := h.old u hu o ho
  obtain ⟨b, _, rfl⟩ := h.new u hu v hv
  have h0 : a ≠ 0 := by exact_mod_cast hne
  have h1 : a = 1 ∨ a = -1 := by
    have := abs_le.1 ha
    omega
  rcases h1 with rfl | rfl
  · exact ⟨b, by push_cast; ring⟩
  · exact ⟨-b, by push_cast; ring⟩

/-! ## Where it fails -/

/-- The double written `0.3`. -/
def double03 : Rat := 5404319552844595 / 2 ^ 54
/-- The double written `0.8`. -/
def double08 : Rat := 3602879701896397 / 2 ^ 52

theorem isDouble03 : IsDouble double03 := ⟨5404319552844595, -54, by norm_num, by norm_num, by norm_num, by norm_num [double03]⟩
theorem isDouble08 : IsDouble double08 := ⟨3602879701896397, -52, by norm_num, by norm_num, by norm_num, by norm_num [double08]⟩

theorem le_greatest {q : Rat} (h : q ≤ 2 ^ 53) : q ≤ greatestDouble := le_trans h greatest_large

theorem fl03 {fl : Rat → Rat} (R : Rounding fl) : fl double03 = double03 :=
  R.exact isDouble03 (le_greatest (by norm_num [double03, abs_of_pos]))
theorem fl08 {fl : Rat → Rat} (R : Rounding fl) : fl double08 = double08 :=
  R.exact isDouble08 (le_greatest (by norm_num [double08, abs_of_pos]))
theorem fl08neg {fl : Rat → Rat} (R : Rounding fl) : fl (-double08) = -double08 :=
  R.exact ⟨-3602879701896397, -52, by norm_num, by norm_num, by norm_num, by norm_num [double08]⟩
    (le_greatest (by norm_num [double08, abs_of_pos]))
theorem fl11 {fl : Rat → Rat} (R : Rounding fl) : fl (double03 + double08) = 2476979795053773 / 2 ^ 51 := by
  rw [R.eq_of_close 4953959590107546 (-52) (by norm_num) (by norm_num) (by norm_num) (by norm_num [double03, double08])
    (le_greatest (by norm_num [double03, double08])) (by rw [abs_lt]; norm_num [double03, double08])]
  norm_num
theorem fl11sub {fl : Rat → Rat} (R : Rounding fl) : fl (2476979795053773 / 2 ^ 51 + -double08) = 1351079888211149 / 2 ^ 52 := by
  have e : (2476979795053773 / 2 ^ 51 + -double08 : Rat) = 1351079888211149 / 2 ^ 52 := by norm_num [double08]
  rw [e]
  exact R.exact ⟨1351079888211149, -52, by norm_num, by norm_num, by norm_num, by norm_num⟩
    (le_greatest (by norm_num [abs_of_pos]))
theorem fl297 {fl : Rat → Rat} (R : Rounding fl) : fl (29 / 7) = 4664442471205157 / 2 ^ 50 := by
  rw [R.eq_of_close 4664442471205157 (-50) (by norm_num) (by norm_num) (by norm_num) (by norm_num)
    (le_greatest (by norm_num)) (by rw [abs_lt]; norm_num)]
  norm_num
theorem fl29 {fl : Rat → Rat} (R : Rounding fl) : fl (7 * (4664442471205157 / 2 ^ 50)) = 8162774324609025 / 2 ^ 48 := by
  rw [R.eq_of_close 8162774324609025 (-48) (by norm_num) (by norm_num) (by norm_num) (by norm_num)
    (le_greatest (by norm_num)) (by rw [abs_lt]; norm_num)]
  norm_num

/-- The history of `C67_sum_fails`: element 1 of two zeros becomes 0.3; then element 0 becomes 0.8, and zero again. -/
def sumHistory : List (Round (Arr Rat) (List (Update Rat))) :=
  [⟨[(⟨[2], [0, double03]⟩, [⟨1, some 0, some double03⟩])], true⟩,
   ⟨[(⟨[2], [double08, double03]⟩, [⟨0, some 0, some double08⟩])], true⟩,
   ⟨[(⟨[2], [0, double03]⟩, [⟨0, some double08, some 0⟩])], true⟩]

/-- The property fails for sums of numbers that are not whole, whatever is done with ties and in whatever order the state is
initialised: the array is `[0, 0.3]` after one round and again after three, but the sum is 0.3 at first and 0.30000000000000004 then.
A constraint `x.sum() <= 0.3` is satisfied at first and violated then. -/
theorem C67_sum_fails {fl : Rat → Rat} (R : Rounding fl) {red : List Rat → Rat}
    (hred : ∀ xs, xs ≠ [] → Combines (flAdd fl) xs (red xs)) :
    let N := flSumNode fl red 0
    let ok := fun xs : List (Arr Rat) => ∃ x, xs = [x] ∧ x.WF
    Legal ArrRel ok [⟨[2], [0, 0]⟩] (sumHistory.take 1) [⟨[2], [0, double03]⟩] ∧
    Legal ArrRel ok [⟨[2], [0, 0]⟩] sumHistory [⟨[2], [0, double03]⟩] ∧
    ∃ s0 s1 s3 v3, N.init [⟨[2], [0, 0]⟩] = .ok s0 ∧ (sumHistory.take 1).foldlM N.round s0 = .ok s1 ∧
      sumHistory.foldlM N.round s0 = .ok s3 ∧ N.view s1 = ⟨[], [double03]⟩ ∧ N.view s3 = ⟨[], [v3]⟩ ∧ double03 < v3 := by
  intro N ok
  have r1 : ArrRel (⟨[2], [0, 0]⟩ : Arr Rat) [⟨1, some 0, some double03⟩] ⟨[2], [0, double03]⟩ := by decide +kernel
  have r2 : ArrRel (⟨[2], [0, double03]⟩ : Arr Rat) [⟨0, some 0, some double08⟩] ⟨[2], [double08, double03]⟩ := by decide +kernel
  have r3 : ArrRel (⟨[2], [double08, double03]⟩ : Arr Rat) [⟨0, some double08, some 0⟩] ⟨[2], [0, double03]⟩ := by decide +kernel
  refine ⟨.cons (.cons r1 .nil) ⟨_, rfl, by decide +kernel⟩ .nil,
    .cons (.cons r1 .nil) ⟨_, rfl, by decide +kernel⟩ (.cons (.cons r2 .nil) ⟨_, rfl, by decide +kernel⟩
      (.cons (.cons r3 .nil) ⟨_, rfl, by decide +kernel⟩ .nil)), ?_⟩
  have e0 : red [0, 0, 0] = 0 := by
    have := (hred [0, 0, 0] (by simp)).whole R.keepsWhole (I := 0) (M := 0) (n := 2) (whole_zero (le_refl 0))
      (by intro x hx; simp at hx; rw [hx]; exact whole_zero (le_refl 0)) (by simp) (le_refl 0) (by norm_num)
    simpa using this
  have step : ∀ (v w : Rat) (x : Arr Rat) (u : Update Rat), flSumStep fl v u = .ok w →
      N.round (ReduceState.mk' v ()) ⟨[(x, [u])], true⟩ = .ok (ReduceState.mk' w ()) := by
    intro v w x u h
    simp only [N, NodeSem.round, flSumPropagate, ReduceState.mk', List.foldlM_cons, h, Res.ok_bind, List.foldlM_nil]
    rfl
  have p1 := step 0 double03 ⟨[2], [0, double03]⟩ ⟨1, some 0, some double03⟩ (by
    simp only [flSumStep, flAdd, flSub, sub_zero, zero_add, fl03 R])
  have p2 := step double03 (2476979795053773 / 2 ^ 51) ⟨[2], [double08, double03]⟩ ⟨0, some 0, some double08⟩ (by
    simp only [flSumStep, flAdd, flSub, sub_zero, fl08 R, fl11 R])
  have p3 := step (2476979795053773 / 2 ^ 51) (1351079888211149 / 2 ^ 52) ⟨[2], [0, double03]⟩ ⟨0, some double08, some 0⟩ (by
    simp only [flSumStep, flAdd, flSub, zero_sub, fl08neg R, fl11sub R])
  refine ⟨ReduceState.mk' 0 (), ReduceState.mk' double03 (), ReduceState.mk' (1351079888211149 / 2 ^ 52) (),
    1351079888211149 / 2 ^ 52, ?_, ?_, ?_, rfl, rfl, ?_⟩
  · simp [N, e0]
  · rw [sumHistory, List.take_succ_cons, List.foldlM_cons, p1]
    rfl
  · rw [sumHistory, List.foldlM_cons, p1, Res.ok_bind, List.foldlM_cons, p2, Res.ok_bind, List.foldlM_cons, p3]
    rfl
  · norm_num [double03]

/-- The property fails for products of whole numbers: the product of the one element of an array, 7 at first, is changed to 29; the
product is then 29.000000000000004, and not even a whole number, though the symbol declares that it is integral (`ReduceNode` does if
its operand and the initial value are, mathematical.cpp 1280-1293). -/
theorem C67_product_fails {fl : Rat → Rat} (R : Rounding fl) :
    let N := flProdNode fl 1
    let ok := fun xs : List (Arr Rat) => ∃ x, xs = [x] ∧ WholeArr 1 29 x
    let r : Round (Arr Rat) (List (Update Rat)) := ⟨[(⟨[1], [29]⟩, [⟨0, some 7, some 29⟩])], true⟩
    Legal (WholeRel 1 29) ok [⟨[1], [7]⟩] [r] [⟨[1], [29]⟩] ∧
    ∃ s0 s1 v, N.init [⟨[1], [7]⟩] = .ok s0 ∧ N.round s0 r = .ok s1 ∧ N.view s1 = ⟨[], [v]⟩ ∧ 29 < v ∧ ¬ ∃ z : Int, v = z := by
  intro N ok r
  have w7 : Whole 29 7 := ⟨7, by norm_num, by norm_num⟩
  have w29 : Whole 29 29 := ⟨29, by norm_num, by norm_num⟩
  have f7 : fl 7 = 7 := R.keepsWhole.eq w7 (by norm_num)
  refine ⟨.cons (.cons ⟨by decide +kernel, by simp, by simpa using w7, by simpa using w29⟩ .nil)
    ⟨_, rfl, by simp, by simpa using w29⟩ .nil, ReduceState.mk' 7 (7, 0), ReduceState.mk' (8162774324609025 / 2 ^ 48) (8162774324609025 / 2 ^ 48, 0),
    8162774324609025 / 2 ^ 48, ?_, ?_, rfl, by norm_num, ?_⟩
  · simp [N, flProdInit, flProdCount, flMul, f7]
  · have h : flProdStep fl (7, 0) ⟨0, some 7, some 29⟩ = .ok (8162774324609025 / 2 ^ 48, 0) := by
      simp only [flProdStep, flMul, flDiv, fl297 R, fl29 R]
      norm_num
    simp only [N, r, NodeSem.round, flProdPropagate, ReduceState.mk', List.foldlM_cons, List.foldlM_nil, h, Res.ok_bind, guardUB]
    rfl
  · rintro ⟨z, hz⟩
    have : (8162774324609025 : Rat) = (z * 2 ^ 48 : Int) := by
      push_cast
      rw [← hz]
      norm_num
    have : (8162774324609025 : Int) = z * 2 ^ 48 := by exact_mod_cast this
    omega

end Verif
