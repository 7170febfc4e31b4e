import Verif.Model.Nodes.Reduce
import Verif.Lemmas.NodeBase
import Mathlib.Tactic.Ring
import Mathlib.Tactic.Linarith
import Mathlib.Tactic.FieldSimp

set_option linter.unusedSectionVars false
set_option linter.unusedSimpArgs false
set_option linter.unusedVariables false

/-!
# C25: reductions of a whole array
-/

namespace Verif

/-- The contract of a reduction, from what `init` and `propagate` do to value and extra data. -/
def reduceContract {E : Type} {f : List Rat → Rat} {ok : Arr Rat → Prop}
    {init : List Rat → Res (Rat × E)}
    {prop : Rat × E → List Rat → List (Update Rat) → Res (Rat × E)} (g : List Rat → E)
    (hinit : ∀ {x}, ok x → init x.data = .ok (f x.data, g x.data))
    (hprop : ∀ {x y d}, ok x → ok y → ArrRel x d y →
      prop (f x.data, g x.data) y.data d = .ok (f y.data, g y.data)) :
    Contract ArrRel [] (reduceNode E f ok init prop) where
  Clean := fun s xs => ∃ x, xs = [x] ∧ s = ReduceState.mk' (f x.data) (g x.data)
  init := by
    rintro xs ⟨x, rfl, hx⟩
    exact ⟨_, by simp only [hinit hx, Res.ok_bind], x, rfl, rfl⟩
  view := by rintro s xs ⟨x, rfl, rfl⟩; rfl
  diff := by rintro s xs ⟨x, rfl, rfl⟩; simp [ReduceState.diff, ReduceState.mk']
  propagate := by
    rintro s xs ins ys ⟨x, rfl, rfl⟩ ⟨_, hx, hok⟩ hy hi
    obtain ⟨d, y, rfl, rfl, hr⟩ := hi.one
    obtain ⟨_, hy, hoky⟩ := hy
    cases hx; cases hy
    refine ⟨⟨f x.data, f y.data, g y.data, g x.data⟩,
      by simp only [ReduceState.mk', hprop hok hoky hr, Res.ok_bind], rfl, ⟨rfl, ?_, ?_⟩,
      ⟨_, rfl, y, rfl, rfl⟩, ⟨_, rfl, x, rfl, rfl⟩⟩
    · simp only [ReduceState.diff]
      split_ifs with h
      · simp [Replays, Update.step, Update.change]
      · have : f x.data = f y.data := by simpa using h
        simp [Replays, this]
    · intro _ u hu
      simp only [ReduceState.diff] at hu
      split_ifs at hu with h
      · simp at hu; subst hu; rfl
      · simp at hu

/-- A loop over a diff which keeps a summary `m` of the array up to date. -/
theorem foldlM_summary {M : Type} (m : List Rat → M) (step : M → Update Rat → Res M)
    (hp : ∀ l v, step (m l) (Update.placement l.length v) = .ok (m (l ++ [v])))
    (hr : ∀ l v, step (m (l ++ [v])) (Update.removal l.length v) = .ok (m l))
    (hc : ∀ l i o v, l[i]? = some o → step (m l) (Update.change i o v) = .ok (m (l.set i v)))
    {a b : List Rat} {d : List (Update Rat)} (h : Replays a d b) :
    d.foldlM step (m a) = .ok (m b) := by
  induction d generalizing a with
  | nil => simp at h; subst h; rfl
  | cons u d ih =>
    obtain ⟨l, hl, h'⟩ := replays_cons.1 h
    have : step (m a) u = .ok (m l) := by
      rcases step_cases hl with ⟨v, rfl, rfl⟩ | ⟨v, rfl, rfl⟩ | ⟨o, v, ho, hu, rfl⟩
      · exact hp a v
      · exact hr l v
      · rw [hu]; exact hc a _ o v ho
    simp only [List.foldlM_cons, this, Res.ok_bind]
    exact ih h'

theorem sum_map_set {M : Type} [AddCommMonoid M] (g : Rat → M) :
    ∀ (l : List Rat) (i : Nat) (o v : Rat), l[i]? = some o →
      ((l.set i v).map g).sum + g o = (l.map g).sum + g v
  | [], _, _, _, h => by simp at h
  | x :: l, 0, o, v, h => by
    simp at h; subst h
    simp only [List.set_cons_zero, List.map_cons, List.sum_cons]
    rw [add_comm, add_right_comm, ← add_assoc, add_right_comm, add_right_comm]
  | x :: l, i + 1, o, v, h => by
    simp only [List.set_cons_succ, List.map_cons, List.sum_cons]
    rw [add_assoc, sum_map_set g l i o v (by simpa using h), add_assoc]

theorem prod_map_set (g : Rat → Rat) :
    ∀ (l : List Rat) (i : Nat) (o v : Rat), l[i]? = some o →
      ((l.set i v).map g).prod * g o = (l.map g).prod * g v
  | [], _, _, _, h => by simp at h
  | x :: l, 0, o, v, h => by
    simp at h; subst h
    simp only [List.set_cons_zero, List.map_cons, List.prod_cons]
    ring
  | x :: l, i + 1, o, v, h => by
    simp only [List.set_cons_succ, List.map_cons, List.prod_cons]
    rw [mul_assoc, prod_map_set g l i o v (by simpa using h), mul_assoc]

/-! ## Sum -/

theorem foldl_add (xs : List Rat) (i : Rat) : xs.foldl (· + ·) i = i + xs.sum := by
  induction xs generalizing i with
  | nil => simp
  | cons x xs ih => simp only [List.foldl_cons, ih, List.sum_cons]; ring

/-- The sum keeps the symbol contract. -/
def sumContract (init : Rat) : Contract ArrRel [] (sumNode init) :=
  reduceContract (fun _ => ()) (by
    intro x _
    simp [plainInit, reduceFold, foldl_add]) (by
    intro x y d _ _ hr
    have := foldlM_summary (fun l => init + l.sum) sumStep
      (fun l v => by simp [sumStep]; ring)
      (fun l v => by simp [sumStep]; ring)
      (fun l i o v h => by
        have := sum_map_set id l i o v h
        simp only [List.map_id, id] at this
        simp only [sumStep, Res.ok.injEq]
        linarith) hr.replays
    simp only [sumPropagate, this, Res.ok_bind])

/-- C25, sum.  After every history of changes of the array (also growing and shrinking) the value of a
sum is the initial value plus the sum of the elements. -/
theorem C25_sum (init : Rat) :
    Incremental ArrRel [] (sumNode init)
      (fun xs => ⟨[], [init + (xs.headD ⟨[], []⟩).data.sum]⟩)
      (fun xs => ∃ x, xs = [x]) :=
  by simpa using (sumContract init).incremental

/-! ## Product -/

/-- Zeros replaced by one. -/
def noZero (x : Rat) : Rat := if x = 0 then 1 else x

theorem noZero_ne (x : Rat) : noZero x ≠ 0 := by
  unfold noZero; split_ifs with h
  · norm_num
  · exact h

/-- The number of zeros. -/
def zeros (xs : List Rat) : Int := (xs.map fun x => boolCount (isZero x)).sum

theorem isz_zero : boolCount (isZero 0) = 1 := rfl
theorem isz_ne {x : Rat} (h : x ≠ 0) : boolCount (isZero x) = 0 := by simp [boolCount, isZero, h]
theorem nisz_zero : boolCount (!isZero 0) = 0 := rfl
theorem nisz_ne {x : Rat} (h : x ≠ 0) : boolCount (!isZero x) = 1 := by simp [boolCount, isZero, h]

theorem zeros_cons (x : Rat) (xs : List Rat) : zeros (x :: xs) = boolCount (isZero x) + zeros xs := by
  simp [zeros]

theorem zeros_snoc (x : Rat) (xs : List Rat) : zeros (xs ++ [x]) = zeros xs + boolCount (isZero x) := by
  simp [zeros]

/-- The product of the non-zero elements. -/
def nzProd (xs : List Rat) : Rat := (xs.map noZero).prod

theorem nzProd_snoc (x : Rat) (xs : List Rat) : nzProd (xs ++ [x]) = nzProd xs * noZero x := by
  simp [nzProd]

theorem noZero_zero : noZero 0 = 1 := by simp [noZero]
theorem noZero_of {x : Rat} (h : x ≠ 0) : noZero x = x := by simp [noZero, h]

/-- What the product node keeps: the product of the non-zero elements, and the number of zeros. -/
def prodSummary (init : Rat) (xs : List Rat) : Rat × Int := (init * nzProd xs, zeros xs)

theorem prodCount_foldl (xs : List Rat) (s : Rat × Int) :
    xs.foldl prodCount s = (s.1 * nzProd xs, s.2 + zeros xs) := by
  induction xs generalizing s with
  | nil => simp [nzProd, zeros]
  | cons x xs ih =>
    have e : nzProd (x :: xs) = noZero x * nzProd xs := by simp [nzProd]
    rw [List.foldl_cons, ih, zeros_cons, e]
    by_cases h : x = 0
    · subst h
      simp only [prodCount, if_true, noZero_zero, isz_zero, one_mul, add_assoc]
    · simp only [prodCount, if_neg h, noZero_of h, isz_ne h, zero_add, mul_assoc]

theorem zeros_nonneg (xs : List Rat) : 0 ≤ zeros xs := by
  induction xs with
  | nil => simp [zeros]
  | cons x xs ih =>
    rw [zeros_cons]
    have : 0 ≤ boolCount (isZero x) := by unfold boolCount; split_ifs <;> decide
    omega

theorem zeros_pos_iff (xs : List Rat) : 0 < zeros xs ↔ 0 ∈ xs := by
  induction xs with
  | nil => simp [zeros]
  | cons x xs ih =>
    rw [zeros_cons, List.mem_cons]
    have := zeros_nonneg xs
    by_cases h : x = 0
    · subst h
      rw [isz_zero]
      simp; omega
    · rw [isz_ne h, zero_add, ih]
      constructor
      · exact Or.inr
      · rintro (h' | h')
        · exact absurd h'.symm h
        · exact h'

theorem nzProd_eq {xs : List Rat} (h : 0 ∉ xs) : nzProd xs = xs.prod := by
  unfold nzProd
  induction xs with
  | nil => rfl
  | cons x xs ih =>
    simp only [List.mem_cons, not_or] at h
    simp only [List.map_cons, List.prod_cons, ih h.2, noZero, if_neg (fun e => h.1 (Eq.symm e))]

theorem prod_zero_of_mem {xs : List Rat} (h : 0 ∈ xs) : xs.prod = 0 := by
  induction xs with
  | nil => simp at h
  | cons x xs ih =>
    rw [List.prod_cons]
    rcases List.mem_cons.1 h with h | h
    · rw [← h, zero_mul]
    · rw [ih h, mul_zero]

theorem prodSummary_value (init : Rat) (xs : List Rat) :
    (if (prodSummary init xs).2 > 0 then 0 else (prodSummary init xs).1) = init * xs.prod := by
  simp only [prodSummary, gt_iff_lt, zeros_pos_iff]
  split_ifs with h
  · rw [prod_zero_of_mem h, mul_zero]
  · rw [nzProd_eq h]

theorem prodStep_ok (init : Rat) {a b : List Rat} {d : List (Update Rat)} (h : Replays a d b) :
    d.foldlM prodStep (prodSummary init a) = .ok (prodSummary init b) := by
  refine foldlM_summary (prodSummary init) prodStep ?_ ?_ ?_ h
  · intro l v
    simp only [prodSummary, nzProd_snoc, zeros_snoc, prodStep]
    by_cases hv : v = 0
    · subst hv; simp [noZero_zero, isz_zero]
    · simp [noZero_of hv, isz_ne hv, hv, mul_assoc]
  · intro l v
    simp only [prodSummary, nzProd_snoc, zeros_snoc, prodStep]
    by_cases hv : v = 0
    · subst hv; simp [noZero_zero, isz_zero]
    · simp only [noZero_of hv, isz_ne hv, if_neg hv, ← mul_assoc, mul_div_cancel_right₀ _ hv, add_zero]
  · intro l i o v ho
    have h1 : nzProd (l.set i v) * noZero o = nzProd l * noZero v := prod_map_set noZero l i o v ho
    have h2 : zeros (l.set i v) + boolCount (isZero o) = zeros l + boolCount (isZero v) :=
      sum_map_set (fun x => boolCount (isZero x)) l i o v ho
    simp only [prodSummary, prodStep]
    generalize nzProd (l.set i v) = p at *
    generalize zeros (l.set i v) = z at *
    by_cases hz : o = 0 <;> by_cases hv : v = 0
    · subst hz; subst hv
      simp only [noZero_zero, mul_one] at h1
      simp only [add_left_inj] at h2
      simp [h1, h2]
    · subst hz
      rw [noZero_zero, noZero_of hv, mul_one] at h1
      rw [isz_zero, isz_ne hv, add_zero] at h2
      simp [hv, h1, ← h2, mul_assoc]
    · subst hv
      rw [noZero_zero, noZero_of hz, mul_one] at h1
      rw [isz_zero, isz_ne hz, add_zero] at h2
      simp [hz, ← h1, h2, ← mul_assoc]
    · rw [noZero_of hz, noZero_of hv] at h1
      rw [isz_ne hz, isz_ne hv, add_zero, add_zero] at h2
      simp only [hz, hv, h2, false_and, if_false, Res.ok.injEq, Prod.mk.injEq, and_true]
      rw [mul_assoc, ← mul_div_assoc, ← h1, mul_div_cancel_right₀ _ hz]

/-- The product keeps the symbol contract. -/
def prodContract (init : Rat) : Contract ArrRel [] (prodNode init) :=
  reduceContract (prodSummary init) (by
    intro x _
    have : x.data.foldl prodCount (init, 0) = prodSummary init x.data := by
      rw [prodCount_foldl]; simp [prodSummary]
    simp only [prodInit, this, prodSummary_value]) (by
    intro x y d _ _ hr
    unfold prodPropagate
    rw [guardUB_true (by
      rw [← prodSummary_value]
      have := zeros_nonneg x.data
      by_cases h : (prodSummary init x.data).2 > 0
      · right; simp [h]
      · left; simp only [prodSummary] at h ⊢; omega)]
    simp only [Res.ok_bind, prodStep_ok init hr.replays, prodSummary_value])

/-- C25, product.  Also with zeros coming and going. -/
theorem C25_prod (init : Rat) :
    Incremental ArrRel [] (prodNode init)
      (fun xs => ⟨[], [init * (xs.headD ⟨[], []⟩).data.prod]⟩)
      (fun xs => ∃ x, xs = [x]) :=
  by simpa using (prodContract init).incremental

/-! ## Logical and, logical or -/

/-- The number of non-zero elements. -/
def ones (xs : List Rat) : Int := (xs.map fun x => boolCount (!isZero x)).sum

theorem ones_cons (x : Rat) (xs : List Rat) : ones (x :: xs) = boolCount (!isZero x) + ones xs := by
  simp [ones]

theorem ones_snoc (x : Rat) (xs : List Rat) : ones (xs ++ [x]) = ones xs + boolCount (!isZero x) := by
  simp [ones]

theorem ones_nonneg (xs : List Rat) : 0 ≤ ones xs := by
  induction xs with
  | nil => simp [ones]
  | cons x xs ih =>
    rw [ones_cons]
    have : 0 ≤ boolCount (!isZero x) := by unfold boolCount; split_ifs <;> decide
    omega

theorem ones_pos_iff (xs : List Rat) : 0 < ones xs ↔ ∃ x ∈ xs, x ≠ 0 := by
  induction xs with
  | nil => simp [ones]
  | cons x xs ih =>
    rw [ones_cons]
    simp only [List.mem_cons, exists_eq_or_imp]
    have := ones_nonneg xs
    by_cases h : x = 0
    · subst h
      rw [nisz_zero, zero_add, ih]; simp
    · rw [nisz_ne h]
      simp [h]; omega

def allSummary (init : Rat) (xs : List Rat) : Int :=
  (if init ≠ 0 then 0 else 1) + zeros xs

theorem allSummary_nonneg (init : Rat) (xs : List Rat) : 0 ≤ allSummary init xs := by
  have := zeros_nonneg xs
  unfold allSummary; split_ifs <;> omega

theorem allSummary_value (init : Rat) (xs : List Rat) :
    ofBool (decide (allSummary init xs < 1)) = allValue init xs := by
  have h0 := zeros_nonneg xs
  have h1 := zeros_pos_iff xs
  unfold ofBool allValue
  simp only [decide_eq_true_eq]
  have : allSummary init xs < 1 ↔ init ≠ 0 ∧ ∀ x ∈ xs, x ≠ 0 := by
    have e : (∀ x ∈ xs, x ≠ 0) ↔ 0 ∉ xs :=
      ⟨fun h h' => h 0 h' rfl, fun h x hx e => h (e ▸ hx)⟩
    rw [e, ← h1]
    unfold allSummary
    by_cases hi : init = 0
    · simp [hi]; omega
    · simp [hi]; omega
  simp only [this]

theorem allStep_ok (init : Rat) {a b : List Rat} {d : List (Update Rat)} (h : Replays a d b) :
    d.foldlM allStep (allSummary init a) = .ok (allSummary init b) := by
  refine foldlM_summary (allSummary init) allStep ?_ ?_ ?_ h
  · intro l v
    simp only [allStep, allSummary, zeros_snoc, Res.ok.injEq]
    omega
  · intro l v
    simp only [allStep, allSummary, zeros_snoc, Res.ok.injEq]
    omega
  · intro l i o v ho
    have h2 : zeros (l.set i v) + boolCount (isZero o) = zeros l + boolCount (isZero v) :=
      sum_map_set (fun x => boolCount (isZero x)) l i o v ho
    simp only [allStep, allSummary]
    generalize zeros (l.set i v) = z at *
    simp only [boolCount, isZero] at h2
    by_cases hz : o = 0 <;> by_cases hv : v = 0 <;>
      simp [hz, hv] at h2 ⊢ <;> omega

/-- `AllNode` keeps the symbol contract. -/
def allContract (init : Rat) : Contract ArrRel [] (allNode init) :=
  reduceContract (allSummary init) (by
    intro x _
    have h0 := allSummary_nonneg init x.data
    have := allSummary_value init x.data
    rw [← this]
    simp only [allInit, Res.ok.injEq, Prod.mk.injEq]
    refine ⟨?_, rfl⟩
    congr 1
    rw [decide_eq_decide]
    change allSummary init x.data = 0 ↔ _
    omega) (by
    intro x y d _ _ hr
    unfold allPropagate
    simp only [allStep_ok init hr.replays, Res.ok_bind]
    rw [guardUB_true (allSummary_nonneg _ _), Res.ok_bind, allSummary_value])

/-- C25, logical and. -/
theorem C25_all (init : Rat) :
    Incremental ArrRel [] (allNode init)
      (fun xs => ⟨[], [if init ≠ 0 ∧ ∀ x ∈ (xs.headD ⟨[], []⟩).data, x ≠ 0 then 1 else 0]⟩)
      (fun xs => ∃ x, xs = [x]) :=
  by simpa [allValue] using (allContract init).incremental

def anySummary (init : Rat) (xs : List Rat) : Int :=
  (if init ≠ 0 then 1 else 0) + ones xs

theorem anySummary_nonneg (init : Rat) (xs : List Rat) : 0 ≤ anySummary init xs := by
  have := ones_nonneg xs
  unfold anySummary; split_ifs <;> omega

theorem anySummary_value (init : Rat) (xs : List Rat) :
    ofBool (decide (anySummary init xs > 0)) = anyValue init xs := by
  have h0 := ones_nonneg xs
  have h1 := ones_pos_iff xs
  unfold ofBool anyValue
  simp only [decide_eq_true_eq]
  have : anySummary init xs > 0 ↔ init ≠ 0 ∨ ∃ x ∈ xs, x ≠ 0 := by
    rw [← h1]
    unfold anySummary
    by_cases hi : init = 0
    · simp [hi]
    · simp [hi]; omega
  simp only [this]

theorem anyStep_ok (init : Rat) {a b : List Rat} {d : List (Update Rat)} (h : Replays a d b) :
    d.foldlM anyStep (anySummary init a) = .ok (anySummary init b) := by
  refine foldlM_summary (anySummary init) anyStep ?_ ?_ ?_ h
  · intro l v
    simp only [anyStep, anySummary, ones_snoc, Res.ok.injEq]
    omega
  · intro l v
    simp only [anyStep, anySummary, ones_snoc, Res.ok.injEq]
    omega
  · intro l i o v ho
    have h2 : ones (l.set i v) + boolCount (!isZero o) = ones l + boolCount (!isZero v) :=
      sum_map_set (fun x => boolCount (!isZero x)) l i o v ho
    simp only [anyStep, anySummary]
    generalize ones (l.set i v) = z at *
    simp only [boolCount, isZero] at h2
    by_cases hz : o = 0 <;> by_cases hv : v = 0 <;>
      simp [hz, hv] at h2 ⊢ <;> omega

/-- `AnyNode` keeps the symbol contract. -/
def anyContract (init : Rat) : Contract ArrRel [] (anyNode init) :=
  reduceContract (anySummary init) (by
    intro x _
    rw [← anySummary_value init x.data]
    rfl) (by
    intro x y d _ _ hr
    unfold anyPropagate
    simp only [anyStep_ok init hr.replays, Res.ok_bind]
    rw [guardUB_true (anySummary_nonneg _ _), Res.ok_bind, anySummary_value])

/-- C25, logical or. -/
theorem C25_any (init : Rat) :
    Incremental ArrRel [] (anyNode init)
      (fun xs => ⟨[], [if init ≠ 0 ∨ ∃ x ∈ (xs.headD ⟨[], []⟩).data, x ≠ 0 then 1 else 0]⟩)
      (fun xs => ∃ x, xs = [x]) :=
  by simpa [anyValue] using (anyContract init).incremental

/-! ## Maximum and minimum -/

/-- `m` is the greatest of the elements and the initial value, if any. -/
def IsMaxOf (init : Option Rat) (xs : List Rat) (m : Rat) : Prop :=
  (init = some m ∨ m ∈ xs) ∧ (∀ x ∈ xs, x ≤ m) ∧ ∀ i, init = some i → i ≤ m

theorem IsMaxOf.unique {init : Option Rat} {xs : List Rat} {m n : Rat} (h : IsMaxOf init xs m)
    (h' : IsMaxOf init xs n) : m = n := by
  obtain ⟨a, b, c⟩ := h
  obtain ⟨a', b', c'⟩ := h'
  apply le_antisymm
  · rcases a with a | a
    · exact c' _ a
    · exact b' _ a
  · rcases a' with a | a
    · exact c _ a
    · exact b _ a

theorem foldl_max (xs : List Rat) (i : Rat) : IsMaxOf (some i) xs (xs.foldl max i) := by
  induction xs generalizing i with
  | nil => exact ⟨.inl rfl, by simp, by simp⟩
  | cons x xs ih =>
    obtain ⟨a, b, c⟩ := ih (max i x)
    have hc := c _ rfl
    rw [List.foldl_cons]
    refine ⟨?_, ?_, ?_⟩
    · rcases a with a | a
      · rw [Option.some.injEq] at a
        rw [← a]
        rcases le_total i x with h | h
        · right; rw [max_eq_right h]; exact List.mem_cons_self
        · left; rw [max_eq_left h]
      · exact .inr (List.mem_cons_of_mem _ a)
    · intro y hy
      rcases List.mem_cons.1 hy with rfl | hy
      · exact le_trans (le_max_right _ _) hc
      · exact b y hy
    · intro j hj
      cases hj
      exact le_trans (le_max_left _ _) hc

theorem foldValue_max {init : Option Rat} {xs : List Rat} (h : init = none → xs ≠ []) :
    IsMaxOf init xs (foldValue max init xs) := by
  match init, xs, h with
  | some i, xs, _ => exact foldl_max xs i
  | none, x :: xs, _ =>
    obtain ⟨a, b, c⟩ := foldl_max xs x
    refine ⟨.inr ?_, ?_, by simp⟩
    · rcases a with a | a
      · simp only [Option.some.injEq] at a
        simp only [foldValue]
        rw [← a]; exact List.mem_cons_self
      · exact List.mem_cons_of_mem _ a
    · intro y hy
      rcases List.mem_cons.1 hy with rfl | hy
      · exact c _ rfl
      · exact b y hy
  | none, [], h => exact absurd rfl (h rfl)

theorem mem_set_cases {l : List Rat} {i : Nat} {o v x : Rat} (ho : l[i]? = some o) :
    (x ∈ l.set i v → x ∈ l ∨ x = v) ∧ (x ∈ l → x ∈ l.set i v ∨ x = o) ∧ v ∈ l.set i v ∧ o ∈ l := by
  have hi : i < l.length := by
    by_contra hn
    rw [List.getElem?_eq_none (by omega)] at ho; cases ho
  refine ⟨List.mem_or_eq_of_mem_set, fun hx => ?_, List.mem_set hi v, List.mem_of_getElem? ho⟩
  obtain ⟨j, hj, e⟩ := List.mem_iff_getElem.1 hx
  by_cases hij : i = j
  · subst hij
    right
    rw [List.getElem?_eq_getElem hj, Option.some.injEq] at ho
    rw [← ho, e]
  · left
    refine List.mem_iff_getElem.2 ⟨j, by simpa using hj, ?_⟩
    rw [List.getElem_set_ne hij, e]

theorem reduceFold_ok {op : Rat → Rat → Rat} {init : Option Rat} {xs : List Rat}
    (h : init = none → xs ≠ []) : reduceFold op init xs = .ok (foldValue op init xs) := by
  match init, xs, h with
  | some i, xs, _ => rfl
  | none, x :: xs, _ => rfl
  | none, [], h => exact absurd rfl (h rfl)

theorem reduceOperand.ne {init : Option Rat} {x : Arr Rat} (h : reduceOperand init x) :
    init = none → x.data ≠ [] := by
  intro hn he
  obtain ⟨hw, h⟩ := h
  obtain ⟨hd, hp⟩ := h hn
  unfold Arr.WF at hw
  rw [hd, he] at hw
  simp at hw
  omega

theorem maxLoop_spec {init : Option Rat} (d : List (Update Rat)) :
    ∀ {a b : List Rat} {m : Rat}, IsMaxOf init a m → Replays a d b →
      ∃ r, maxLoop m d = .ok r ∧ ∀ m', r = some m' → IsMaxOf init b m' := by
  induction d with
  | nil => intro a b m h hr; simp at hr; subst hr; exact ⟨_, rfl, by rintro _ ⟨⟩; exact h⟩
  | cons u d ih =>
    intro a b m h hr
    obtain ⟨l, hl, hr'⟩ := replays_cons.1 hr
    obtain ⟨hm, hle, hinit⟩ := h
    rcases step_cases hl with ⟨v, rfl, rfl⟩ | ⟨v, rfl, rfl⟩ | ⟨o, v, ho, hu, rfl⟩
    · refine ih (m := max v m) ⟨?_, ?_, fun i hi => le_trans (hinit i hi) (le_max_right _ _)⟩ hr'
      · rcases le_total v m with hv | hv
        · rw [max_eq_right hv]
          exact hm.imp id (List.mem_append_left _)
        · rw [max_eq_left hv]; right; simp
      · intro x hx
        rcases List.mem_append.1 hx with hx | hx
        · exact le_trans (hle x hx) (le_max_right _ _)
        · simp at hx; subst hx; exact le_max_left _ _
    · by_cases hv : v ≥ m
      · exact ⟨none, by simp [maxLoop, hv], by simp⟩
      · have : maxLoop m (Update.removal l.length v :: d) = maxLoop m d := by simp [maxLoop, hv]
        rw [this]
        refine ih ⟨?_, fun x hx => hle x (List.mem_append_left _ hx), hinit⟩ hr'
        rcases hm with hm | hm
        · exact .inl hm
        · rcases List.mem_append.1 hm with hm | hm
          · exact .inr hm
          · simp at hm; exact absurd (le_of_eq hm) hv
    · have hs := fun x => mem_set_cases (v := v) (x := x) ho
      have hom : o ≤ m := hle o (hs 0).2.2.2
      rw [hu]
      simp only [maxLoop]
      split_ifs with h1 h2
      · refine ih (m := max v m) ⟨?_, ?_, fun i hi => le_trans (hinit i hi) (le_max_right _ _)⟩ hr'
        · rcases le_total v m with hv | hv
          · rw [max_eq_right hv]
            refine hm.imp id fun hm => ?_
            rcases (hs m).2.1 hm with hx | hx
            · exact hx
            · exact absurd (lt_of_lt_of_le h1 hv) (by rw [hx]; exact lt_irrefl _)
          · rw [max_eq_left hv]; right; exact (hs v).2.2.1
        · intro x hx
          rcases (hs x).1 hx with hx | hx
          · exact le_trans (hle x hx) (le_max_right _ _)
          · subst hx; exact le_max_left _ _
      · refine ⟨none, ?_, by simp⟩
        rw [guardUB_true (lt_of_le_of_ne (not_lt.1 h1) (Ne.symm h2.2))]
        rfl
      · refine ih ⟨?_, ?_, hinit⟩ hr'
        · refine hm.imp id fun hm => ?_
          rcases (hs m).2.1 hm with hx | hx
          · exact hx
          · have : o = v := by
              by_contra hn; exact h2 ⟨hx.symm, hn⟩
            rw [hx, this]; exact (hs v).2.2.1
        · intro x hx
          rcases (hs x).1 hx with hx | hx
          · exact hle x hx
          · subst hx; exact le_trans (not_lt.1 h1) hom

/-- `MaxNode` keeps the symbol contract. -/
def maxContract (init : Option Rat) : Contract ArrRel [] (maxNode init) :=
  reduceContract (fun _ => ()) (by
    intro x hx
    simp only [plainInit, reduceFold_ok hx.ne, Res.ok_bind]) (by
    intro x y d hx hy hr
    obtain ⟨r, e, h⟩ := maxLoop_spec d (foldValue_max hx.ne) hr.replays
    unfold maxPropagate
    simp only [e, Res.ok_bind]
    cases r with
    | none => simp only [reduceFold_ok hy.ne, Res.ok_bind]
    | some v => simp only [(h v rfl).unique (foldValue_max hy.ne)])

/-- C25, maximum.  The value is always `m` with: `m` is the initial value or an element, and no element
nor the initial value is greater. -/
theorem C25_max (init : Option Rat) :
    Incremental ArrRel [] (maxNode init)
      (fun xs => ⟨[], [foldValue max init (xs.headD ⟨[], []⟩).data]⟩)
      (fun xs => ∃ x, xs = [x] ∧ reduceOperand init x) ∧
    ∀ x, reduceOperand init x → IsMaxOf init x.data (foldValue max init x.data) :=
  ⟨(maxContract init).incremental, fun _ hx => foldValue_max hx.ne⟩


/-- `m` is the least of the elements and the initial value, if any. -/
def IsMinOf (init : Option Rat) (xs : List Rat) (m : Rat) : Prop :=
  (init = some m ∨ m ∈ xs) ∧ (∀ x ∈ xs, m ≤ x) ∧ ∀ i, init = some i → m ≤ i

theorem IsMinOf.unique {init : Option Rat} {xs : List Rat} {m n : Rat} (h : IsMinOf init xs m)
    (h' : IsMinOf init xs n) : m = n := by
  obtain ⟨a, b, c⟩ := h
  obtain ⟨a', b', c'⟩ := h'
  apply ge_antisymm
  · rcases a with a | a
    · exact c' _ a
    · exact b' _ a
  · rcases a' with a | a
    · exact c _ a
    · exact b _ a

theorem foldl_min (xs : List Rat) (i : Rat) : IsMinOf (some i) xs (xs.foldl min i) := by
  induction xs generalizing i with
  | nil => exact ⟨.inl rfl, by simp, by simp⟩
  | cons x xs ih =>
    obtain ⟨a, b, c⟩ := ih (min i x)
    have hc := c _ rfl
    rw [List.foldl_cons]
    refine ⟨?_, ?_, ?_⟩
    · rcases a with a | a
      · rw [Option.some.injEq] at a
        rw [← a]
        rcases le_total x i with h | h
        · right; rw [min_eq_right h]; exact List.mem_cons_self
        · left; rw [min_eq_left h]
      · exact .inr (List.mem_cons_of_mem _ a)
    · intro y hy
      rcases List.mem_cons.1 hy with rfl | hy
      · exact le_trans hc (min_le_right _ _)
      · exact b y hy
    · intro j hj
      cases hj
      exact le_trans hc (min_le_left _ _)

theorem foldValue_min {init : Option Rat} {xs : List Rat} (h : init = none → xs ≠ []) :
    IsMinOf init xs (foldValue min init xs) := by
  match init, xs, h with
  | some i, xs, _ => exact foldl_min xs i
  | none, x :: xs, _ =>
    obtain ⟨a, b, c⟩ := foldl_min xs x
    refine ⟨.inr ?_, ?_, by simp⟩
    · rcases a with a | a
      · simp only [Option.some.injEq] at a
        simp only [foldValue]
        rw [← a]; exact List.mem_cons_self
      · exact List.mem_cons_of_mem _ a
    · intro y hy
      rcases List.mem_cons.1 hy with rfl | hy
      · exact c _ rfl
      · exact b y hy
  | none, [], h => exact absurd rfl (h rfl)

theorem minLoop_spec {init : Option Rat} (d : List (Update Rat)) :
    ∀ {a b : List Rat} {m : Rat}, IsMinOf init a m → Replays a d b →
      ∃ r, minLoop m d = .ok r ∧ ∀ m', r = some m' → IsMinOf init b m' := by
  induction d with
  | nil => intro a b m h hr; simp at hr; subst hr; exact ⟨_, rfl, by rintro _ ⟨⟩; exact h⟩
  | cons u d ih =>
    intro a b m h hr
    obtain ⟨l, hl, hr'⟩ := replays_cons.1 hr
    obtain ⟨hm, hle, hinit⟩ := h
    rcases step_cases hl with ⟨v, rfl, rfl⟩ | ⟨v, rfl, rfl⟩ | ⟨o, v, ho, hu, rfl⟩
    · refine ih (m := min v m) ⟨?_, ?_, fun i hi => le_trans (min_le_right _ _) (hinit i hi)⟩ hr'
      · rcases le_total m v with hv | hv
        · rw [min_eq_right hv]
          exact hm.imp id (List.mem_append_left _)
        · rw [min_eq_left hv]; right; simp
      · intro x hx
        rcases List.mem_append.1 hx with hx | hx
        · exact le_trans (min_le_right _ _) (hle x hx)
        · simp at hx; subst hx; exact min_le_left _ _
    · by_cases hv : v ≤ m
      · exact ⟨none, by simp [minLoop, hv], by simp⟩
      · have : minLoop m (Update.removal l.length v :: d) = minLoop m d := by simp [minLoop, hv]
        rw [this]
        refine ih ⟨?_, fun x hx => hle x (List.mem_append_left _ hx), hinit⟩ hr'
        rcases hm with hm | hm
        · exact .inl hm
        · rcases List.mem_append.1 hm with hm | hm
          · exact .inr hm
          · simp at hm; exact absurd (ge_of_eq hm) hv
    · have hs := fun x => mem_set_cases (v := v) (x := x) ho
      have hom : m ≤ o := hle o (hs 0).2.2.2
      rw [hu]
      simp only [minLoop]
      split_ifs with h1 h2
      · refine ih (m := min v m) ⟨?_, ?_, fun i hi => le_trans (min_le_right _ _) (hinit i hi)⟩ hr'
        · rcases le_total m v with hv | hv
          · rw [min_eq_right hv]
            refine hm.imp id fun hm => ?_
            rcases (hs m).2.1 hm with hx | hx
            · exact hx
            · exact absurd (lt_of_le_of_lt hv h1) (by rw [hx]; exact lt_irrefl _)
          · rw [min_eq_left hv]; right; exact (hs v).2.2.1
        · intro x hx
          rcases (hs x).1 hx with hx | hx
          · exact le_trans (min_le_right _ _) (hle x hx)
          · subst hx; exact min_le_left _ _
      · refine ⟨none, ?_, by simp⟩
        rw [guardUB_true (lt_of_le_of_ne (not_lt.1 h1) h2.2)]
        rfl
      · refine ih ⟨?_, ?_, hinit⟩ hr'
        · refine hm.imp id fun hm => ?_
          rcases (hs m).2.1 hm with hx | hx
          · exact hx
          · have : o = v := by
              by_contra hn; exact h2 ⟨hx.symm, hn⟩
            rw [hx, this]; exact (hs v).2.2.1
        · intro x hx
          rcases (hs x).1 hx with hx | hx
          · exact hle x hx
          · subst hx; exact le_trans hom (not_lt.1 h1)

/-- `MinNode` keeps the symbol contract. -/
def minContract (init : Option Rat) : Contract ArrRel [] (minNode init) :=
  reduceContract (fun _ => ()) (by
    intro x hx
    simp only [plainInit, reduceFold_ok hx.ne, Res.ok_bind]) (by
    intro x y d hx hy hr
    obtain ⟨r, e, h⟩ := minLoop_spec d (foldValue_min hx.ne) hr.replays
    unfold minPropagate
    simp only [e, Res.ok_bind]
    cases r with
    | none => simp only [reduceFold_ok hy.ne, Res.ok_bind]
    | some v => simp only [(h v rfl).unique (foldValue_min hy.ne)])

/-- C25, minimum.  The value is always `m` with: `m` is the initial value or an element, and no element
nor the initial value is less. -/
theorem C25_min (init : Option Rat) :
    Incremental ArrRel [] (minNode init)
      (fun xs => ⟨[], [foldValue min init (xs.headD ⟨[], []⟩).data]⟩)
      (fun xs => ∃ x, xs = [x] ∧ reduceOperand init x) ∧
    ∀ x, reduceOperand init x → IsMinOf init x.data (foldValue min init x.data) :=
  ⟨(minContract init).incremental, fun _ hx => foldValue_min hx.ne⟩


/-! A dynamic array with a zero, which loses it, is reverted, and then grows. -/

private def rounds : List (Round (Arr Rat) (List (Update Rat))) :=
  [⟨[(⟨[-1], [3, 5]⟩, [Update.removal 2 0, Update.change 1 2 5])], false⟩,
    ⟨[(⟨[-1], [3, -4, 0, 7]⟩, [Update.change 1 2 (-4), Update.placement 3 7])], true⟩,
    ⟨[(⟨[-1], [3, -4]⟩, [Update.removal 3 7, Update.removal 2 0])], true⟩]

example : Legal ArrRel (fun xs => ∃ x, xs = [x]) [⟨[-1], [3, 2, 0]⟩] rounds [⟨[-1], [3, -4]⟩] := by
  refine .cons (ys := [⟨[-1], [3, 5]⟩]) (.cons (by decide +kernel) .nil) ⟨_, rfl⟩ ?_
  refine .cons (ys := [⟨[-1], [3, -4, 0, 7]⟩]) (.cons (by decide +kernel) .nil) ⟨_, rfl⟩ ?_
  exact .cons (ys := [⟨[-1], [3, -4]⟩]) (.cons (by decide +kernel) .nil) ⟨_, rfl⟩ .nil

example : (sumNode 10).after [⟨[-1], [3, 2, 0]⟩] rounds = .ok (⟨[], [9]⟩, []) := by decide +kernel
example : (prodNode 10).after [⟨[-1], [3, 2, 0]⟩] rounds = .ok (⟨[], [-120]⟩, []) := by decide +kernel
example : (allNode 1).after [⟨[-1], [3, 2, 0]⟩] rounds = .ok (⟨[], [1]⟩, []) := by decide +kernel
example : (anyNode 0).after [⟨[-1], [3, 2, 0]⟩] rounds = .ok (⟨[], [1]⟩, []) := by decide +kernel
example : (maxNode (some 1)).after [⟨[-1], [3, 2, 0]⟩] rounds = .ok (⟨[], [3]⟩, []) := by decide +kernel
example : (minNode (some 1)).after [⟨[-1], [3, 2, 0]⟩] rounds = .ok (⟨[], [-4]⟩, []) := by decide +kernel
example : reduceOperand (some 1) ⟨[-1], [3, 2, 0]⟩ := by
  refine ⟨by decide +kernel, by simp⟩
example : reduceOperand none ⟨[2, 2], [3, 2, 0, 1]⟩ := by
  refine ⟨by decide +kernel, fun _ => by decide +kernel⟩
/-- The sum while a change is pending. -/
example : (do
    let s ← (sumNode 10).init [⟨[2], [3, 2]⟩]
    let s ← (sumNode 10).propagate s [(⟨[2], [4, 2]⟩, [Update.change 0 3 4])]
    .ok ((sumNode 10).view s, (sumNode 10).diff s) : Res _) =
      .ok (⟨[], [16]⟩, [Update.change 0 15 16]) := by decide +kernel

end Verif
