import Verif.Lemmas.Floating
import Verif.Spec.Drift
import Mathlib.Algebra.Order.Round
import Mathlib.Tactic.Positivity
import Mathlib.Tactic.Linarith
import Mathlib.Tactic.Ring
import Mathlib.Tactic.NormNum

/-!
# How far rounding errors can add up
-/

namespace Verif

/-- Doubles are multiples of the least one. -/
theorem IsDouble.multiple {q : Rat} (h : IsDouble q) : ∃ z : Int, q = z * (2 : Rat) ^ (-1074 : Int) := by
  obtain ⟨m, e, _, he, _, rfl⟩ := h
  exact multiple_of_le he m

/-- The error of one rounding. -/
theorem Rounding.error {fl : Rat → Rat} (R : Rounding fl) {q : Rat} (hq : |q| ≤ greatestDouble) :
    |fl q - q| ≤ |q| / 2 ^ 53 ∨ (|fl q - q| ≤ (2 : Rat) ^ (-1075 : Int) ∧ |q| < 2 ^ 53 * (2 : Rat) ^ (-1074 : Int)) := by
  have hn := R.nearest q hq _ (roundDouble_rounding.double q hq)
  have hu := two_zpow_pos (lastBit q)
  have hr : |roundDouble q - q| ≤ (2 : Rat) ^ lastBit q / 2 := by
    have h := abs_sub_round (q / (2 : Rat) ^ lastBit q)
    have e : roundDouble q - q = -((q / (2 : Rat) ^ lastBit q - round (q / (2 : Rat) ^ lastBit q)) * (2 : Rat) ^ lastBit q) := by
      unfold roundDouble
      rw [sub_mul, div_mul_cancel₀ _ hu.ne']
      ring
    rw [e, abs_neg, abs_mul, abs_of_pos hu]
    calc _ ≤ 1 / 2 * (2 : Rat) ^ lastBit q := mul_le_mul_of_nonneg_right h hu.le
      _ = _ := by ring
  obtain ⟨h1, h2⟩ := lastBit_spec hq
  rcases h2 with h2 | h2
  · right
    rw [h2] at hr h1
    refine ⟨le_trans hn (le_trans hr (le_of_eq ?_)), h1⟩
    rw [show (-1074 : Int) = -1075 + 1 by norm_num, zpow_add_one₀ (by norm_num)]
    ring
  · left
    refine le_trans hn (le_trans hr ?_)
    rw [le_div_iff₀ (by norm_num)]
    calc (2 : Rat) ^ lastBit q / 2 * 2 ^ 53 = 2 ^ 52 * (2 : Rat) ^ lastBit q := by ring
      _ ≤ |q| := h2

/-- Sums of doubles are rounded by at most one part in 2^53. -/
theorem Rounding.error_add {fl : Rat → Rat} (R : Rounding fl) {a b : Rat} (ha : IsDouble a) (hb : IsDouble b)
    (hq : |a + b| ≤ greatestDouble) : |fl (a + b) - (a + b)| ≤ |a + b| / 2 ^ 53 := by
  rcases R.error hq with h | ⟨_, h⟩
  · exact h
  · obtain ⟨x, hx⟩ := ha.multiple
    obtain ⟨y, hy⟩ := hb.multiple
    have e : a + b = ((x + y : Int) : Rat) * (2 : Rat) ^ (-1074 : Int) := by
      rw [hx, hy, Int.cast_add, add_mul]
    have hd : IsDouble (a + b) := by
      refine ⟨x + y, -1074, ?_, le_refl _, by norm_num, e⟩
      rw [e, abs_mul, abs_of_pos (two_zpow_pos _), ← Int.cast_abs] at h
      have := lt_of_mul_lt_mul_right h (two_zpow_pos _).le
      exact_mod_cast this
    rw [R.exact hd hq, sub_self, abs_zero]
    positivity

theorem IsDouble.neg {a : Rat} (h : IsDouble a) : IsDouble (-a) := by
  obtain ⟨m, e, h1, h2, h3, rfl⟩ := h
  exact ⟨-m, e, by rwa [abs_neg], h2, h3, by rw [Int.cast_neg, neg_mul]⟩

theorem Rounding.error_sub {fl : Rat → Rat} (R : Rounding fl) {a b : Rat} (ha : IsDouble a) (hb : IsDouble b)
    (hq : |a - b| ≤ greatestDouble) : |fl (a - b) - (a - b)| ≤ |a - b| / 2 ^ 53 := by
  rw [sub_eq_add_neg a b] at hq ⊢
  exact R.error_add ha hb.neg hq

/-! ## Growing errors -/

/-- The factor by which `j` roundings may enlarge a number. -/
def grow (j : Nat) : Rat := (1 + 1 / 2 ^ 53) ^ j

theorem grow_zero : grow 0 = 1 := by simp [grow]
theorem grow_succ (j : Nat) : grow (j + 1) = grow j * (1 + 1 / 2 ^ 53) := pow_succ _ _
theorem grow_mono {i j : Nat} (h : i ≤ j) : grow i ≤ grow j := pow_le_pow_right₀ (by norm_num) h
theorem one_le_grow (j : Nat) : 1 ≤ grow j := one_le_pow₀ (by norm_num)

theorem grow_le : ∀ {j : Nat}, j ≤ 2 ^ 52 → grow j ≤ 1 + j / 2 ^ 52 := by
  intro j
  induction j with
  | zero => intro _; simp [grow]
  | succ j ih =>
    intro h
    have hj : (j : Rat) ≤ 2 ^ 52 := by exact_mod_cast (by omega : j ≤ 2 ^ 52)
    have h0 : (0 : Rat) ≤ j := by positivity
    have := ih (by omega)
    rw [grow_succ]
    push_cast
    have h1 : grow j * (1 + 1 / 2 ^ 53) ≤ (1 + j / 2 ^ 52) * (1 + 1 / 2 ^ 53) := mul_le_mul_of_nonneg_right this (by norm_num)
    have h2 : (j : Rat) / 2 ^ 52 ≤ 1 := (div_le_one (by norm_num)).2 hj
    have h3 : (1 + (j : Rat) / 2 ^ 52) * (1 + 1 / 2 ^ 53) = 1 + j / 2 ^ 52 + (1 + j / 2 ^ 52) / 2 ^ 53 := by ring
    have h4 : (1 + ((j : Rat) + 1) / 2 ^ 52) = 1 + j / 2 ^ 52 + 2 / 2 ^ 53 := by ring
    have h5 : (1 + (j : Rat) / 2 ^ 52) / 2 ^ 53 ≤ 2 / 2 ^ 53 := div_le_div_of_nonneg_right (by linarith) (by norm_num)
    linarith

/-! ## Summing in any order -/

theorem magnitudes_nonneg (l : List Rat) : 0 ≤ magnitudes l := by
  unfold magnitudes
  apply List.sum_nonneg
  intro x hx
  obtain ⟨y, _, rfl⟩ := List.mem_map.1 hx
  exact abs_nonneg y

theorem abs_sum_le (l : List Rat) : |l.sum| ≤ magnitudes l := by
  induction l with
  | nil => simp [magnitudes]
  | cons x l ih =>
    have e : magnitudes (x :: l) = |x| + magnitudes l := by simp [magnitudes]
    rw [List.sum_cons, e]
    exact le_trans (abs_add_le _ _) (by linarith)

theorem magnitudes_le {D : Rat} : ∀ {l : List Rat}, (∀ x ∈ l, |x| ≤ D) → magnitudes l ≤ l.length * D := by
  intro l
  induction l with
  | nil => intro _; simp [magnitudes]
  | cons x l ih =>
    intro h
    have h1 := ih (fun y hy => h y (List.mem_cons_of_mem _ hy))
    have h2 := h x List.mem_cons_self
    have e : magnitudes (x :: l) = |x| + magnitudes l := by simp [magnitudes]
    rw [e, List.length_cons]
    push_cast
    linarith

theorem Combines.length_pos {op : Rat → Rat → Rat} {l : List Rat} {v : Rat} (h : Combines op l v) : 1 ≤ l.length := by
  induction h with
  | one => simp
  | join hp _ _ ih1 _ =>
    have := hp.length_eq
    simp at this
    omega

/-- The error of a sum of doubles, whatever the order. -/
theorem Combines.error {fl : Rat → Rat} (R : Rounding fl) {l : List Rat} {v : Rat} (h : Combines (flAdd fl) l v)
    (hd : ∀ x ∈ l, IsDouble x) (hb : grow l.length * magnitudes l ≤ greatestDouble) :
    IsDouble v ∧ |v - l.sum| ≤ (grow (l.length - 1) - 1) * magnitudes l := by
  induction h with
  | one x => exact ⟨hd x (by simp), by simp [grow]⟩
  | join hp c1 c2 ih1 ih2 =>
    rename_i xs ys zs a b
    have hs : xs.sum = ys.sum + zs.sum := by rw [← hp.sum_eq, List.sum_append]
    have hm : magnitudes xs = magnitudes ys + magnitudes zs := by
      unfold magnitudes
      rw [← (hp.map _).sum_eq, List.map_append, List.sum_append]
    have hl : xs.length = ys.length + zs.length := by rw [← hp.length_eq, List.length_append]
    have p1 := c1.length_pos
    have p2 := c2.length_pos
    have n1 := magnitudes_nonneg ys
    have n2 := magnitudes_nonneg zs
    have g0 := one_le_grow xs.length
    have mono : ∀ k ≤ xs.length, ∀ m, 0 ≤ m → m ≤ magnitudes xs → grow k * m ≤ greatestDouble := by
      intro k hk m hm0 hm1
      refine le_trans ?_ hb
      exact mul_le_mul (grow_mono hk) hm1 hm0 (by linarith)
    obtain ⟨d1, e1⟩ := ih1 (fun x hx => hd x (hp.subset (List.mem_append_left _ hx))) (mono _ (by omega) _ n1 (by linarith))
    obtain ⟨d2, e2⟩ := ih2 (fun x hx => hd x (hp.subset (List.mem_append_right _ hx))) (mono _ (by omega) _ n2 (by linarith))
    -- a common factor
    have k1 : (grow (ys.length - 1) - 1) * magnitudes ys ≤ (grow (xs.length - 2) - 1) * magnitudes ys :=
      mul_le_mul_of_nonneg_right (by linarith [grow_mono (show ys.length - 1 ≤ xs.length - 2 by omega)]) n1
    have k2 : (grow (zs.length - 1) - 1) * magnitudes zs ≤ (grow (xs.length - 2) - 1) * magnitudes zs :=
      mul_le_mul_of_nonneg_right (by linarith [grow_mono (show zs.length - 1 ≤ xs.length - 2 by omega)]) n2
    generalize hg : grow (xs.length - 2) = g at k1 k2
    have hg1 : 1 ≤ g := hg ▸ one_le_grow _
    have eg : grow (xs.length - 1) = g * (1 + 1 / 2 ^ 53) := by
      rw [← hg, ← grow_succ]; congr 1; omega
    have hab : |a + b - xs.sum| ≤ (g - 1) * magnitudes xs := by
      have e : a + b - xs.sum = (a - ys.sum) + (b - zs.sum) := by rw [hs]; ring
      rw [e, hm]
      refine le_trans (abs_add_le _ _) ?_
      have : (g - 1) * (magnitudes ys + magnitudes zs) = (g - 1) * magnitudes ys + (g - 1) * magnitudes zs := by ring
      linarith
    have habs : |a + b| ≤ g * magnitudes xs := by
      have e : a + b = (a + b - xs.sum) + xs.sum := by ring
      have h1 := abs_add_le (a + b - xs.sum) xs.sum
      rw [← e] at h1
      have h2 := abs_sum_le xs
      have : g * magnitudes xs = (g - 1) * magnitudes xs + magnitudes xs := by ring
      linarith
    have hq : |a + b| ≤ greatestDouble := by
      refine le_trans habs ?_
      rw [← hg]
      exact mono _ (by omega) _ (magnitudes_nonneg _) (le_refl _)
    have he := R.error_add d1 d2 hq
    refine ⟨R.double _ hq, ?_⟩
    unfold flAdd
    have e : fl (a + b) - xs.sum = (fl (a + b) - (a + b)) + (a + b - xs.sum) := by ring
    rw [e, eg]
    refine le_trans (abs_add_le _ _) ?_
    have h3 : |a + b| / 2 ^ 53 ≤ g * magnitudes xs / 2 ^ 53 := div_le_div_of_nonneg_right habs (by norm_num)
    have h4 : (g * (1 + 1 / 2 ^ 53) - 1) * magnitudes xs = g * magnitudes xs / 2 ^ 53 + (g - 1) * magnitudes xs := by ring
    linarith

/-! ## Histories -/

/-- What holds of a loop over a diff. -/
theorem foldlM_good {S : Type} (Good : Nat → List Rat → S → Prop) {step : S → Update Rat → Res S} {limit : Nat} {P : Update Rat → Prop}
    (hstep : ∀ j l u m s, Good j l s → P u → u.step l = some m → j + 1 ≤ limit → ∃ s', step s u = .ok s' ∧ Good (j + 1) m s') :
    ∀ (d : List (Update Rat)) (j : Nat) (a b : List Rat) (s : S), Good j a s → (∀ u ∈ d, P u) → Replays a d b → j + d.length ≤ limit →
      ∃ s', d.foldlM step s = .ok s' ∧ Good (j + d.length) b s' := by
  intro d
  induction d with
  | nil =>
    intro j a b s hg _ hr _
    simp only [replays_nil] at hr
    subst hr
    exact ⟨s, rfl, hg⟩
  | cons u d ih =>
    intro j a b s hg hP hr hl
    obtain ⟨m, hm, hr'⟩ := replays_cons.1 hr
    rw [List.length_cons] at hl
    obtain ⟨s1, e1, g1⟩ := hstep j a u m s hg (hP u List.mem_cons_self) hm (by omega)
    obtain ⟨s2, e2, g2⟩ := ih (j + 1) m b s1 g1 (fun v hv => hP v (List.mem_cons_of_mem _ hv)) hr' (by omega)
    refine ⟨s2, by rw [List.foldlM_cons, e1]; exact e2, ?_⟩
    rw [List.length_cons, show j + (d.length + 1) = j + 1 + d.length by omega]
    exact g2

/-- Reductions that stay good drift as far as goodness says. -/
theorem reduce_drifts {E : Type} {f0 : List Rat → Rat} {ok0 : Arr Rat → Prop} {init : List Rat → Res (Rat × E)}
    {prop : Rat × E → List Rat → List (Update Rat) → Res (Rat × E)} (Good : Nat → List Rat → Rat × E → Prop)
    {relIn : Arr Rat → List (Update Rat) → Arr Rat → Prop} {ok : Arr Rat → Prop} {f : Arr Rat → Rat} {bound : Nat → Arr Rat → Rat}
    {limit : Nat} (hinit : ∀ x, ok x → ∃ p, init x.data = .ok p ∧ Good 0 x.data p)
    (hprop : ∀ j x d y p, ok x → ok y → relIn x d y → j + d.length ≤ limit → Good j x.data p →
      ∃ p', prop p y.data d = .ok p' ∧ Good (j + d.length) y.data p')
    (hb : ∀ j x p, ok x → j ≤ limit → Good j x.data p → |p.1 - f x| ≤ bound j x) :
    Drifts relIn (reduceNode E f0 ok0 init prop) f ok bound limit := by
  intro x0 h0 rounds x hl hlim
  obtain ⟨p0, e0, g0⟩ := hinit x0 h0
  have key : ∀ {xs rounds zs}, Legal relIn (fun xs => ∃ x, xs = [x] ∧ ok x) xs rounds zs → ∀ x z j p, xs = [x] → zs = [z] → ok x →
      Good j x.data p → j + allChanges rounds ≤ limit →
      ∃ q, rounds.foldlM (reduceNode E f0 ok0 init prop).round (ReduceState.mk' p.1 p.2) = .ok (ReduceState.mk' q.1 q.2) ∧
        Good (j + committedChanges rounds) z.data q ∧ ok z := by
    intro xs rounds zs hl
    induction hl with
    | nil =>
      intro x z j p hx hz ho hg _
      rw [hx] at hz
      cases hz
      exact ⟨p, rfl, by simpa [committedChanges, allChanges] using hg, ho⟩
    | cons hi hy _ ih =>
      rename_i xs ys zs r rs _
      rintro x z j p rfl hz ho hg hlim
      obtain ⟨d, y, hri, rfl, hr⟩ := hi.one
      obtain ⟨y', hyy, hoy⟩ := hy
      cases hyy
      have hc : r.changes = d.length := by unfold Round.changes; rw [hri]; simp
      have ha : allChanges (r :: rs) = d.length + allChanges rs := by unfold allChanges; rw [List.map_cons, List.sum_cons, hc]
      rw [ha] at hlim
      obtain ⟨q, eq, gq⟩ := hprop j x d y p ho hoy hr (by omega) hg
      have e1 : (reduceNode E f0 ok0 init prop).propagate (ReduceState.mk' p.1 p.2) r.ins =
          .ok ⟨p.1, q.1, q.2, p.2⟩ := by
        rw [hri]
        simp only [ReduceState.mk', eq, Res.ok_bind]
      cases hr2 : r.accept with
      | true =>
        rw [hr2] at ih
        obtain ⟨q', e', g'⟩ := ih y z (j + d.length) q rfl hz hoy gq (by omega)
        refine ⟨q', ?_, ?_⟩
        · have e2 : (reduceNode E f0 ok0 init prop).round (ReduceState.mk' p.1 p.2) r = .ok (ReduceState.mk' q.1 q.2) := by
            unfold NodeSem.round
            rw [e1, Res.ok_bind, hr2]
            rfl
          rw [List.foldlM_cons, e2]
          exact e'
        · have : committedChanges (r :: rs) = d.length + committedChanges rs := by
            unfold committedChanges
            rw [List.filter_cons_of_pos (by simpa using hr2)]
            unfold allChanges
            rw [List.map_cons, List.sum_cons, hc]
          rw [this, ← Nat.add_assoc]
          exact g'
      | false =>
        rw [hr2] at ih
        obtain ⟨q', e', g'⟩ := ih x z j p rfl hz ho hg (by omega)
        refine ⟨q', ?_, ?_⟩
        · have e2 : (reduceNode E f0 ok0 init prop).round (ReduceState.mk' p.1 p.2) r = .ok (ReduceState.mk' p.1 p.2) := by
            unfold NodeSem.round
            rw [e1, Res.ok_bind, hr2]
            rfl
          rw [List.foldlM_cons, e2]
          exact e'
        · have : committedChanges (r :: rs) = committedChanges rs := by
            unfold committedChanges
            rw [List.filter_cons_of_neg (by simp [hr2])]
          rw [this]
          exact g'
  have hle : committedChanges rounds ≤ allChanges rounds := by
    unfold committedChanges allChanges
    exact ((List.filter_sublist (p := fun r => r.accept) (l := rounds)).map Round.changes).sum_le_sum (by simp)
  obtain ⟨q, eq, gq, ho⟩ := key hl x0 x 0 p0 rfl rfl h0 g0 (by omega)
  rw [Nat.zero_add] at gq
  refine ⟨ReduceState.mk' p0.1 p0.2, ReduceState.mk' q.1 q.2, q.1, by simp only [e0, Res.ok_bind], eq, rfl,
    by simp [ReduceState.diff, ReduceState.mk'], hb _ x q ho (by omega) gq, ?_⟩
  intro d y hr hoy hlim2
  obtain ⟨q', eq', gq'⟩ := hprop _ x d y q ho hoy hr (by omega) gq
  refine ⟨⟨q.1, q'.1, q'.2, q.2⟩, q'.1, by simp only [ReduceState.mk', eq', Res.ok_bind], rfl, hb _ y q' hoy (by omega) gq', rfl, ?_, ?_⟩
  · simp only [ReduceState.diff]
    split_ifs with h
    · simp [Replays, Update.step, Update.change]
    · have : q.1 = q'.1 := by simpa using h
      simp [Replays, this]
  · intro _ u hu
    simp only [ReduceState.diff] at hu
    split_ifs at hu with h
    · simp at hu; subst hu; rfl
    · simp at hu

end Verif
