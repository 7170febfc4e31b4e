import Verif.Lemmas.Rounding
import Verif.Lemmas.NodeBase
import Verif.Model.Floating
import Verif.Props.Reduce

/-!
# Rounding that rounds nothing
-/

namespace Verif

/-! ## Whole numbers -/

theorem Whole.mono {M N : Int} {x : Rat} (h : Whole M x) (hl : M ≤ N) : Whole N x := by
  obtain ⟨z, hz, rfl⟩ := h
  exact ⟨z, le_trans hz hl, rfl⟩

theorem Whole.nonneg {M : Int} {x : Rat} (h : Whole M x) : 0 ≤ M := by
  obtain ⟨z, hz, rfl⟩ := h
  exact le_trans (abs_nonneg z) hz

theorem whole_zero {M : Int} (h : 0 ≤ M) : Whole M 0 := ⟨0, by simpa using h, by simp⟩

theorem Whole.add {M N : Int} {x y : Rat} (hx : Whole M x) (hy : Whole N y) : Whole (M + N) (x + y) := by
  obtain ⟨a, ha, rfl⟩ := hx
  obtain ⟨b, hb, rfl⟩ := hy
  exact ⟨a + b, le_trans (abs_add_le a b) (add_le_add ha hb), by push_cast; rfl⟩

theorem Whole.neg {M : Int} {x : Rat} (hx : Whole M x) : Whole M (-x) := by
  obtain ⟨a, ha, rfl⟩ := hx
  exact ⟨-a, by rwa [abs_neg], by push_cast; rfl⟩

theorem Whole.sub {M N : Int} {x y : Rat} (hx : Whole M x) (hy : Whole N y) : Whole (M + N) (x - y) := by
  rw [sub_eq_add_neg]; exact hx.add hy.neg

theorem Whole.mul {M N : Int} {x y : Rat} (hx : Whole M x) (hy : Whole N y) : Whole (M * N) (x * y) := by
  obtain ⟨a, ha, rfl⟩ := hx
  obtain ⟨b, hb, rfl⟩ := hy
  refine ⟨a * b, ?_, by push_cast; rfl⟩
  rw [abs_mul]
  exact mul_le_mul ha hb (abs_nonneg b) (le_trans (abs_nonneg a) ha)

theorem whole_sum {M : Int} : ∀ {l : List Rat}, (∀ x ∈ l, Whole M x) → Whole (l.length * M) l.sum
  | [], _ => by simpa using whole_zero (le_refl 0)
  | x :: l, h => by
    have h1 := h x List.mem_cons_self
    have h2 := whole_sum (fun y hy => h y (List.mem_cons_of_mem _ hy))
    have := h1.add h2
    rw [List.sum_cons]
    refine this.mono ?_
    simp only [List.length_cons]
    push_cast
    linarith

theorem KeepsWhole.eq {fl : Rat → Rat} (K : KeepsWhole fl) {M : Int} {x : Rat} (h : Whole M x) (hM : M ≤ 2 ^ 53) : fl x = x := by
  obtain ⟨z, hz, rfl⟩ := h
  exact K z (le_trans hz hM)

/-! ## Summing in any order -/

/-- The sum of the magnitudes. -/
def magnitudes (l : List Rat) : Rat := (l.map (fun x => |x|)).sum

theorem Combines.sum_eq {fl : Rat → Rat} (K : KeepsWhole fl) {l : List Rat} {v : Rat} (h : Combines (flAdd fl) l v)
    (hw : ∀ x ∈ l, ∃ z : Int, x = z) (hM : magnitudes l ≤ 2 ^ 53) : v = l.sum ∧ (∃ z : Int, v = z) ∧ |v| ≤ magnitudes l := by
  induction h with
  | one x =>
    refine ⟨by simp, hw x (by simp), by simp [magnitudes]⟩
  | join hp _ _ ih1 ih2 =>
    rename_i xs ys zs a b _ _
    have hs : xs.sum = ys.sum + zs.sum := by rw [← hp.sum_eq, List.sum_append]
    have hm : magnitudes xs = magnitudes ys + magnitudes zs := by
      unfold magnitudes
      rw [← (hp.map _).sum_eq, List.map_append, List.sum_append]
    have hn : ∀ l : List Rat, 0 ≤ magnitudes l := by
      intro l
      unfold magnitudes
      apply List.sum_nonneg
      intro x hx
      obtain ⟨y, _, rfl⟩ := List.mem_map.1 hx
      exact abs_nonneg y
    have n1 := hn ys
    have n2 := hn zs
    obtain ⟨e1, ⟨z1, w1⟩, b1⟩ := ih1 (fun x hx => hw x (hp.subset (List.mem_append_left _ hx))) (by linarith)
    obtain ⟨e2, ⟨z2, w2⟩, b2⟩ := ih2 (fun x hx => hw x (hp.subset (List.mem_append_right _ hx))) (by linarith)
    have hb : |a + b| ≤ magnitudes xs := by
      rw [hm]; exact le_trans (abs_add_le a b) (add_le_add b1 b2)
    have hf : flAdd fl a b = a + b := by
      unfold flAdd
      rw [w1, w2, ← Int.cast_add]
      apply K
      have : ((|z1 + z2| : Int) : Rat) ≤ 2 ^ 53 := by
        push_cast
        rw [← w1, ← w2]
        linarith
      exact_mod_cast this
    refine ⟨by rw [hf, hs, e1, e2], ⟨z1 + z2, by rw [hf, w1, w2]; push_cast; rfl⟩, by rw [hf]; exact hb⟩

/-- With bounds for the elements. -/
theorem Combines.whole {fl : Rat → Rat} (K : KeepsWhole fl) {init : Rat} {l : List Rat} {v : Rat} {I M : Int} {n : Nat}
    (h : Combines (flAdd fl) (init :: l) v) (hi : Whole I init) (hw : ∀ x ∈ l, Whole M x) (hn : l.length ≤ n) (hM0 : 0 ≤ M)
    (hM : I + n * M ≤ 2 ^ 53) : v = init + l.sum := by
  have hb : ∀ (l : List Rat), (∀ x ∈ l, Whole M x) → magnitudes l ≤ ((l.length * M : Int) : Rat) := by
    intro l
    induction l with
    | nil => intro _; simp [magnitudes]
    | cons x l ih =>
      intro hw
      have h1 := ih (fun y hy => hw y (List.mem_cons_of_mem _ hy))
      obtain ⟨z, hz, rfl⟩ := hw x List.mem_cons_self
      have h2 : |(z : Rat)| ≤ M := by rw [← Int.cast_abs]; exact_mod_cast hz
      unfold magnitudes at h1 ⊢
      rw [List.map_cons, List.sum_cons, List.length_cons]
      push_cast at h1 ⊢
      linarith
  have hbl := hb l hw
  have hmul : ((l.length * M : Int) : Rat) ≤ ((n * M : Int) : Rat) := by
    have : (l.length : Int) * M ≤ n * M := mul_le_mul_of_nonneg_right (by exact_mod_cast hn) hM0
    exact_mod_cast this
  have hi' : |init| ≤ I := by
    obtain ⟨z, hz, rfl⟩ := hi
    rw [← Int.cast_abs]; exact_mod_cast hz
  have hM' : (I : Rat) + ((n * M : Int) : Rat) ≤ 2 ^ 53 := by exact_mod_cast hM
  have := (h.sum_eq K (by
    intro x hx
    rcases List.mem_cons.1 hx with rfl | hx
    · exact hi.imp fun z h => h.2
    · exact (hw x hx).imp fun z h => h.2) (by
    have : magnitudes (init :: l) = |init| + magnitudes l := by simp [magnitudes]
    rw [this]
    linarith)).1
  rw [this, List.sum_cons]

theorem Combines.perm {op : Rat → Rat → Rat} {xs ys : List Rat} {v : Rat} (h : Combines op xs v) (hp : xs.Perm ys) :
    Combines op ys v := by
  cases h with
  | one =>
    rw [List.perm_singleton.1 hp.symm]
    exact .one _
  | join hq h1 h2 => exact .join (hq.trans hp) h1 h2

/-- Adding from the left is one of the ways. -/
theorem combines_foldl (op : Rat → Rat → Rat) (l : List Rat) : ∀ x, Combines op (x :: l) (l.foldl op x) := by
  have key : ∀ (l : List Rat) (pre : List Rat) (v : Rat), Combines op pre v → Combines op (pre ++ l) (l.foldl op v) := by
    intro l
    induction l with
    | nil => intro pre v h; simpa using h
    | cons y l ih =>
      intro pre v h
      have := ih (pre ++ [y]) (op v y) (.join (List.Perm.refl _) h (.one y))
      simpa using this
  intro x
  exact key l [x] x (.one x)

/-! ## Symbols that run alike -/

/-- Two loops that agree as long as something holds. -/
theorem foldlM_agree {S U : Type} {step step' : S → U → Res S} (Inv : S → List U → Prop)
    (h : ∀ s u d, Inv s (u :: d) → step' s u = step s u ∧ ∀ s1, step s u = .ok s1 → Inv s1 d) :
    ∀ (d : List U) (s : S), Inv s d → d.foldlM step' s = d.foldlM step s := by
  intro d
  induction d with
  | nil => intro s _; rfl
  | cons u d ih =>
    intro s hi
    obtain ⟨e, hn⟩ := h s u d hi
    rw [List.foldlM_cons, List.foldlM_cons, e]
    cases hs : step s u with
    | ok s1 => exact ih s1 (hn s1 hs)
    | throw => rfl
    | ub => rfl

/-- A symbol `N` that does what `N'` does, on states of the form `e s`, as long as operands are acceptable, keeps what `N'` keeps. -/
theorem IncrementalWithin.imitate {V D : Type} {rel relIn : V → D → V → Prop} {quiet : D} {N N' : NodeSem V D}
    (C : Contract rel quiet N') (e : N'.σ → N.σ) {ok : List V → Prop} (hok : ∀ xs, ok xs → N'.ok xs)
    (hrel : ∀ x d y, relIn x d y → rel x d y)
    (hview : ∀ s, N.view (e s) = N'.view s) (hdiff : ∀ s, N.diff (e s) = N'.diff s)
    (hcommit : ∀ s c, N'.commit s = .ok c → N.commit (e s) = .ok (e c))
    (hrevert : ∀ s c, N'.revert s = .ok c → N.revert (e s) = .ok (e c))
    (hinit : ∀ xs s, ok xs → N'.init xs = .ok s → N.init xs = .ok (e s))
    (hprop : ∀ s xs ins ys s', C.Clean s xs → ok xs → ok ys → Ins relIn xs ins ys → N'.propagate s ins = .ok s' →
      N.propagate (e s) ins = .ok (e s')) :
    IncrementalWithin relIn rel quiet N N'.f ok := by
  have hins : ∀ {xs ins ys}, Ins relIn xs ins ys → Ins rel xs ins ys := by
    intro xs ins ys h
    induction h with
    | nil => exact .nil
    | cons h _ ih => exact .cons (hrel _ _ _ h) ih
  intro xs0 h0 rounds xs hl
  obtain ⟨s0, e0, c0⟩ := C.init (hok _ h0)
  have key : ∀ {xs rounds zs}, Legal relIn ok xs rounds zs → ∀ s, ok xs → C.Clean s xs →
      ∃ s', rounds.foldlM N.round (e s) = .ok (e s') ∧ C.Clean s' zs ∧ ok zs := by
    intro xs rounds zs hl
    induction hl with
    | nil => intro s ho hc; exact ⟨s, rfl, hc, ho⟩
    | cons hi hy _ ih =>
      rename_i xs ys zs r rs _
      intro s ho hc
      obtain ⟨s1, e1, _, _, ⟨c, ec, hcc⟩, ⟨b, eb, hcb⟩⟩ := C.propagate hc (hok _ ho) (hok _ hy) (hins hi)
      have e1' := hprop _ _ _ _ _ hc ho hy hi e1
      cases hr : r.accept with
      | true =>
        rw [hr] at ih
        obtain ⟨s', e', h'⟩ := ih c hy hcc
        refine ⟨s', ?_, h'⟩
        simp only [List.foldlM_cons, NodeSem.round, e1', Res.ok_bind, hr, if_true, hcommit _ _ ec]
        exact e'
      | false =>
        rw [hr] at ih
        obtain ⟨s', e', h'⟩ := ih b ho hcb
        refine ⟨s', ?_, h'⟩
        simp only [List.foldlM_cons, NodeSem.round, e1', Res.ok_bind, hr, hrevert _ _ eb]
        exact e'
  obtain ⟨s, es, hc, ho⟩ := key hl s0 h0 c0
  refine ⟨e s0, e s, hinit _ _ h0 e0, es, by rw [hview]; exact C.view hc, by rw [hdiff]; exact C.diff hc, fun ins ys hi hy => ?_⟩
  obtain ⟨s1, e1, hv, hd, _⟩ := C.propagate hc (hok _ ho) (hok _ hy) (hins hi)
  exact ⟨e s1, hprop _ _ _ _ _ hc ho hy hi e1, by rw [hview]; exact hv, by rw [hdiff]; exact hd⟩

end Verif
