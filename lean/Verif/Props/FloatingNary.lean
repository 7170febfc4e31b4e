import Verif.Props.Floating
import Verif.Props.Nary

/-!
# C67, sums and products of several arrays
-/

namespace Verif

/-- When the operations `func'` and `inv'` do the same as `func` and `inv` in an n-ary symbol with at most `k` operands whose elements
satisfy `W`.  `Stale` is what is known of positions that are about to be recomputed. -/
structure NaryAgree (func func' : Rat → Rat → Rat) (inv inv' : Rat → Rat → Option Rat) (e : Rat) (W Stale : Rat → Prop) (k : Nat) :
    Prop where
  fold : ∀ x rest, (∀ y ∈ x :: rest, W y) → (x :: rest).length ≤ k →
    rest.foldl (fun val y => func' y val) x = rest.foldl (fun val y => func y val) x
  live : ∀ pre post o v, (∀ y ∈ pre ++ o :: post, W y) → W v → (pre ++ o :: post).length ≤ k →
    inv' ((pre ++ o :: post).foldr func e) o = inv ((pre ++ o :: post).foldr func e) o ∧
    (inv ((pre ++ o :: post).foldr func e) o = none → Stale ((pre ++ o :: post).foldr func e)) ∧
    ∀ q, inv ((pre ++ o :: post).foldr func e) o = some q → func' q v = func q v
  stale : ∀ z o v, Stale z → W o → W v → inv' z o = inv z o ∧ ∀ q, inv z o = some q → func' q v = func q v ∧ Stale (func q v)

section

variable {func func' : Rat → Rat → Rat} {inv inv' : Rat → Rat → Option Rat} {e : Rat} {W Stale : Rat → Prop} {k : Nat}

theorem NaryAgree.naryFold (A : NaryAgree func func' inv inv' e W Stale k) {i n : Nat} {xs : List (Arr Rat)} (hne : xs ≠ [])
    (hl : ∀ y ∈ xs, y.data.length = n) (hw : ∀ y ∈ xs, ∀ v ∈ y.data, W v) (hk : xs.length ≤ k) (hi : i < n) :
    Verif.naryFold func' i xs = Verif.naryFold func i xs := by
  cases xs with
  | nil => exact absurd rfl hne
  | cons x rest =>
    rw [naryFold_ok func' hl hi, naryFold_ok func hl hi]
    congr 1
    have := A.fold (x.data.getD i default) (rest.map fun y => y.data.getD i default) (by
      intro y hy
      obtain ⟨a, ha, rfl⟩ : ∃ a ∈ x :: rest, a.data.getD i default = y := by
        rcases List.mem_cons.1 hy with rfl | hy
        · exact ⟨x, List.mem_cons_self, rfl⟩
        · obtain ⟨a, ha, rfl⟩ := List.mem_map.1 hy
          exact ⟨a, List.mem_cons_of_mem _ ha, rfl⟩
      refine hw a ha _ ?_
      have : i < a.data.length := by rw [hl a ha]; exact hi
      rw [List.getD_eq_getElem?_getD, List.getElem?_eq_getElem this]
      exact List.getElem_mem this) (by simpa using hk)
    simpa [List.foldl_map] using this

/-- The stale positions, next to `NaryMid`. -/
def StaleAt (Stale : Rat → Prop) (st : ArrayState Rat × List Nat) : Prop :=
  ∀ i ∈ st.2, ∃ z, st.1.buffer[i]? = some z ∧ Stale z

theorem NaryAgree.step (A : NaryAgree func func' inv inv' e W Stale k) (L : InverseLaws func inv e) {fixed : Bool} {com : List Rat}
    {n : Nat} {pre post : List (Arr Rat)} {shape : List Int} {u : Update Rat} {a m : List Rat} {st : ArrayState Rat × List Nat}
    (h : NaryMid func e fixed com n (pre ++ ⟨shape, a⟩ :: post) st) (hs : StaleAt Stale st) (hal : a.length = n)
    (hm : u.step a = some m) (hc : u.isChange = true) (hlen : ∀ y ∈ pre ++ ⟨shape, a⟩ :: post, y.data.length = n)
    (hw : ∀ y ∈ pre ++ ⟨shape, a⟩ :: post, ∀ v ∈ y.data, W v)
    (hk : (pre ++ ⟨shape, a⟩ :: post).length ≤ k) (hv : ∀ w, u.value = some w → W w) :
    naryInverse func' inv' st u = naryInverse func inv st u ∧
      ∀ st1, naryInverse func inv st u = .ok st1 → StaleAt Stale st1 ∧ NaryMid func e fixed com n (pre ++ ⟨shape, m⟩ :: post) st1 ∧
        m.length = n ∧ ∀ v ∈ m, W v := by
  have hmid : ∃ st1, naryInverse func inv st u = .ok st1 ∧ NaryMid func e fixed com n (pre ++ ⟨shape, m⟩ :: post) st1 := by
    obtain ⟨st1, e1, h1⟩ := nary_operand L pre post shape [u] (b := m) h hal (replays_cons.2 ⟨m, hm, by simp [Replays]⟩) (by simpa using hc)
    rw [List.foldlM_cons] at e1
    obtain ⟨st2, e2, e3⟩ := Res.bind_eq_ok.1 e1
    simp only [List.foldlM_nil] at e3
    have := Res.ok.inj e3
    subst this
    exact ⟨_, e2, h1⟩
  obtain ⟨cur, hcur, hcl, hcv⟩ := h.cur
  rcases step_cases hm with ⟨v, rfl, rfl⟩ | ⟨v, rfl, rfl⟩ | ⟨o, v, ho, hu, rfl⟩
  · simp [Update.isChange] at hc
  · simp [Update.isChange] at hc
  have hi : u.index < n := by
    by_contra hn
    rw [List.getElem?_eq_none (by omega)] at ho; cases ho
  have hcu : st.1.buffer[u.index]? = some cur[u.index] := by
    rw [hcur.rep.buf]; simp [hcl, hi]
  have huo : u.old = some o := by rw [hu]
  have huv : u.value = some v := by rw [hu]
  have hWv : W v := hv v huv
  have hWo : W o := hw ⟨shape, a⟩ (by simp) o (List.mem_of_getElem? ho)
  -- what the two pairs of operations do here
  have hboth : inv' cur[u.index] o = inv cur[u.index] o ∧ (∀ q, inv cur[u.index] o = some q → func' q v = func q v) ∧
      (inv cur[u.index] o = none → Stale cur[u.index]) ∧
      (u.index ∈ st.2 → ∀ q, inv cur[u.index] o = some q → Stale (func q v)) := by
    by_cases hst : u.index ∈ st.2
    · obtain ⟨z, hz, hS⟩ := hs _ hst
      obtain rfl : cur[u.index] = z := by rw [hcu] at hz; exact Option.some.inj hz
      obtain ⟨h1, h2⟩ := A.stale _ o v hS hWo hWv
      exact ⟨h1, fun q hq => (h2 q hq).1, fun _ => hS, fun _ q hq => (h2 q hq).2⟩
    · have hv := hcv u.index hi hst
      rw [List.getElem?_eq_getElem (by omega)] at hv
      have hv := Option.some.inj hv
      have c1 : column u.index (pre ++ ⟨shape, a⟩ :: post) = column u.index pre ++ o :: column u.index post := by
        have : a.getD u.index default = o := by simp [List.getD_eq_getElem?_getD, ho]
        simp only [column, List.map_append, List.map_cons, this]
      rw [c1] at hv
      have := A.live (column u.index pre) (column u.index post) o v (by
        rw [← c1]
        intro y hy
        obtain ⟨b, hb, rfl⟩ := List.mem_map.1 hy
        refine hw b hb _ ?_
        have hl : u.index < b.data.length := by rw [hlen b hb]; exact hi
        rw [List.getD_eq_getElem?_getD, List.getElem?_eq_getElem hl]
        exact List.getElem_mem hl) hWv (by rw [← c1]; simpa [column] using hk)
      rw [← hv] at this
      exact ⟨this.1, this.2.2, this.2.1, fun h => absurd h hst⟩
  obtain ⟨b1, b2, b3, b4⟩ := hboth
  constructor
  · simp only [naryInverse, hcu, huo, huv, b1]
    cases hq : inv cur[u.index] o with
    | none => rfl
    | some q => simp only [b2 q hq]
  · intro st1 h1
    obtain ⟨st2, e2, h2⟩ := hmid
    obtain rfl : st2 = st1 := by rw [e2] at h1; exact Res.ok.inj h1
    refine ⟨?_, h2, by simpa using hal, ?_⟩
    · simp only [naryInverse, hcu, huo, huv] at h1
      intro i hmem
      cases hq : inv cur[u.index] o with
      | none =>
        rw [hq] at h1
        have := Res.ok.inj h1
        subst this
        dsimp only at hmem ⊢
        rcases List.mem_append.1 hmem with hmem | hmem
        · exact hs i hmem
        · rw [List.mem_singleton.1 hmem]
          exact ⟨_, hcu, b3 hq⟩
      | some q =>
        rw [hq] at h1
        dsimp only at h1
        obtain ⟨s1, e1, e3⟩ := Res.bind_eq_ok.1 h1
        have := Res.ok.inj e3
        subst this
        simp only [ArrayState.write, hcu] at e1
        have := Res.ok.inj e1
        subst this
        dsimp only at hmem ⊢
        by_cases hiu : i = u.index
        · subst hiu
          rw [List.getElem?_set_self (by
            by_contra hn
            rw [List.getElem?_eq_none (by omega)] at hcu; cases hcu)]
          exact ⟨_, rfl, b4 hmem q hq⟩
        · rw [List.getElem?_set_ne (Ne.symm hiu)]
          exact hs i hmem
    · intro x hx
      rcases List.mem_or_eq_of_mem_set hx with hx | rfl
      · exact hw ⟨shape, a⟩ (by simp) x hx
      · exact hWv

/-- The loop over one operand's changes. -/
theorem NaryAgree.operand (A : NaryAgree func func' inv inv' e W Stale k) (L : InverseLaws func inv e) {fixed : Bool} {com : List Rat}
    {n : Nat} {pre post : List (Arr Rat)} {shape : List Int} (d : List (Update Rat)) {b : List Rat}
    (hpl : ∀ y ∈ pre ++ post, y.data.length = n) (hpw : ∀ y ∈ pre ++ post, ∀ v ∈ y.data, W v) (hk : (pre ++ post).length + 1 ≤ k) :
    ∀ {a : List Rat} {st : ArrayState Rat × List Nat}, NaryMid func e fixed com n (pre ++ ⟨shape, a⟩ :: post) st → StaleAt Stale st →
      a.length = n → (∀ v ∈ a, W v) → Replays a d b → (∀ u ∈ d, u.isChange = true) → (∀ u ∈ d, ∀ w, u.value = some w → W w) →
      d.foldlM (naryInverse func' inv') st = d.foldlM (naryInverse func inv) st ∧
      ∃ st1, d.foldlM (naryInverse func inv) st = .ok st1 ∧ NaryMid func e fixed com n (pre ++ ⟨shape, b⟩ :: post) st1 ∧
        StaleAt Stale st1 := by
  induction d with
  | nil =>
    intro a st h hs _ _ hr _ _
    simp at hr
    subst hr
    exact ⟨rfl, st, rfl, h, hs⟩
  | cons u d ih =>
    intro a st h hs hal haw hr hc hv
    obtain ⟨m, hm, hr'⟩ := replays_cons.1 hr
    have mem : ∀ {P : Arr Rat → Prop}, P ⟨shape, a⟩ → (∀ y ∈ pre ++ post, P y) → ∀ y ∈ pre ++ ⟨shape, a⟩ :: post, P y := by
      intro P h1 h2 y hy
      simp only [List.mem_append, List.mem_cons] at hy h2
      rcases hy with hy | rfl | hy
      · exact h2 y (Or.inl hy)
      · exact h1
      · exact h2 y (Or.inr hy)
    obtain ⟨e1, h1⟩ := A.step L h hs hal hm (hc u List.mem_cons_self) (mem hal hpl) (mem haw hpw)
      (by simp at hk ⊢; omega) (hv u List.mem_cons_self)
    obtain ⟨st1, e2, h2⟩ := nary_operand L pre post shape [u] (b := m) h hal (replays_cons.2 ⟨m, hm, by simp [Replays]⟩)
      (by simpa using hc u List.mem_cons_self)
    rw [List.foldlM_cons] at e2
    obtain ⟨st2, e3, e4⟩ := Res.bind_eq_ok.1 e2
    obtain ⟨g1, g2, g3, g4⟩ := h1 st2 e3
    obtain ⟨f1, f2⟩ := ih g2 g1 g3 g4 hr' (fun u hu => hc u (List.mem_cons_of_mem _ hu)) (fun u hu => hv u (List.mem_cons_of_mem _ hu))
    rw [List.foldlM_cons, List.foldlM_cons, e1, e3]
    exact ⟨f1, f2⟩

/-- The loop over the operands. -/
theorem NaryAgree.operands (A : NaryAgree func func' inv inv' e W Stale k) (L : InverseLaws func inv e) {fixed : Bool} {com : List Rat}
    {n : Nat} {shape : List Int} (hd : dynamicShape shape = false) {rel : Arr Rat → List (Update Rat) → Arr Rat → Prop}
    (hrel : ∀ x d y, rel x d y → ArrRel x d y ∧ ∀ u ∈ d, ∀ w, u.value = some w → W w) {xs ins ys} (hi : Ins rel xs ins ys) :
    ∀ (pre : List (Arr Rat)) {st : ArrayState Rat × List Nat},
      (∀ x ∈ xs, x.shape = shape) → (∀ x ∈ ys, ∀ v ∈ x.data, W v) → (∀ y ∈ pre ++ xs, y.data.length = n) →
      (∀ y ∈ pre ++ xs, ∀ v ∈ y.data, W v) → (pre ++ xs).length ≤ k →
      NaryMid func e fixed com n (pre ++ xs) st → StaleAt Stale st →
      ins.foldlM (fun st x => x.2.foldlM (naryInverse func' inv') st) st =
        ins.foldlM (fun st x => x.2.foldlM (naryInverse func inv) st) st := by
  induction hi with
  | nil => intros; rfl
  | cons hr _ ih =>
    rename_i x d y xs ins ys _
    intro pre st hx hyw hl hw hk h hs
    obtain ⟨hr, hv⟩ := hrel _ _ _ hr
    have hsx := hx x List.mem_cons_self
    have hsy : y.shape = shape := by rw [← hr.shape, hsx]
    have hfix := hr.fixed (by rw [Arr.dynamic, hsx, hd])
    have sub : ∀ {P : Arr Rat → Prop}, (∀ z ∈ pre ++ x :: xs, P z) → P x ∧ ∀ z ∈ pre ++ xs, P z := by
      intro P h
      simp only [List.mem_append, List.mem_cons] at h ⊢
      exact ⟨h x (by simp), fun z hz => h z (by tauto)⟩
    obtain ⟨c1, _⟩ := replays_changes hr.replays hfix
    obtain ⟨f1, st1, f2, f3, f4⟩ := A.operand L (fixed := fixed) (com := com) (shape := shape) d (b := y.data) (sub hl).2 (sub hw).2
      (by simp at hk ⊢; omega) (a := x.data) (st := st) (by rw [← hsx]; exact h) hs (sub hl).1 (sub hw).1 hr.replays hfix hv
    have ey : (⟨shape, y.data⟩ : Arr Rat) = y := by rw [← hsy]
    rw [ey] at f3
    have put : ∀ {P : Arr Rat → Prop}, P y → (∀ z ∈ pre ++ xs, P z) → ∀ z ∈ (pre ++ [y]) ++ xs, P z := by
      intro P h1 h2 z hz
      simp only [List.mem_append, List.mem_singleton] at hz h2
      rcases hz with (hz | rfl) | hz
      · exact h2 z (Or.inl hz)
      · exact h1
      · exact h2 z (Or.inr hz)
    have := ih (pre ++ [y]) (st := st1) (fun z hz => hx z (List.mem_cons_of_mem _ hz)) (fun z hz => hyw z (List.mem_cons_of_mem _ hz))
      (put (by have := (sub hl).1; omega) (sub hl).2) (put (hyw y List.mem_cons_self) (sub hw).2) (by simp at hk ⊢; omega) (by simpa using f3) f4
    simp only [List.foldlM_cons]
    rw [f1, f2]
    exact this

/-- An n-ary symbol whose operations agree with exact ones. -/
theorem NaryAgree.incremental (A : NaryAgree func func' inv inv' e W Stale k) (L : InverseLaws func inv e)
    {shape : List Int} (hd : dynamicShape shape = false) {rel : Arr Rat → List (Update Rat) → Arr Rat → Prop}
    (hrel : ∀ x d y, rel x d y → ArrRel x d y ∧ ∀ u ∈ d, ∀ w, u.value = some w → W w) :
    IncrementalWithin rel ArrRel [] (naryNode func' (some inv') shape) (fun xs => ⟨shape, naryValue func xs⟩)
      (fun xs => xs ≠ [] ∧ xs.length ≤ k ∧ ∀ x ∈ xs, x.shape = shape ∧ x.WF ∧ ∀ v ∈ x.data, W v) := by
  refine IncrementalWithin.imitate (N := naryNode func' (some inv') shape) (naryContractInverse L hd) id
    (fun xs h => ⟨h.1, fun x hx => ⟨(h.2.2 x hx).1, (h.2.2 x hx).2.1⟩⟩) (fun _ _ _ h => (hrel _ _ _ h).1)
    (fun _ => rfl) (fun _ => rfl) (fun _ _ h => h) (fun _ _ h => h) ?_ ?_
  · rintro xs s ⟨hne, hk, hx⟩ h
    obtain ⟨n, _, hn⟩ := fixed_lengths hd (fun x hx' => ⟨(hx x hx').1, (hx x hx').2.1⟩) hne
    have e1 : naryInit func' xs = naryInit func xs := by
      cases xs with
      | nil => exact absurd rfl hne
      | cons x rest =>
        simp only [naryInit]
        have hxl := hn x List.mem_cons_self
        rw [mapM_ok _ (fun i => rest.foldl (fun val y => func (y.data.getD i default) val) (x.data.getD i default)),
          mapM_ok _ (fun i => rest.foldl (fun val y => func (y.data.getD i default) val) (x.data.getD i default))]
        · intro i hi
          exact naryFold_ok func hn (by simp at hi; omega)
        · intro i hi
          have hin : i < n := by simp at hi; omega
          rw [A.naryFold hne hn (fun y hy => (hx y hy).2.2) hk hin]
          exact naryFold_ok func hn hin
    simp only [naryNode, arrayNode] at h ⊢
    rw [e1]
    exact h
  · rintro s xs ins ys s' hc ⟨hne, hk, hx⟩ ⟨hne', hk', hy⟩ hi h
    obtain ⟨n, hp, hn⟩ := fixed_lengths hd (fun x hx' => ⟨(hx x hx').1, (hx x hx').2.1⟩) hne
    obtain ⟨n', hp', hn'⟩ := fixed_lengths hd (fun x hx' => ⟨(hy x hx').1, (hy x hx').2.1⟩) hne'
    obtain rfl : n = n' := by omega
    have hc' : s = ArrayState.mk' (naryValue func xs) := hc
    subst hc'
    have toArr : ∀ {xs ins ys}, Ins rel xs ins ys → Ins ArrRel xs ins ys := by
      intro xs ins ys h
      induction h with
      | nil => exact .nil
      | cons h _ ih => exact .cons (hrel _ _ _ h).1 ih
    have val : ∀ i, i < n → (naryValue func xs)[i]? = some ((column i xs).foldr func e) := by
      intro i hin
      cases xs with
      | nil => exact absurd rfl hne
      | cons z rest =>
        rw [naryValue_get func (hn z List.mem_cons_self) hin, L.foldl]
        simp only [column, List.map_cons, List.foldr_cons]
        rw [L.comm]
    have hmid : NaryMid func e (!dynamicShape shape) (naryValue func xs) n ([] ++ xs) (ArrayState.mk' (naryValue func xs), []) :=
      ⟨⟨naryValue func xs, ArrayState.RepA.mk'_ _, naryValue_length func hne hn, fun i hin _ => val i hin⟩, by simp⟩
    obtain ⟨st, e1, h1⟩ := nary_operands L hd (toArr hi) [] (fun x hx' => ⟨(hx x hx').1, hn x hx'⟩) hmid
    have e2 := A.operands L hd hrel hi [] (fun x hx' => (hx x hx').1) (fun x hx' => (hy x hx').2.2) (by simpa using hn)
      (by simpa using fun x hx' => (hx x hx').2.2) (by simpa using hk) hmid (by simp [StaleAt])
    obtain ⟨_, _, h3⟩ := ins_fixed hd (toArr hi) (fun x hx' => ⟨(hx x hx').1, (hx x hx').2.1⟩)
    have e3 : ∀ s : ArrayState Rat, st.2.foldlM (naryRecompute func' ys) s = st.2.foldlM (naryRecompute func ys) s := by
      intro s
      refine foldlM_agree (fun _ re => ∀ i ∈ re, i < n) ?_ st.2 s h1.range
      intro s i re hre
      refine ⟨?_, fun _ _ j hj => hre j (List.mem_cons_of_mem _ hj)⟩
      simp only [naryRecompute, A.naryFold hne' hn' (fun y hy' => (hy y hy').2.2) hk' (hre i List.mem_cons_self)]
    simp only [naryNode, naryPropagate, id] at h ⊢
    rw [e2, e1, Res.ok_bind, ← h3]
    rw [e1, Res.ok_bind, ← h3] at h
    exact (e3 st.1).trans h

end

/-- As long as all elements are whole numbers and no sum of magnitudes exceeds 2^53, the element-wise sum of several arrays is exact in
the arithmetic of doubles, after every history.  `k` bounds the number of operands. -/
theorem C67_nary_add {fl : Rat → Rat} (R : Rounding fl) {shape : List Int} (hd : dynamicShape shape = false) {M : Int} {k : Nat}
    (n : Nat) (hM : k * M ≤ 2 ^ 53) :
    IncrementalWithin (WholeRel n M) ArrRel [] (naryNode (flAdd fl) (some (flPlusInv fl)) shape)
      (fun xs => ⟨shape, naryValue (· + ·) xs⟩)
      (fun xs => xs ≠ [] ∧ xs.length ≤ k ∧ ∀ x ∈ xs, x.shape = shape ∧ x.WF ∧ ∀ v ∈ x.data, Whole M v) := by
  have K := R.keepsWhole
  have fr : ∀ l : List Rat, l.foldr (· + ·) 0 = l.sum := fun l => rfl
  have bound : ∀ l : List Rat, (∀ y ∈ l, Whole M y) → l.length ≤ k → fl l.sum = l.sum := by
    intro l hw hk
    by_cases hl : l = []
    · subst hl
      exact K.eq (whole_zero (le_refl 0)) (by norm_num)
    · obtain ⟨x, hx⟩ := List.exists_mem_of_ne_nil l hl
      refine K.eq (whole_sum hw) (le_trans ?_ hM)
      exact mul_le_mul_of_nonneg_right (by exact_mod_cast hk) (hw x hx).nonneg
  refine NaryAgree.incremental (W := Whole M) (Stale := fun _ => False) (k := k) ⟨?_, ?_, fun _ _ _ h => h.elim⟩ plus_laws hd
    (fun x d y h => ⟨h.exact, h.new⟩)
  · intro x rest
    have key : ∀ (post pre : List Rat), (∀ y ∈ pre ++ post, Whole M y) → (pre ++ post).length ≤ k →
        post.foldl (fun val y => flAdd fl y val) pre.sum = post.foldl (fun val y => y + val) pre.sum := by
      intro post
      induction post with
      | nil => intros; rfl
      | cons z post ih =>
        intro pre hw hl
        have e : z + pre.sum = (pre ++ [z]).sum := by simp [add_comm]
        have := bound (pre ++ [z]) (by
          intro y hy
          simp only [List.mem_append, List.mem_cons, List.not_mem_nil, or_false] at hy hw
          exact hw y (by tauto)) (by simp at hl ⊢; omega)
        rw [List.foldl_cons, List.foldl_cons, flAdd, e, this]
        exact ih (pre ++ [z]) (by simpa using hw) (by simpa using hl)
    intro hw hl
    have := key rest [x] (by simpa using hw) (by simpa [add_comm] using hl)
    simpa using this
  · intro pre post o v hw hv hl
    have hw' : ∀ y ∈ pre ++ post, Whole M y := by
      intro y hy
      simp only [List.mem_append, List.mem_cons] at hy hw
      exact hw y (by tauto)
    have e1 : (pre ++ o :: post).foldr (· + ·) 0 - o = (pre ++ post).sum := by
      rw [fr]; simp only [List.sum_append, List.sum_cons]; ring
    have b1 := bound (pre ++ post) hw' (by simp at hl ⊢; omega)
    have b2 := bound (v :: (pre ++ post)) (by
      intro y hy
      rcases List.mem_cons.1 hy with rfl | hy
      · exact hv
      · exact hw' y hy) (by simp at hl ⊢; omega)
    rw [List.sum_cons, add_comm] at b2
    simp only [flPlusInv, plusInv, flSub, e1, b1, Option.some.injEq, reduceCtorEq, false_implies, true_and]
    rintro q rfl
    rw [flAdd, b2]

/-- As long as all elements are whole numbers and no product of magnitudes exceeds 2^53, the element-wise product of several arrays is
exact in the arithmetic of doubles, after every history (the old factor is divided out first, which is exact). -/
theorem C67_nary_multiply {fl : Rat → Rat} (R : Rounding fl) {shape : List Int} (hd : dynamicShape shape = false) {M : Int} {k : Nat}
    (n : Nat) (hM1 : 1 ≤ M) (hM : M ^ k ≤ 2 ^ 53) :
    IncrementalWithin (WholeRel n M) ArrRel [] (naryNode (flMul fl) (some (flTimesInv fl)) shape)
      (fun xs => ⟨shape, naryValue (· * ·) xs⟩)
      (fun xs => xs ≠ [] ∧ xs.length ≤ k ∧ ∀ x ∈ xs, x.shape = shape ∧ x.WF ∧ ∀ v ∈ x.data, Whole M v) := by
  have K := R.keepsWhole
  have f0 : fl 0 = 0 := K.eq (whole_zero (le_refl 0)) (by norm_num)
  have fr : ∀ l : List Rat, l.foldr (· * ·) 1 = l.prod := fun l => rfl
  have whole_prod : ∀ l : List Rat, (∀ y ∈ l, Whole M y) → Whole (M ^ l.length) l.prod := by
    intro l
    induction l with
    | nil => intro _; exact ⟨1, by simp, by simp⟩
    | cons x l ih =>
      intro hw
      rw [List.prod_cons, List.length_cons, pow_succ, mul_comm (M ^ _)]
      exact (hw x List.mem_cons_self).mul (ih fun y hy => hw y (List.mem_cons_of_mem _ hy))
  have bound : ∀ l : List Rat, (∀ y ∈ l, Whole M y) → l.length ≤ k → fl l.prod = l.prod := by
    intro l hw hk
    exact K.eq (whole_prod l hw) (le_trans (pow_le_pow_right₀ hM1 hk) hM)
  refine NaryAgree.incremental (W := Whole M) (Stale := fun z => z = 0) (k := k) ⟨?_, ?_, ?_⟩ times_laws hd
    (fun x d y h => ⟨h.exact, h.new⟩)
  · intro x rest
    have key : ∀ (post pre : List Rat), (∀ y ∈ pre ++ post, Whole M y) → (pre ++ post).length ≤ k →
        post.foldl (fun val y => flMul fl y val) pre.prod = post.foldl (fun val y => y * val) pre.prod := by
      intro post
      induction post with
      | nil => intros; rfl
      | cons z post ih =>
        intro pre hw hl
        have e : z * pre.prod = (pre ++ [z]).prod := by simp [mul_comm]
        have := bound (pre ++ [z]) (by
          intro y hy
          simp only [List.mem_append, List.mem_cons, List.not_mem_nil, or_false] at hy hw
          exact hw y (by tauto)) (by simp at hl ⊢; omega)
        rw [List.foldl_cons, List.foldl_cons, flMul, e, this]
        exact ih (pre ++ [z]) (by simpa using hw) (by simpa using hl)
    intro hw hl
    have := key rest [x] (by simpa using hw) (by simpa [add_comm] using hl)
    simpa using this
  · intro pre post o v hw hv hl
    have hw' : ∀ y ∈ pre ++ post, Whole M y := by
      intro y hy
      simp only [List.mem_append, List.mem_cons] at hy hw
      exact hw y (by tauto)
    have e0 : (pre ++ o :: post).foldr (· * ·) 1 = (pre ++ post).prod * o := by
      rw [fr]; simp only [List.prod_append, List.prod_cons]; ring
    have b1 := bound (pre ++ post) hw' (by simp at hl ⊢; omega)
    have b2 := bound (v :: (pre ++ post)) (by
      intro y hy
      rcases List.mem_cons.1 hy with rfl | hy
      · exact hv
      · exact hw' y hy) (by simp at hl ⊢; omega)
    rw [List.prod_cons, mul_comm] at b2
    rw [e0]
    by_cases ho : o = 0
    · simp [flTimesInv, timesInv, ho]
    · have e1 : (pre ++ post).prod * o / o = (pre ++ post).prod := mul_div_cancel_right₀ _ ho
      simp only [flTimesInv, timesInv, ho, if_false, flDiv, e1, b1, Option.some.injEq, reduceCtorEq, false_implies, true_and]
      rintro q rfl
      rw [flMul, b2]
  · rintro z o v rfl _ _
    by_cases ho : o = 0
    · simp [flTimesInv, timesInv, ho]
    · simp [flTimesInv, timesInv, ho, flDiv, flMul, f0]

/-! A thousand arrays with elements up to a billion, and ten with elements up to 39. -/

example : IncrementalWithin (WholeRel 6 (10 ^ 9)) ArrRel [] (naryNode (flAdd roundDouble) (some (flPlusInv roundDouble)) [2, 3])
    (fun xs => ⟨[2, 3], naryValue (· + ·) xs⟩)
    (fun xs => xs ≠ [] ∧ xs.length ≤ 1000 ∧ ∀ x ∈ xs, x.shape = [2, 3] ∧ x.WF ∧ ∀ v ∈ x.data, Whole (10 ^ 9) v) :=
  C67_nary_add roundDouble_rounding (by decide) 6 (by norm_num)

example : IncrementalWithin (WholeRel 6 39) ArrRel [] (naryNode (flMul roundDouble) (some (flTimesInv roundDouble)) [2, 3])
    (fun xs => ⟨[2, 3], naryValue (· * ·) xs⟩)
    (fun xs => xs ≠ [] ∧ xs.length ≤ 10 ∧ ∀ x ∈ xs, x.shape = [2, 3] ∧ x.WF ∧ ∀ v ∈ x.data, Whole 39 v) :=
  C67_nary_multiply roundDouble_rounding (by decide) 6 (by norm_num) (by norm_num)

end Verif
