import Verif.Model.Nodes.Nary
import Verif.Lemmas.NodeBase
import Mathlib.Algebra.Order.Ring.Rat

set_option linter.unusedSectionVars false
set_option linter.unusedSimpArgs false
set_option linter.unusedVariables false

/-!
# C24: n-ary symbols
-/

namespace Verif

open ArrayState

variable {α : Type} [DecidableEq α] [Inhabited α]

theorem naryFold_ok (func : α → α → α) {i n : Nat} {x : Arr α} {rest : List (Arr α)}
    (h : ∀ y ∈ x :: rest, y.data.length = n) (hi : i < n) :
    naryFold func i (x :: rest) =
      .ok (rest.foldl (fun val y => func (y.data.getD i default) val) (x.data.getD i default)) := by
  have hx := h x List.mem_cons_self
  simp only [naryFold, Arr.read_getD (a := x) (i := i) (by omega), Res.ok_bind]
  have h' : ∀ y ∈ rest, y.data.length = n := fun y hy => h y (List.mem_cons_of_mem _ hy)
  clear h hx
  generalize x.data.getD i default = v
  induction rest generalizing v with
  | nil => rfl
  | cons y rest ih =>
    simp only [List.foldlM_cons, List.foldl_cons,
      Arr.read_getD (a := y) (i := i) (by have := h' y List.mem_cons_self; omega), Res.ok_bind]
    exact ih (fun z hz => h' z (List.mem_cons_of_mem _ hz)) _

theorem naryInit_ok (func : α → α → α) {n : Nat} {xs : List (Arr α)} (hne : xs ≠ [])
    (h : ∀ y ∈ xs, y.data.length = n) : naryInit func xs = .ok (naryValue func xs) := by
  cases xs with
  | nil => exact absurd rfl hne
  | cons x rest =>
    simp only [naryInit, naryValue]
    apply mapM_ok
    intro i hi
    have hx := h x List.mem_cons_self
    exact naryFold_ok func h (by simp at hi; omega)

/-- The elements of the operands at one position. -/
def column (i : Nat) (xs : List (Arr α)) : List α := xs.map fun x => x.data.getD i default

theorem naryValue_get (func : α → α → α) {n : Nat} {x : Arr α} {rest : List (Arr α)}
    (h : x.data.length = n) {i : Nat} (hi : i < n) :
    (naryValue func (x :: rest))[i]? =
      some ((column i rest).foldl (fun val y => func y val) (x.data.getD i default)) := by
  simp [naryValue, h, hi, column, List.foldl_map]

theorem naryValue_length (func : α → α → α) {n : Nat} {xs : List (Arr α)} (hne : xs ≠ [])
    (h : ∀ y ∈ xs, y.data.length = n) : (naryValue func xs).length = n := by
  cases xs with
  | nil => exact absurd rfl hne
  | cons x rest => simp [naryValue, h x List.mem_cons_self]

/-- Full recomputation of the listed positions; the others must be right already. -/
theorem nary_finish (func : α → α → α) {fixed : Bool} {com : List α} {n : Nat} {ys : List (Arr α)}
    (hne : ys ≠ []) (hy : ∀ y ∈ ys, y.data.length = n) {s : ArrayState α} {cur : List α}
    (h : RepA fixed s com cur) (hl : cur.length = n) (re : List Nat) (hre : ∀ i ∈ re, i < n)
    (hrest : ∀ i, i ∉ re → cur[i]? = (naryValue func ys)[i]?) :
    ∃ s', re.foldlM (naryRecompute func ys) s = .ok s' ∧ RepA fixed s' com (naryValue func ys) := by
  have hlen := naryValue_length func hne hy
  obtain ⟨s', cur', e, h', hl', hc'⟩ := RepA.recompute id (target := naryValue func ys)
    (naryRecompute func ys) re h (by omega) (fun i hi => by rw [hlen]; exact hre i hi) (by
      intro s i cur hi hs hcl
      have hin := hre i hi
      cases ys with
      | nil => exact absurd rfl hne
      | cons y rest =>
        have hv := naryFold_ok func hy hin
        obtain ⟨s1, e1, h1⟩ := hs.set (i := i) (by omega)
          (rest.foldl (fun val y => func (y.data.getD i default) val) (y.data.getD i default))
        refine ⟨s1, _, ?_, ?_, h1⟩
        · simp only [naryRecompute, hv, Res.ok_bind, e1]
        · rw [id, naryValue_get func (hy y List.mem_cons_self) hin]
          simp [column, List.foldl_map])
  have : cur' = naryValue func ys := by
    apply List.ext_getElem?
    intro i
    rw [hc']
    split_ifs with hx
    · rfl
    · exact hrest i (fun hi => hx ⟨i, hi, rfl⟩)
  exact ⟨s', e, this ▸ h'⟩

/-- What the operands' changes are like when they all have the same fixed shape. -/
theorem ins_fixed {shape : List Int} (hd : dynamicShape shape = false) {xs : List (Arr α)} {ins ys}
    (hi : Ins ArrRel xs ins ys) (hx : ∀ x ∈ xs, x.shape = shape ∧ x.WF) :
    (∀ x ∈ ins, ∀ u ∈ x.2, u.isChange = true ∧ (u.index : Int) < shape.prod) ∧
    (∀ i : Nat, (∀ x ∈ ins, ∀ u ∈ x.2, u.index ≠ i) → column i ys = column i xs) ∧
    ys = ins.map Prod.fst := by
  induction hi with
  | nil => simp [column]
  | cons hr _ ih =>
    rename_i x d y xs ins ys _
    obtain ⟨h1, h2, h3⟩ := ih (fun z hz => hx z (List.mem_cons_of_mem _ hz))
    obtain ⟨hs, hw⟩ := hx x List.mem_cons_self
    have hdx : x.dynamic = false := by rw [Arr.dynamic, hs, hd]
    have hc := hr.fixed hdx
    obtain ⟨c1, c2, c3⟩ := replays_changes hr.replays hc
    refine ⟨?_, ?_, by rw [h3]; rfl⟩
    · intro z hz u hu
      rcases List.mem_cons.1 hz with rfl | hz
      · refine ⟨hc u hu, ?_⟩
        have := c2 u hu
        simp only [Arr.WF, hdx, Bool.false_eq_true, if_false, hs] at hw
        omega
      · exact h1 z hz u hu
    · intro i hn
      have := c3 i (fun u hu => hn _ List.mem_cons_self u hu)
      simp only [column, List.map_cons, List.getD_eq_getElem?_getD, this]
      congr 1
      have := h2 i (fun z hz => hn z (List.mem_cons_of_mem _ hz))
      simpa [column] using this

theorem fixed_lengths {shape : List Int} (hd : dynamicShape shape = false) {xs : List (Arr α)}
    (hx : ∀ x ∈ xs, x.shape = shape ∧ x.WF) (hne : xs ≠ []) :
    ∃ n : Nat, (n : Int) = shape.prod ∧ ∀ x ∈ xs, x.data.length = n := by
  cases xs with
  | nil => exact absurd rfl hne
  | cons x rest =>
    have len : ∀ y ∈ x :: rest, (y.data.length : Int) = shape.prod := by
      intro y hy
      obtain ⟨hs, hw⟩ := hx y hy
      simpa [Arr.WF, Arr.dynamic, hs, hd] using hw
    refine ⟨x.data.length, len x List.mem_cons_self, fun y hy => ?_⟩
    have h1 := len x List.mem_cons_self
    have h2 := len y hy
    omega

/-- An n-ary symbol without inverse operation keeps the symbol contract. -/
def naryContractRecompute (func : α → α → α) {shape : List Int} (hd : dynamicShape shape = false) :
    Contract ArrRel [] (naryNode func none shape) :=
  arrayContract (by
    rintro xs ⟨hne, hx⟩
    obtain ⟨n, _, hn⟩ := fixed_lengths hd hx hne
    exact naryInit_ok func hne hn) (by
    rintro xs ins ys ⟨hne, hx⟩ ⟨hne', hy⟩ hi
    obtain ⟨n, hp, hn⟩ := fixed_lengths hd hx hne
    obtain ⟨n', hp', hn'⟩ := fixed_lengths hd hy hne'
    obtain rfl : n = n' := by omega
    obtain ⟨h1, h2, h3⟩ := ins_fixed hd hi hx
    have hfin := nary_finish func (fixed := !dynamicShape shape) hne' hn' (RepA.mk'_ (naryValue func xs))
      (naryValue_length func hne hn) (ins.flatMap fun x => x.2.map Update.index) (by
        intro i hi
        simp only [List.mem_flatMap, List.mem_map] at hi
        obtain ⟨x, hx, u, hu, rfl⟩ := hi
        have := (h1 x hx u hu).2
        omega) (by
        intro i hi
        have hcol := h2 i (fun x hx u hu e => hi (by
          simp only [List.mem_flatMap, List.mem_map]; exact ⟨x, hx, u, hu, e⟩))
        cases xs with
        | nil => exact absurd rfl hne
        | cons x rest =>
          cases ys with
          | nil => exact absurd rfl hne'
          | cons y rest' =>
            by_cases hin : i < n
            · rw [naryValue_get func (hn x List.mem_cons_self) hin,
                naryValue_get func (hn' y List.mem_cons_self) hin]
              simp only [column, List.map_cons, List.cons.injEq] at hcol
              simp only [column, hcol.1, hcol.2]
            · rw [List.getElem?_eq_none, List.getElem?_eq_none]
              · rw [naryValue_length func hne' hn']; omega
              · rw [naryValue_length func hne hn]; omega)
    obtain ⟨s', e, h⟩ := hfin
    refine ⟨s', ?_, h⟩
    simp only [naryPropagate, Res.ok_bind, ← h3]
    exact e)

/-- What the code relies on when it undoes one operand's old value: the operation is that of a
commutative monoid, and an inverse that succeeds is right. -/
structure InverseLaws (func : α → α → α) (inv : α → α → Option α) (e : α) : Prop where
  comm : ∀ a b, func a b = func b a
  assoc : ∀ a b c, func (func a b) c = func a (func b c)
  unit : ∀ a, func e a = a
  cancel : ∀ q o q', inv (func q o) o = some q' → q' = q

theorem InverseLaws.foldl {func : α → α → α} {inv : α → α → Option α} {e : α}
    (L : InverseLaws func inv e) (l : List α) : ∀ v, l.foldl (fun val y => func y val) v =
      func (l.foldr func e) v := by
  induction l with
  | nil => intro v; simp [L.unit]
  | cons a l ih =>
    intro v
    simp only [List.foldl_cons, List.foldr_cons, ih]
    rw [← L.assoc, L.comm (List.foldr func e l) a]

theorem InverseLaws.pull {func : α → α → α} {inv : α → α → Option α} {e : α}
    (L : InverseLaws func inv e) (pre post : List α) (a : α) :
    (pre ++ a :: post).foldr func e = func ((pre ++ post).foldr func e) a := by
  induction pre with
  | nil => simp only [List.nil_append, List.foldr_cons]; exact L.comm _ _
  | cons p pre ih =>
    simp only [List.cons_append, List.foldr_cons, ih]
    rw [L.assoc]

/-- Invariant of the incremental phase: positions that will not be recomputed hold the operation over
the operands as far as they have been advanced. -/
structure NaryMid (func : α → α → α) (e : α) (fixed : Bool) (com : List α) (n : Nat)
    (zs : List (Arr α)) (st : ArrayState α × List Nat) : Prop where
  cur : ∃ cur, RepA fixed st.1 com cur ∧ cur.length = n ∧
    ∀ i, i < n → i ∉ st.2 → cur[i]? = some ((column i zs).foldr func e)
  range : ∀ i ∈ st.2, i < n

theorem column_append (i : Nat) (xs ys : List (Arr α)) :
    column i (xs ++ ys) = column i xs ++ column i ys := by simp [column]

theorem nary_operand {func : α → α → α} {inv : α → α → Option α} {e : α} (L : InverseLaws func inv e)
    {fixed : Bool} {com : List α} {n : Nat} (pre post : List (Arr α)) (shape : List Int)
    (d : List (Update α)) : ∀ {a b : List α} {st : ArrayState α × List Nat},
      NaryMid func e fixed com n (pre ++ ⟨shape, a⟩ :: post) st → a.length = n → Replays a d b →
      (∀ u ∈ d, u.isChange = true) →
      ∃ st', d.foldlM (naryInverse func inv) st = .ok st' ∧
        NaryMid func e fixed com n (pre ++ ⟨shape, b⟩ :: post) st' := by
  induction d with
  | nil => intro a b st h _ hr _; simp at hr; subst hr; exact ⟨st, rfl, h⟩
  | cons u d ih =>
    intro a b st h hl hr hc
    obtain ⟨m, hm, hr'⟩ := replays_cons.1 hr
    obtain ⟨cur, hcur, hcl, hcv⟩ := h.cur
    have hstep : ∃ st1, naryInverse func inv st u = .ok st1 ∧
        NaryMid func e fixed com n (pre ++ ⟨shape, m⟩ :: post) st1 ∧ m.length = n := by
      rcases step_cases hm with ⟨v, rfl, rfl⟩ | ⟨v, rfl, rfl⟩ | ⟨o, v, ho, hu, rfl⟩
      · have := hc _ List.mem_cons_self; simp [Update.isChange] at this
      · have := hc _ List.mem_cons_self; simp [Update.isChange] at this
      · have hi : u.index < n := by
          by_contra hn
          rw [List.getElem?_eq_none (by omega)] at ho; cases ho
        have hcu : st.1.buffer[u.index]? = some cur[u.index] := by
          rw [hcur.rep.buf]; simp [hcl, hi]
        have huo : u.old = some o := by rw [hu]
        have huv : u.value = some v := by rw [hu]
        -- other positions are not affected
        have hother : ∀ i, i ≠ u.index →
            column i (pre ++ ⟨shape, a.set u.index v⟩ :: post) = column i (pre ++ ⟨shape, a⟩ :: post) := by
          intro i hne
          simp only [column, List.map_append, List.map_cons, List.getD_eq_getElem?_getD]
          rw [List.getElem?_set_ne (Ne.symm hne)]
        refine (?_ : ∃ st1, _ ∧ _).imp fun st1 h1 => ⟨h1.1, h1.2, by simpa using hl⟩
        simp only [naryInverse, hcu, huo, huv]
        cases hq : inv cur[u.index] o with
        | none =>
          refine ⟨(st.1, st.2 ++ [u.index]), rfl, ⟨cur, hcur, hcl, ?_⟩, ?_⟩
          · intro i hin hnot
            simp only [List.mem_append, List.mem_singleton, not_or] at hnot
            rw [hother i hnot.2]
            exact hcv i hin hnot.1
          · intro i hmem
            simp only [List.mem_append, List.mem_singleton] at hmem
            rcases hmem with hmem | rfl
            · exact h.range i hmem
            · exact hi
        | some q =>
          obtain ⟨s1, e1, h1⟩ := hcur.write' (i := u.index) (by omega) (func q v)
          refine ⟨(s1, st.2), by simp only [e1, Res.ok_bind], ⟨_, h1, by simpa using hcl, ?_⟩, h.range⟩
          intro i hin hnot
          by_cases hiu : i = u.index
          · subst hiu
            rw [List.getElem?_set_self (by omega)]
            have hv := hcv u.index hi hnot
            rw [List.getElem?_eq_getElem (by omega)] at hv
            have hv := Option.some.inj hv
            have c1 : ∀ l : List α, column u.index (pre ++ ⟨shape, l⟩ :: post) =
                column u.index pre ++ l.getD u.index default :: column u.index post := by
              intro l; simp [column]
            rw [c1, L.pull] at hv ⊢
            have ho' : a.getD u.index default = o := by simp [List.getD_eq_getElem?_getD, ho]
            rw [ho'] at hv
            rw [hv] at hq
            rw [L.cancel _ _ _ hq]
            have : (a.set u.index v).getD u.index default = v := by
              simp [List.getD_eq_getElem?_getD, hl, hi]
            rw [this]
          · rw [List.getElem?_set_ne (Ne.symm hiu), hother i hiu]
            exact hcv i hin hnot
    obtain ⟨st1, e1, h1, hl1⟩ := hstep
    obtain ⟨st2, e2, h2⟩ := ih h1 hl1 hr' (fun u hu => hc u (List.mem_cons_of_mem _ hu))
    exact ⟨st2, by simp only [List.foldlM_cons, e1, Res.ok_bind, e2], h2⟩

theorem nary_operands {func : α → α → α} {inv : α → α → Option α} {e : α} (L : InverseLaws func inv e)
    {fixed : Bool} {com : List α} {n : Nat} {shape : List Int} (hd : dynamicShape shape = false)
    {xs ins ys} (hi : Ins ArrRel xs ins ys) :
    ∀ (pre : List (Arr α)) {st : ArrayState α × List Nat},
      (∀ x ∈ xs, x.shape = shape ∧ x.data.length = n) →
      NaryMid func e fixed com n (pre ++ xs) st →
      ∃ st', ins.foldlM (fun st x => x.2.foldlM (naryInverse func inv) st) st = .ok st' ∧
        NaryMid func e fixed com n (pre ++ ys) st' := by
  induction hi with
  | nil => intro pre st _ h; exact ⟨st, rfl, h⟩
  | cons hr _ ih =>
    rename_i x d y xs ins ys _
    intro pre st hx h
    obtain ⟨hs, hl⟩ := hx x List.mem_cons_self
    have hsy : y.shape = shape := by rw [← hr.shape, hs]
    obtain ⟨st1, e1, h1⟩ := nary_operand L pre xs shape d (a := x.data) (b := y.data) (st := st)
      (by rw [← hs]; exact h) hl hr.replays (hr.fixed (by rw [Arr.dynamic, hs, hd]))
    obtain ⟨st2, e2, h2⟩ := ih (pre ++ [y]) (st := st1) (fun z hz => hx z (List.mem_cons_of_mem _ hz)) (by
      have : (⟨shape, y.data⟩ : Arr α) = y := by rw [← hsy]
      rw [this] at h1
      simpa using h1)
    exact ⟨st2, by simp only [List.foldlM_cons, e1, Res.ok_bind]; exact e2, by simpa using h2⟩

/-- An n-ary symbol with inverse operation keeps the symbol contract. -/
def naryContractInverse {func : α → α → α} {inv : α → α → Option α} {e : α}
    (L : InverseLaws func inv e) {shape : List Int} (hd : dynamicShape shape = false) :
    Contract ArrRel [] (naryNode func (some inv) shape) :=
  arrayContract (by
    rintro xs ⟨hne, hx⟩
    obtain ⟨n, _, hn⟩ := fixed_lengths hd hx hne
    exact naryInit_ok func hne hn) (by
    rintro xs ins ys ⟨hne, hx⟩ ⟨hne', hy⟩ hi
    obtain ⟨n, hp, hn⟩ := fixed_lengths hd hx hne
    obtain ⟨n', hp', hn'⟩ := fixed_lengths hd hy hne'
    obtain rfl : n = n' := by omega
    obtain ⟨_, _, h3⟩ := ins_fixed hd hi hx
    have val : ∀ zs : List (Arr α), zs ≠ [] → (∀ z ∈ zs, z.data.length = n) → ∀ i, i < n →
        (naryValue func zs)[i]? = some ((column i zs).foldr func e) := by
      intro zs hzne hz i hin
      cases zs with
      | nil => exact absurd rfl hzne
      | cons z rest =>
        rw [naryValue_get func (hz z List.mem_cons_self) hin, L.foldl]
        simp only [column, List.map_cons, List.foldr_cons]
        rw [L.comm]
    obtain ⟨st, e1, h1⟩ := nary_operands L (fixed := !dynamicShape shape) (com := naryValue func xs)
      (n := n) hd hi [] (st := (ArrayState.mk' (naryValue func xs), []))
      (fun x hx' => ⟨(hx x hx').1, hn x hx'⟩)
      ⟨⟨naryValue func xs, RepA.mk'_ _, naryValue_length func hne hn,
        fun i hin _ => val xs hne hn i hin⟩, by simp⟩
    obtain ⟨cur, hcur, hcl, hcv⟩ := h1.cur
    obtain ⟨s', e2, h2⟩ := nary_finish func hne' hn' hcur hcl st.2 h1.range (by
      intro i hnot
      by_cases hin : i < n
      · rw [hcv i hin hnot, val ys hne' hn' i hin]; rfl
      · rw [List.getElem?_eq_none, List.getElem?_eq_none]
        · rw [naryValue_length func hne' hn']; omega
        · omega)
    refine ⟨s', ?_, h2⟩
    simp only [naryPropagate]
    rw [e1, Res.ok_bind, ← h3]
    exact e2)

/-- C24 for the operations without an inverse (maximum, minimum): after every history of changes of
any operands, the value at each position is the operation over all operands, the reported change is
exact and reverting restores. -/
theorem C24_nary_recompute (func : α → α → α) {shape : List Int} (hd : dynamicShape shape = false) :
    Incremental ArrRel [] (naryNode func none shape) (fun xs => ⟨shape, naryValue func xs⟩)
      (fun xs => xs ≠ [] ∧ ∀ x ∈ xs, x.shape = shape ∧ x.WF) :=
  (naryContractRecompute func hd).incremental

/-- C24 for the operations with an inverse; the sum and the product follow. -/
theorem C24_nary_inverse {func : α → α → α} {inv : α → α → Option α} {e : α}
    (L : InverseLaws func inv e) {shape : List Int} (hd : dynamicShape shape = false) :
    Incremental ArrRel [] (naryNode func (some inv) shape) (fun xs => ⟨shape, naryValue func xs⟩)
      (fun xs => xs ≠ [] ∧ ∀ x ∈ xs, x.shape = shape ∧ x.WF) :=
  (naryContractInverse L hd).incremental

theorem plus_laws : InverseLaws (· + ·) plusInv 0 where
  comm := add_comm
  assoc := add_assoc
  unit := zero_add
  cancel := by intro q o q' h; simp only [plusInv, Option.some.injEq] at h; rw [← h, add_sub_cancel_right]

theorem times_laws : InverseLaws (· * ·) timesInv 1 where
  comm := mul_comm
  assoc := mul_assoc
  unit := one_mul
  cancel := by
    intro q o q' h
    simp only [timesInv] at h
    split_ifs at h with h0
    simp only [Option.some.injEq] at h
    rw [← h, mul_div_cancel_right₀ _ h0]

theorem C24_sum {shape : List Int} (hd : dynamicShape shape = false) :
    Incremental ArrRel [] (naryNode (· + ·) (some plusInv) shape)
      (fun xs => ⟨shape, naryValue (· + ·) xs⟩) (fun xs => xs ≠ [] ∧ ∀ x ∈ xs, x.shape = shape ∧ x.WF) :=
  C24_nary_inverse plus_laws hd

/-- The product, also when factors become zero and come back. -/
theorem C24_product {shape : List Int} (hd : dynamicShape shape = false) :
    Incremental ArrRel [] (naryNode (· * ·) (some timesInv) shape)
      (fun xs => ⟨shape, naryValue (· * ·) xs⟩) (fun xs => xs ≠ [] ∧ ∀ x ∈ xs, x.shape = shape ∧ x.WF) :=
  C24_nary_inverse times_laws hd

/-! The product of three arrays while a factor becomes zero and comes back. -/

private def rounds : List (Round (Arr Rat) (List (Update Rat))) :=
  [⟨[(⟨[2], [0, 3]⟩, [Update.change 0 2 0]), (⟨[2], [5, 7]⟩, []), (⟨[2], [1, 1]⟩, [])], true⟩,
    ⟨[(⟨[2], [4, 3]⟩, [Update.change 0 0 4]), (⟨[2], [5, 8]⟩, [Update.change 1 7 8]),
      (⟨[2], [1, 1]⟩, [])], true⟩]

example : Legal ArrRel (fun xs => xs ≠ [] ∧ ∀ x ∈ xs, x.shape = [2] ∧ x.WF)
    [⟨[2], [2, 3]⟩, ⟨[2], [5, 7]⟩, ⟨[2], [1, 1]⟩] rounds
    [⟨[2], [4, 3]⟩, ⟨[2], [5, 8]⟩, ⟨[2], [1, 1]⟩] := by decide +kernel

example : (naryNode (· * ·) (some timesInv) [2]).after
    [⟨[2], [2, 3]⟩, ⟨[2], [5, 7]⟩, ⟨[2], [1, 1]⟩] rounds = .ok (⟨[2], [20, 24]⟩, []) := by
  decide +kernel

end Verif
