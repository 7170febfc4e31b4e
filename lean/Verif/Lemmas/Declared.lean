import Verif.Model.Declared
import Verif.Lemmas.Catalog
import Verif.Props.BoundsReduce
import Verif.Props.Integral
import Verif.Props.Constants
import Verif.Props.SizeInfo

set_option linter.unusedSectionVars false
set_option linter.unusedSimpArgs false
set_option linter.unusedVariables false

/-! Helper lemmas: every kind of symbol of the catalog declares the truth if its operands do. -/

namespace Verif

/-- Excluded: `square` of an operand that may be negative (`C35_square_fails`), the greatest and least element of
arrays that may be empty (`C36_extreme_empty_fails`), and roots computed by a function that is not monotone. -/
def Kind.Tame (k : Kind) (ins : List Claim) (ps : List (List (List Int))) : Prop :=
  match k, ins with
  | .unary op, [c] => op.Sound ∧ (op = .square → 0 ≤ c.range.lo)
  | .fold _ (some _), _ => dynamicShape (Kind.shape1 (ps.getD 0 [])) = false ∧
      1 ≤ (Kind.shape1 (ps.getD 0 [])).prod
  | _, _ => True

/-- One element is as declared. -/
def Claim.Elem (c : Claim) (x : Rat) : Prop := c.range.Has x ∧ (c.integral = true → IsInt x)

theorem Claim.holds_single {c : Claim} {a : Arr Rat} : c.Holds [a] ↔ ∀ x ∈ a.data, c.Elem x := by
  simp [Claim.Holds, Claim.Elem]

theorem Claim.Elem.default {x : Rat} (h : Finite x) : Claim.Elem ⟨.default, false⟩ x := ⟨h, by simp⟩

theorem nat_elem {P : Rat} {v : Rat} {k : Nat} (hk : (k : Rat) + 1 ≤ P) (hv : v = k) :
    Claim.Elem ⟨⟨0, P - 1⟩, true⟩ v := by
  subst hv
  refine ⟨⟨by positivity, ?_⟩, fun _ => ⟨k, by simp⟩⟩
  show (k : Rat) ≤ P - 1
  linarith

theorem bit_elem {v : Rat} (h : v = 0 ∨ v = 1) : Claim.Elem ⟨⟨0, 1⟩, true⟩ v := by
  rcases h with rfl | rfl
  · exact ⟨⟨le_rfl, zero_le_one⟩, fun _ => IsInt.zero⟩
  · exact ⟨⟨zero_le_one, le_rfl⟩, fun _ => IsInt.one⟩

/-- Decisions. -/
theorem decision_claim {k : Kind} {ps : List (List (List Int))} {out : List (List Int)}
    (hd : k.isDecision = true) (hm : k.make ps = .ok out) {xs : List Val} (hx : (k.node ps out).ok xs)
    {ins : List Claim} {info : SizeInfo} {known : Res SizeKnown} {operand : List Int} {c : Claim}
    (hc : k.claim ins info known operand = .ok c) : c.Holds ((k.node ps out).f xs) := by
  cases k with
  | integer shape lo? hi? =>
    obtain ⟨data, rfl, _, hb⟩ := hx
    simp only [Kind.claim, Res.ok.injEq] at hc
    subst hc
    show Claim.Holds _ [_]
    rw [Claim.holds_single]
    intro x hx
    obtain ⟨k, rfl, h1, h2⟩ := hb x hx
    have h1 : lo?.getD 0 ≤ k := h1
    have h2 : k ≤ hi?.getD 2000000000 := h2
    exact ⟨⟨Int.cast_le.2 h1, Int.cast_le.2 h2⟩, fun _ => ⟨k, rfl⟩⟩
  | binaryVar shape =>
    obtain ⟨data, rfl, _, hb⟩ := hx
    simp only [Kind.claim, Res.ok.injEq] at hc
    subst hc
    show Claim.Holds _ [_]
    rw [Claim.holds_single]
    intro x hx
    obtain ⟨k, rfl, h1, h2⟩ := hb x hx
    have h1 : 0 ≤ k := h1
    have h2 : k ≤ 1 := h2
    exact bit_elem (by
      obtain rfl | rfl : k = 0 ∨ k = 1 := by omega
      · left; simp
      · right; simp)
  | collection n lo hi =>
    obtain ⟨data, rfl, _, hb, _⟩ := hx
    simp only [Kind.claim, Res.ok.injEq] at hc
    subst hc
    show Claim.Holds _ [_]
    rw [Claim.holds_single]
    intro x hx
    obtain ⟨k, hk, rfl⟩ := hb x hx
    refine nat_elem (k := k) ?_ rfl
    have hk : k < n.toNat := hk
    have : (k : Int) + 1 ≤ n := by omega
    exact_mod_cast this
  | disjointLists P N =>
    obtain ⟨lists, rfl, _, hp⟩ := hx
    simp only [Kind.claim, Res.ok.injEq] at hc
    subst hc
    intro a ha x hx
    obtain ⟨l, hl, rfl⟩ := List.mem_map.1 (show a ∈ lists.map fun l => (⟨[-1], l⟩ : Arr Rat) from ha)
    have : x ∈ lists.flatten := List.mem_flatten.2 ⟨l, hl, hx⟩
    obtain ⟨k, hk, rfl⟩ := List.mem_map.1 (hp.mem_iff.1 this)
    rw [List.mem_range] at hk
    refine nat_elem (k := k) ?_ rfl
    have : (k : Int) + 1 ≤ P := by omega
    exact_mod_cast this
  | disjointBitSets P N =>
    obtain ⟨sets, rfl, _, hp⟩ := hx
    simp only [Kind.claim, Res.ok.injEq] at hc
    subst hc
    intro a ha x hx
    obtain ⟨l, hl, rfl⟩ := List.mem_map.1
      (show a ∈ sets.map fun l => (⟨[((P.toNat : Nat) : Int)], l⟩ : Arr Rat) from ha)
    exact bit_elem ((hp.1 l hl).2 x hx)
  | _ => simp [Kind.isDecision] at hd

theorem constant_claim {a : Arr Rat} {ins : List Claim} {info : SizeInfo} {known : Res SizeKnown}
    {operand : List Int} {c : Claim} (hc : (Kind.constant a).claim ins info known operand = .ok c) :
    c.Holds [a] := by
  rw [Claim.holds_single]
  simp only [Kind.claim] at hc
  have key : ∀ q ans ca, statQuery a.data none q = .ok (ans, ca) → StatCorrect a.data q ans := by
    intro q ans ca h
    obtain ⟨as, e, hf⟩ := C43_answers a.data [q]
    simp only [statQueries, h, Res.ok_bind, Res.ok.injEq] at e
    subst e
    cases hf with
    | cons h _ => exact h
  split at hc
  · rename_i lo _ hi _ b _ h1 h2 h3
    simp only [Res.ok.injEq] at hc
    subst hc
    have k1 := key _ _ _ h1
    have k2 := key _ _ _ h2
    have k3 := key _ _ _ h3
    simp only [StatCorrect] at k1 k2 k3
    intro x hx
    have hne : a.data ≠ [] := List.ne_nil_of_mem hx
    rw [if_neg hne] at k1 k2
    exact ⟨⟨k1.2 x hx, k2.2 x hx⟩, fun h => k3.1 h x hx⟩
  · cases hc

theorem getD_elem {c : Claim} {l : List Rat} (h : ∀ x ∈ l, c.Elem x) {i : Nat} (hi : i < l.length) (d : Rat) :
    c.Elem (l.getD i d) := by
  rw [List.getD_eq_getElem?_getD, List.getElem?_eq_getElem hi, Option.getD_some]
  exact h _ (List.getElem_mem hi)

theorem headD_elem {c : Claim} {l : List Rat} (h : ∀ x ∈ l, c.Elem x) (hi : 0 < l.length) (d : Rat) :
    c.Elem (l.headD d) := by
  cases l with
  | nil => simp at hi
  | cons x l => exact h x (by simp)

theorem unary_elem {op : UnaryOp} (hs : op.Sound) {c : Claim} (ha : op.accepts c.range)
    (hsq : op = .square → 0 ≤ c.range.lo) {lo hi : Rat} (hlo : op.min c.range = .ok lo)
    (hhi : op.max c.range = .ok hi) {x : Rat} (hx : c.Elem x) (hf : Finite (op.func x)) :
    Claim.Elem ⟨⟨lo, hi⟩, op.integral c.integral⟩ (op.func x) :=
  ⟨C35_unary_partial hs ha hsq hx.1 hf hlo hhi, fun h => C37_unary h hx.2⟩

theorem binary_elem {op : BinaryOp} {c d : Claim} (ha : op.accepts d.range) {lo hi : Rat}
    (hlo : op.min c.range d.range = .ok lo) (hhi : op.max c.range d.range = .ok hi) {x y : Rat} (hx : c.Elem x)
    (hy : d.Elem y) : Claim.Elem ⟨⟨lo, hi⟩, op.integral c.integral d.integral⟩ (op.func x y) :=
  ⟨C35_binary ha hx.1 hy.1 hlo hhi, fun h => C37_binary h hx.2 hy.2⟩

theorem nary_elem {op : NaryOp} {cs : List Claim} {xs : List Rat} (hne : xs ≠ [])
    (h : List.Forall₂ Claim.Elem cs xs) {lo hi : Rat} (hlo : op.min (cs.map Claim.range) = .ok lo)
    (hhi : op.max (cs.map Claim.range) = .ok hi) :
    Claim.Elem ⟨⟨lo, hi⟩, op.integral (cs.map Claim.integral)⟩ (naryAt op xs) := by
  constructor
  · obtain ⟨lo', hi', e1, e2, h'⟩ := C35_nary (op := op) hne
      (List.forall₂_map_left_iff.2 (h.imp fun _ _ h => h.1))
    rw [hlo] at e1
    rw [hhi] at e2
    simp only [Res.ok.injEq] at e1 e2
    subst e1; subst e2
    exact h'
  · intro hi
    exact C37_nary hi (List.forall₂_map_left_iff.2 (h.imp fun _ _ h => h.2))

/-- The elements at one position of operands with the same length. -/
theorem nary_position {cs : List Claim} {as : List (Arr Rat)}
    (h : List.Forall₂ (fun (c : Claim) (a : Arr Rat) => ∀ x ∈ a.data, c.Elem x) cs as) {i : Nat}
    (hi : ∀ a ∈ as, i < a.data.length) :
    List.Forall₂ Claim.Elem cs (as.map fun a => a.data.getD i default) := by
  induction h with
  | nil => exact .nil
  | cons h hs ih =>
    refine .cons (getD_elem h (hi _ List.mem_cons_self) _) (ih ?_)
    exact fun a ha => hi a (List.mem_cons_of_mem _ ha)

theorem naryValue_at (op : NaryOp) (a : Arr Rat) (as : List (Arr Rat)) {y : Rat}
    (hy : y ∈ naryValue op.func (a :: as)) :
    ∃ i < a.data.length, y = naryAt op ((a :: as).map fun a => a.data.getD i default) := by
  simp only [naryValue, List.mem_map, List.mem_range] at hy
  obtain ⟨i, hi, rfl⟩ := hy
  refine ⟨i, hi, ?_⟩
  simp only [List.map_cons, naryAt, List.foldl_map]

/-- An array operand and what is declared about it. -/
def OperandFits (s : List Int) (c : Claim) (a : Arr Rat) : Prop :=
  a.shape = s ∧ a.WF ∧ ∀ x ∈ a.data, c.Elem x

theorem fits_cons {s : List Int} {ps : List (List (List Int))} {xs : List Val} {ins : List Claim}
    (hx : List.Forall₂ HasShapes ([s] :: ps) xs) (hin : List.Forall₂ Claim.Holds ins xs) :
    ∃ a c xs' ins', xs = [a] :: xs' ∧ ins = c :: ins' ∧ OperandFits s c a ∧
      List.Forall₂ HasShapes ps xs' ∧ List.Forall₂ Claim.Holds ins' xs' := by
  cases hx with
  | cons h1 h2 =>
    obtain ⟨a, rfl, ha, hw⟩ := h1.one
    cases hin with
    | cons h3 h4 => exact ⟨a, _, _, _, rfl, rfl, ⟨ha, hw, Claim.holds_single.1 h3⟩, h2, h4⟩

theorem fits_nil {xs : List Val} {ins : List Claim}
    (hx : List.Forall₂ HasShapes [] xs) (hin : List.Forall₂ Claim.Holds ins xs) : xs = [] ∧ ins = [] := by
  cases hx; cases hin; exact ⟨rfl, rfl⟩

theorem fits_one {s : List Int} {xs : List Val} {ins : List Claim}
    (hx : List.Forall₂ HasShapes [[s]] xs) (hin : List.Forall₂ Claim.Holds ins xs) :
    ∃ a c, xs = [[a]] ∧ ins = [c] ∧ OperandFits s c a := by
  obtain ⟨a, c, xs', ins', rfl, rfl, h, h1, h2⟩ := fits_cons hx hin
  obtain ⟨rfl, rfl⟩ := fits_nil h1 h2
  exact ⟨a, c, rfl, rfl, h⟩

theorem fits_two {s t : List Int} {xs : List Val} {ins : List Claim}
    (hx : List.Forall₂ HasShapes [[s], [t]] xs) (hin : List.Forall₂ Claim.Holds ins xs) :
    ∃ a c b d, xs = [[a], [b]] ∧ ins = [c, d] ∧ OperandFits s c a ∧ OperandFits t d b := by
  obtain ⟨a, c, xs', ins', rfl, rfl, h, h1, h2⟩ := fits_cons hx hin
  obtain ⟨b, d, rfl, rfl, h'⟩ := fits_one h1 h2
  exact ⟨a, c, b, d, rfl, rfl, h, h'⟩

theorem fits_three {s t u : List Int} {xs : List Val} {ins : List Claim}
    (hx : List.Forall₂ HasShapes [[s], [t], [u]] xs) (hin : List.Forall₂ Claim.Holds ins xs) :
    ∃ a c b d e f, xs = [[a], [b], [e]] ∧ ins = [c, d, f] ∧ OperandFits s c a ∧ OperandFits t d b ∧
      OperandFits u f e := by
  obtain ⟨a, c, xs', ins', rfl, rfl, h, h1, h2⟩ := fits_cons hx hin
  obtain ⟨b, d, e, f, rfl, rfl, h', h''⟩ := fits_two h1 h2
  exact ⟨a, c, b, d, e, f, rfl, rfl, h, h', h''⟩

theorem fits_all : ∀ {ss : List (List Int)} {xs : List Val} {ins : List Claim},
    List.Forall₂ HasShapes (ss.map fun s => [s]) xs → List.Forall₂ Claim.Holds ins xs →
    xs = (xs.map single).map (fun a => [a]) ∧ (xs.map single).map Arr.shape = ss ∧
      (∀ a ∈ xs.map single, a.WF) ∧
      List.Forall₂ (fun (c : Claim) (a : Arr Rat) => ∀ x ∈ a.data, c.Elem x) ins (xs.map single)
  | [], xs, ins, hx, hin => by
    obtain ⟨rfl, rfl⟩ := fits_nil hx hin
    exact ⟨rfl, rfl, by simp, .nil⟩
  | s :: ss, xs, ins, hx, hin => by
    obtain ⟨a, c, xs', ins', rfl, rfl, h, h1, h2⟩ := fits_cons hx hin
    obtain ⟨k1, k2, k3, k4⟩ := fits_all h1 h2
    refine ⟨?_, ?_, ?_, ?_⟩
    · rw [List.map_cons, List.map_cons, ← k1]; rfl
    · rw [List.map_cons, List.map_cons, k2]; exact congrArg (· :: ss) h.1
    · rw [List.map_cons]
      intro b hb
      rcases List.mem_cons.1 hb with rfl | hb
      · exact h.2.1
      · exact k3 b hb
    · rw [List.map_cons]; exact .cons h.2.2 k4

theorem sizeOne_fits {s : List Int} (h : sizeOne s = true) {c : Claim} {a : Arr Rat} (ha : OperandFits s c a) :
    0 < a.data.length := by
  obtain ⟨h1, h2, _⟩ := ha
  simp only [sizeOne, Bool.and_eq_true, Bool.not_eq_true', decide_eq_true_eq] at h
  have := h2.length_fixed (show dynamicShape a.shape = false by rw [h1]; exact h.1)
  rw [h1, h.2] at this
  omega

theorem binary_values {op : BinaryOp} {l r s : List Int} (hb : binaryShape l r = .ok s) {c d : Claim}
    {a b : Arr Rat} (ha : OperandFits l c a) (hb' : OperandFits r d b) {y : Rat}
    (hy : y ∈ binaryValue op.func a b) : ∃ u v, c.Elem u ∧ d.Elem v ∧ y = op.func u v := by
  obtain ⟨a1, a2, a3⟩ := ha
  obtain ⟨b1, b2, b3⟩ := hb'
  unfold binaryValue at hy
  split_ifs at hy with h1 h2
  · obtain ⟨v, hv, rfl⟩ := List.mem_map.1 hy
    exact ⟨_, v, headD_elem a3 (sizeOne_fits h1 ⟨rfl, a2, a3⟩) _, b3 v hv, rfl⟩
  · obtain ⟨u, hu, rfl⟩ := List.mem_map.1 hy
    exact ⟨u, _, a3 u hu, headD_elem b3 (sizeOne_fits h2 ⟨rfl, b2, b3⟩) _, rfl⟩
  · rw [List.mem_iff_getElem] at hy
    obtain ⟨i, hi, rfl⟩ := hy
    rw [List.getElem_zipWith]
    exact ⟨_, _, a3 _ (List.getElem_mem _), b3 _ (List.getElem_mem _), rfl⟩

theorem nary_values {op : NaryOp} {s : List Int} {ins : List Claim} {as : List (Arr Rat)}
    (hs : ∀ a ∈ as, a.shape = s) (hd : dynamicShape s = false) (hw : ∀ a ∈ as, a.WF)
    (h : List.Forall₂ (fun (c : Claim) (a : Arr Rat) => ∀ x ∈ a.data, c.Elem x) ins as) {lo hi : Rat}
    (hlo : op.min (ins.map Claim.range) = .ok lo) (hhi : op.max (ins.map Claim.range) = .ok hi) {y : Rat}
    (hy : y ∈ naryValue op.func as) : Claim.Elem ⟨⟨lo, hi⟩, op.integral (ins.map Claim.integral)⟩ y := by
  cases as with
  | nil => simp [naryValue] at hy
  | cons a as =>
    obtain ⟨i, hi', rfl⟩ := naryValue_at op a as hy
    have hlen : ∀ b ∈ a :: as, (b.data.length : Int) = s.prod := by
      intro b hb
      have := (hw b hb).length_fixed (show dynamicShape b.shape = false by rw [hs b hb]; exact hd)
      rw [hs b hb] at this
      exact this
    refine nary_elem (by simp) (nary_position h ?_) hlo hhi
    intro b hb
    have h1 := hlen a List.mem_cons_self
    have h2 := hlen b hb
    omega

theorem inShape_of_mem : ∀ {s idx : List Int}, idx ∈ allCoords s → InShape s idx
  | [], idx, h => by
    simp only [allCoords, List.mem_singleton] at h
    subst h; trivial
  | d :: s, idx, h => by
    simp only [allCoords, List.mem_flatMap, List.mem_map, List.mem_range] at h
    obtain ⟨i, hi, t, ht, rfl⟩ := h
    refine ⟨by simp, ?_, inShape_of_mem ht⟩
    simp only [Int.ofNat_eq_natCast]
    omega

theorem partialSum_values {axis : Nat} {init : Rat} {s : List Int} (hpos : ∀ d ∈ s, 0 < d)
    (ha : axis < s.length) {c : Claim} {a : Arr Rat} (h : OperandFits s c a) (hd : dynamicShape s = false)
    {y : Rat} (hy : y ∈ partialSumValue s axis init a.data) :
    Claim.Elem ⟨⟨partialSumMin init (s.getD axis 0) c.range, partialSumMax init (s.getD axis 0) c.range⟩,
      partialSumIntegral init c.integral⟩ y := by
  obtain ⟨h1, h2, h3⟩ := h
  have hlen := h2.length_fixed (show dynamicShape a.shape = false by rw [h1]; exact hd)
  rw [h1] at hlen
  obtain ⟨idx, hidx, rfl⟩ := List.mem_map.1 hy
  have hel : ∀ x ∈ (List.range (s.getD axis 0).toNat).map (fun (j : Nat) =>
      a.data.getD (rowMajor s (idx.insertIdx axis (j : Int))).toNat 0), c.Elem x := by
    intro x hx
    obtain ⟨j, hj, rfl⟩ := List.mem_map.1 hx
    rw [List.mem_range] at hj
    have hin : InShape s (idx.insertIdx axis (j : Int)) :=
      (inShape_of_mem hidx).insertIdx axis _ ha (by omega) (by omega)
    have := hin.rowMajor_range
    rw [shapeProd_eq] at this
    exact getD_elem h3 (by omega) _
  have hdim : 0 < s.getD axis 0 := by
    rw [List.getD_eq_getElem?_getD, List.getElem?_eq_getElem ha, Option.getD_some]
    exact hpos _ (List.getElem_mem ha)
  refine ⟨C36_partialSum (by rw [List.length_map, List.length_range]; omega) fun x hx => (hel x hx).1, ?_⟩
  intro hi
  exact C37_partialSum hi fun hi x hx => (hel x hx).2 hi

theorem reduce_elem {op : ReduceOp} {init : Rat} {n : SizeKnown} {c : Claim} {xs : List Rat}
    (hn : n.Has xs.length) (hx : ∀ x ∈ xs, c.Elem x) (hf : Finite (reduceValue op init xs)) :
    Claim.Elem ⟨⟨op.min init n c.range, op.max init n c.range⟩, op.integral init c.integral⟩
      (reduceValue op init xs) :=
  ⟨C36_reduce hn (fun x h => (hx x h).1) hf, fun h => C37_reduce h fun hi x h => (hx x h).2 hi⟩

theorem extreme_elem {op : FoldOp} {init : Option Rat} {c : Claim} {xs : List Rat} (hne : xs ≠ [])
    (hx : ∀ x ∈ xs, c.Elem x) :
    Claim.Elem ⟨⟨op.rangeMin init c.range, op.rangeMax init c.range⟩, FoldOp.integral init c.integral⟩
      (extremeValue op init xs) :=
  ⟨C36_extreme_partial hne (fun x h => (hx x h).1), fun h => C37_extreme h fun hi x h => (hx x h).2 hi⟩

theorem where_elem {c d : Claim} {x y : Rat} (hx : c.Elem x) (hy : d.Elem y) (b : Bool) :
    Claim.Elem ⟨⟨whereMin c.range d.range, whereMax c.range d.range⟩, whereIntegral c.integral d.integral⟩
      (if b then x else y) :=
  ⟨C35_where hx.1 hy.1 b, fun h => C37_where h hx.2 hy.2 b⟩

theorem where_left {c d : Claim} {x : Rat} (hx : c.Elem x) :
    Claim.Elem ⟨⟨whereMin c.range d.range, whereMax c.range d.range⟩, whereIntegral c.integral d.integral⟩ x := by
  refine ⟨⟨le_trans (min_le_left _ _) hx.1.1, le_trans hx.1.2 (le_max_left _ _)⟩, fun h => ?_⟩
  simp only [whereIntegral, Bool.and_eq_true] at h
  exact hx.2 h.1

theorem where_right {c d : Claim} {y : Rat} (hy : d.Elem y) :
    Claim.Elem ⟨⟨whereMin c.range d.range, whereMax c.range d.range⟩, whereIntegral c.integral d.integral⟩ y := by
  refine ⟨⟨le_trans (min_le_right _ _) hy.1.1, le_trans hy.1.2 (le_max_right _ _)⟩, fun h => ?_⟩
  simp only [whereIntegral, Bool.and_eq_true] at h
  exact hy.2 h.2

theorem mem_single {a b : Arr Rat} (h : b ∈ ([a] : Val)) : b = a := by simpa using h

/-- Symbols that are not decisions. -/
theorem kind_claim {k : Kind} {ps : List (List (List Int))} {out : List (List Int)}
    (hd : k.isDecision = false) (hm : k.make ps = .ok out) (hr : k.Regular ps)
    (hg : ∀ p ∈ ps, ∀ s ∈ p, GoodShape s) {xs : List Val} (hx : List.Forall₂ HasShapes ps xs)
    {ins : List Claim} (hin : List.Forall₂ Claim.Holds ins xs) (hck : k.rangeChecks ins) (ht : k.Tame ins ps)
    (hfin : ∀ a ∈ (k.node ps out).f xs, ∀ y ∈ a.data, Finite y)
    {info : SizeInfo} {known : Res SizeKnown} {operand : List Int}
    (hop : operand = Kind.shape1 (ps.headD []))
    (hknown : xs ≠ [] → ∀ n, known = .ok n → n.Has (single (xs.headD [])).data.length)
    (hinfo : xs ≠ [] → ∀ m ∈ info.min, m ≤ ((single (xs.headD [])).data.length : Int))
    (hinfo' : xs ≠ [] → ∀ m ∈ info.max, ((single (xs.headD [])).data.length : Int) ≤ m)
    (hlen : xs ≠ [] → (single (xs.headD [])).data.length ≤ 2 ^ 63)
    {c : Claim} (hc : k.claim ins info known operand = .ok c) : c.Holds ((k.node ps out).f xs) := by
  cases k with
  | constant a => exact constant_claim hc
  | output i =>
    match ps, hm with
    | [p], hm0 =>
      cases hx with
      | cons h1 h2 =>
        cases h2
        cases hin with
        | cons h3 h4 =>
          cases h4
          simp only [Kind.claim, Res.ok.injEq] at hc
          subst hc
          simp only [Kind.make] at hm0
          obtain ⟨_, hi, hm⟩ := Res.bind_eq_ok.1 hm0
          have hi := guardThrow_eq_ok.1 hi
          obtain ⟨rfl, hw⟩ := h1
          rw [List.length_map] at hi
          intro a ha x hx
          refine h3 a ?_ x hx
          have ha := mem_single ha
          rw [ha]
          simp only [List.headD_cons, List.getD_eq_getElem?_getD, List.getElem?_eq_getElem hi, Option.getD_some]
          exact List.getElem_mem hi
  | unary op =>
    match ps, hm with
    | [p], hm0 =>
      simp only [Kind.make] at hm0
      obtain ⟨s, hs, hm⟩ := Res.bind_eq_ok.1 hm0
      obtain rfl := arrayShape_ok hs
      obtain ⟨a, c', rfl, rfl, h1, h2, h3⟩ := fits_one hx hin
      simp only [Kind.claim] at hc
      obtain ⟨lo, hlo, hc⟩ := Res.bind_eq_ok.1 hc
      obtain ⟨hi, hhi, hc⟩ := Res.bind_eq_ok.1 hc
      simp only [Res.ok.injEq] at hc
      subst hc
      intro b hb y hy
      have hf := hfin b hb y hy
      rw [mem_single hb] at hy
      obtain ⟨x, hx, rfl⟩ := List.mem_map.1 (show y ∈ a.data.map op.func from hy)
      exact unary_elem ht.1 hck ht.2 hlo hhi (h3 x hx) hf
  | binary op =>
    match ps, hm with
    | [p, q], hm0 =>
      simp only [Kind.make] at hm0
      obtain ⟨l, hl, hm⟩ := Res.bind_eq_ok.1 hm0
      obtain ⟨r, hr', hm⟩ := Res.bind_eq_ok.1 hm
      obtain ⟨s, hs, hz⟩ := Res.bind_eq_ok.1 hm
      obtain rfl := arrayShape_ok hl
      obtain rfl := arrayShape_ok hr'
      obtain ⟨a, c', b, d', rfl, rfl, ha, hb⟩ := fits_two hx hin
      simp only [Kind.claim] at hc
      obtain ⟨lo, hlo, hc⟩ := Res.bind_eq_ok.1 hc
      obtain ⟨hi, hhi, hc⟩ := Res.bind_eq_ok.1 hc
      simp only [Res.ok.injEq] at hc
      subst hc
      intro e he y hy
      rw [mem_single he] at hy
      obtain ⟨u, v, hu, hv, rfl⟩ := binary_values hs ha hb (show y ∈ binaryValue op.func a b from hy)
      exact binary_elem hck hlo hhi hu hv
  | nary op =>
    have hm : (do
        let ss ← ps.mapM Kind.arrayShape
        let s ← naryShape ss
        Res.ok [s]) = .ok out := hm
    obtain ⟨ss, hss, hm⟩ := Res.bind_eq_ok.1 hm
    obtain ⟨s, hs, hm⟩ := Res.bind_eq_ok.1 hm
    obtain rfl := mapM_arrayShape hss
    obtain ⟨h1, h2, h3⟩ := naryShape_ok hs
    obtain ⟨k1, k2, k3, k4⟩ := fits_all hx hin
    have hc : (do
        let lo ← op.min (ins.map Claim.range)
        let hi ← op.max (ins.map Claim.range)
        Res.ok (⟨⟨lo, hi⟩, op.integral (ins.map Claim.integral)⟩ : Claim)) = .ok c := by
      cases ins <;> exact hc
    obtain ⟨lo, hlo, hc⟩ := Res.bind_eq_ok.1 hc
    obtain ⟨hi, hhi, hc⟩ := Res.bind_eq_ok.1 hc
    simp only [Res.ok.injEq] at hc
    subst hc
    have key : ∀ y ∈ naryValue op.func (xs.map single),
        Claim.Elem ⟨⟨lo, hi⟩, op.integral (ins.map Claim.integral)⟩ y := by
      intro y hy
      refine nary_values ?_ h3 k3 k4 hlo hhi hy
      intro a ha
      apply h2
      rw [← k2]
      exact List.mem_map_of_mem ha
    cases op <;> (intro e he y hy; rw [mem_single he] at hy; exact key y hy)
  | reduce op init =>
    match ps, hm with
    | [p], hm0 =>
      simp only [Kind.make] at hm0
      obtain ⟨s, hs, hm⟩ := Res.bind_eq_ok.1 hm0
      obtain rfl := arrayShape_ok hs
      obtain ⟨a, c', rfl, rfl, h1, h2, h3⟩ := fits_one hx hin
      simp only [Kind.claim] at hc
      obtain ⟨n, hn, hc⟩ := Res.bind_eq_ok.1 hc
      simp only [Res.ok.injEq] at hc
      subst hc
      have hn' : n.Has a.data.length := hknown (by simp) n hn
      cases op <;>
        (intro e he y hy
         have hf := hfin e he y hy
         rw [mem_single he] at hy
         obtain rfl := List.mem_singleton.1 hy
         exact reduce_elem hn' h3 hf)
  | fold op init =>
    match ps, hm with
    | [p], hm0 =>
      simp only [Kind.make] at hm0
      obtain ⟨s, hs, hm⟩ := Res.bind_eq_ok.1 hm0
      obtain ⟨_, hi, hm⟩ := Res.bind_eq_ok.1 hm
      have hi := guardThrow_eq_ok.1 hi
      obtain rfl := arrayShape_ok hs
      obtain ⟨a, c', rfl, rfl, h1, h2, h3⟩ := fits_one hx hin
      simp only [Kind.claim, Res.ok.injEq] at hc
      subst hc
      have hs' : dynamicShape s = false ∧ 1 ≤ s.prod := by
        cases init with
        | none => exact hi rfl
        | some i => exact ht
      have hl := h2.length_fixed (show dynamicShape a.shape = false by rw [h1]; exact hs'.1)
      rw [h1] at hl
      have hne : a.data ≠ [] := by
        intro h
        rw [h] at hl
        simp at hl
        omega
      cases op <;>
        (intro e he y hy
         rw [mem_single he] at hy
         obtain rfl := List.mem_singleton.1 hy
         exact extreme_elem hne h3)
  | partialSum axis init =>
    match ps, hm with
    | [p], hm0 =>
      simp only [Kind.make] at hm0
      obtain ⟨s, hs, hm⟩ := Res.bind_eq_ok.1 hm0
      obtain ⟨_, ha, hm⟩ := Res.bind_eq_ok.1 hm
      obtain ⟨_, hdy, hm⟩ := Res.bind_eq_ok.1 hm
      obtain ⟨_, hp, hm⟩ := Res.bind_eq_ok.1 hm
      obtain rfl := arrayShape_ok hs
      have ha := guardUB_eq_ok.1 ha
      have hdy := guardThrow_eq_ok.1 hdy
      have hp := guardThrow_eq_ok.1 hp
      obtain ⟨a, c', rfl, rfl, h⟩ := fits_one hx hin
      simp only [Kind.claim, Res.ok.injEq] at hc
      subst hc
      have hop : operand = s := hop
      subst hop
      have hpos := dims_pos (hg [operand] (by simp) operand (by simp)) hdy (by omega)
      intro e he y hy
      rw [mem_single he] at hy
      exact partialSum_values hpos ha h hdy hy
  | reshape shape =>
    match ps, hm with
    | [p], hm0 =>
      simp only [Kind.make] at hm0
      obtain ⟨s, hs, hm⟩ := Res.bind_eq_ok.1 hm0
      obtain rfl := arrayShape_ok hs
      obtain ⟨a, c', rfl, rfl, h⟩ := fits_one hx hin
      simp only [Kind.claim, Res.ok.injEq] at hc
      subst hc
      exact fun e he y hy => Claim.Elem.default (hfin e he y hy)
  | size =>
    match ps, hm with
    | [p], hm0 =>
      simp only [Kind.make] at hm0
      obtain ⟨s, hs, hm⟩ := Res.bind_eq_ok.1 hm0
      obtain rfl := arrayShape_ok hs
      obtain ⟨a, c', rfl, rfl, h⟩ := fits_one hx hin
      simp only [Kind.claim, Res.ok.injEq] at hc
      subst hc
      intro e he y hy
      rw [mem_single he] at hy
      obtain rfl : y = (a.data.length : Rat) := List.mem_singleton.1 hy
      have hlen : a.data.length ≤ 2 ^ 63 := hlen (by simp)
      refine ⟨⟨?_, ?_⟩, fun _ => ⟨a.data.length, by simp⟩⟩
      · have : info.min.getD 0 ≤ (a.data.length : Int) := by
          cases hm : info.min with
          | none => simp
          | some m => exact hinfo (by simp) m hm
        have := (Int.cast_le (R := Rat)).2 this
        rwa [Int.cast_natCast] at this
      · have : (a.data.length : Int) ≤ info.max.getD (2 ^ 63) := by
          cases hm : info.max with
          | none => simp only [Option.getD_none]; exact_mod_cast hlen
          | some m => exact hinfo' (by simp) m hm
        have := (Int.cast_le (R := Rat)).2 this
        rwa [Int.cast_natCast] at this
  | where_ =>
    match ps, hm with
    | [p, q, r], hm0 =>
      simp only [Kind.make] at hm0
      obtain ⟨w, hw, hm⟩ := Res.bind_eq_ok.1 hm0
      obtain ⟨x, hx', hm⟩ := Res.bind_eq_ok.1 hm
      obtain ⟨y, hy', hm⟩ := Res.bind_eq_ok.1 hm
      obtain ⟨s, hs, hz⟩ := Res.bind_eq_ok.1 hm
      obtain rfl := arrayShape_ok hw
      obtain rfl := arrayShape_ok hx'
      obtain rfl := arrayShape_ok hy'
      obtain ⟨a, c1, b, c2, e, c3, rfl, rfl, ha, hb, he⟩ := fits_three hx hin
      simp only [Kind.claim, Res.ok.injEq] at hc
      subst hc
      have hs0 := hs
      unfold whereShape at hs0
      obtain ⟨_, h1, hs'⟩ := Res.bind_eq_ok.1 hs0
      clear hs0
      have h1' := guardThrow_eq_ok.1 h1
      subst h1'
      intro o ho z hz
      rw [mem_single ho] at hz
      replace hz : z ∈ whereValue w [a, b, e] := hz
      simp only [whereValue] at hz
      by_cases hone : sizeOne w = true
      · rw [if_pos hone] at hz
        split_ifs at hz
        · exact where_left (hb.2.2 z hz)
        · exact where_right (he.2.2 z hz)
      · rw [if_neg hone] at hz hs'
        obtain ⟨_, h2, hs'⟩ := Res.bind_eq_ok.1 hs'
        obtain ⟨_, h3, hs'⟩ := Res.bind_eq_ok.1 hs'
        have h2 := guardThrow_eq_ok.1 h2
        have h3 := guardThrow_eq_ok.1 h3
        subst h2
        obtain ⟨i, hi, rfl⟩ := List.mem_map.1 hz
        rw [List.mem_range] at hi
        have l1 := hb.2.1.length_fixed (show dynamicShape b.shape = false by rw [hb.1]; exact h3)
        have l2 := he.2.1.length_fixed (show dynamicShape e.shape = false by rw [he.1]; exact h3)
        rw [hb.1] at l1
        rw [he.1] at l2
        split_ifs
        · exact where_left (getD_elem hb.2.2 hi _)
        · exact where_right (getD_elem he.2.2 (by omega) _)
  | quadratic n ops =>
    match ps, hm with
    | [p], hm0 =>
      simp only [Kind.make] at hm0
      obtain ⟨s, hs, hm⟩ := Res.bind_eq_ok.1 hm0
      obtain rfl := arrayShape_ok hs
      obtain ⟨a, c', rfl, rfl, h⟩ := fits_one hx hin
      simp only [Kind.claim, Res.ok.injEq] at hc
      subst hc
      exact fun e he y hy => Claim.Elem.default (hfin e he y hy)
  | _ => simp [Kind.isDecision] at hd

end Verif
