import Verif.Lemmas.ProgramWhole

set_option linter.unusedSectionVars false
set_option linter.unusedSimpArgs false
set_option linter.unusedVariables false

/-! Helper lemmas: the conditions on programs can be checked by computation. -/

namespace Verif

/-- The range of an operand is acceptable. -/
def Kind.tameCheck (k : Kind) (cs : List Claim) (ps : List (List (List Int))) : Bool :=
  match k, cs with
  | .unary (.squareRoot _), _ => false
  | .unary .square, c :: _ => decide (0 ≤ c.range.lo)
  | .unary _, _ => true
  | .fold _ (some _), _ => !dynamicShape (Kind.shape1 (ps.getD 0 [])) && decide (1 ≤ (Kind.shape1 (ps.getD 0 [])).prod)
  | _, _ => true

theorem Kind.tame_of_check {k : Kind} {cs : List Claim} {ps : List (List (List Int))} (h : k.tameCheck cs ps = true) : k.Tame cs ps := by
  cases k with
  | unary op =>
    match cs with
    | [] => trivial
    | [c] =>
      cases op with
      | squareRoot r => simp [Kind.tameCheck] at h
      | square =>
        simp only [Kind.tameCheck, decide_eq_true_eq] at h
        exact ⟨trivial, fun _ => h⟩
      | _ => exact ⟨trivial, fun h => by cases h⟩
    | _ :: _ :: _ => trivial
  | fold op init =>
    cases init with
    | none => cases cs <;> trivial
    | some v =>
      simp only [Kind.tameCheck, Bool.and_eq_true, Bool.not_eq_true', decide_eq_true_eq] at h
      cases cs <;> exact h
  | _ => cases cs <;> trivial

/-- The conditions on symbols of the catalog. -/
def Kind.regularCheck (k : Kind) (ps : List (List (List Int))) : Bool :=
  match k with
  | .integer shape _ _ => !dynamicShape shape && shape.all fun n => decide (0 ≤ n)
  | .binaryVar shape => !dynamicShape shape && shape.all fun n => decide (0 ≤ n)
  | .constant a => decide a.WF && a.shape.all fun n => decide (0 ≤ n)
  | .binary _ => (!dynamicShape (Kind.shape1 (ps.getD 0 [])) || decide ((Kind.shape1 (ps.getD 1 [])).length < (Kind.shape1 (ps.getD 0 [])).length)) &&
      (!dynamicShape (Kind.shape1 (ps.getD 1 [])) || decide ((Kind.shape1 (ps.getD 0 [])).length < (Kind.shape1 (ps.getD 1 [])).length))
  | .partialSum axis _ => decide ((axis : Int) < (Kind.shape1 (ps.getD 0 [])).prod)
  | .reshape shape => shape.all fun n => decide (0 ≤ n)
  | _ => true

theorem Kind.regular_of_check {k : Kind} {ps : List (List (List Int))} (h : k.regularCheck ps = true) : k.Regular ps ∧ k.GivenShapes := by
  cases k <;> simp [Kind.regularCheck, Kind.Regular, Kind.GivenShapes] at h ⊢
  case integer => exact h
  case binaryVar => exact h
  case constant => exact h
  case binary =>
    exact ⟨fun hd => h.1.resolve_left (by simp [hd]), fun hd => h.2.resolve_left (by simp [hd])⟩
  case partialSum => exact h
  case reshape => exact h

instance (i : BasicIndex) : Decidable i.Fits :=
  match i with
  | .at i => inferInstanceAs (Decidable (IsSS i))
  | .slice a b c => inferInstanceAs (Decidable ((∀ x ∈ a, IsSS x) ∧ (∀ x ∈ b, IsSS x) ∧ (∀ x ∈ c, IsSS x)))

/-- The indices can be used. -/
def selectCheck : List Int → List BasicIndex → Bool
  | [], [] => true
  | n :: shape, .at i :: idx => decide (-n ≤ i ∧ i < n) && selectCheck shape idx
  | _ :: shape, .slice _ _ c :: idx => decide (0 < c.getD 1) && selectCheck shape idx
  | _, _ => false

theorem select_of_check : ∀ {shape : List Int} {idx : List BasicIndex}, selectCheck shape idx = true → SelectOk shape idx
  | [], [], _ => trivial
  | n :: shape, .at i :: idx, h => by
    simp only [selectCheck, Bool.and_eq_true, decide_eq_true_eq] at h
    exact ⟨h.1, select_of_check h.2⟩
  | n :: shape, .slice a b c :: idx, h => by
    simp only [selectCheck, Bool.and_eq_true, decide_eq_true_eq] at h
    exact ⟨h.1, select_of_check h.2⟩
  | [], _ :: _, h => by simp [selectCheck] at h
  | _ :: _, [], h => by simp [selectCheck] at h

/-- Slices of dynamic arrays. -/
def dynamicCheck : List Int → List BasicIndex → Bool
  | n :: rest, .slice a b c :: more => decide (n = -1) && decide (∀ d ∈ rest, 0 < d ∧ d ≤ ssMax) && decide (0 < c.getD 1) &&
      selectCheck rest more && decide (∀ i ∈ BasicIndex.slice a b c :: more, i.Fits) && decide (∀ d ∈ selectShape rest more, 0 < d) &&
      (decide (shapeProd rest = 1) || (decide (a.getD 0 = 0) && b.isNone))
  | _, _ => false

/-- The conditions on symbols. -/
def Row.regularCheck (r : Row) : Bool :=
  match r.built with
  | .kind k => k.regularCheck (r.ins.map Info.shapes)
  | .basic sh idx P => P.contiguous &&
      (decide ((∀ d ∈ sh, 0 ≤ d ∧ d ≤ ssMax) ∧ (∀ i ∈ idx, i.Fits) ∧ P.start + shapeProd P.shape ≤ shapeProd sh) || dynamicCheck sh idx)
  | .advanced idx P base => decide (∀ d ∈ P.operand, 0 < d) &&
      (base.isSome || !(separated (idx.map Option.isSome) && decide (0 < leading (idx.map Option.isSome))))
  | .permutation x => match x.shape with
    | [m, n] => decide (0 < n) && decide (m = n) && decide (8 * (n * n) ≤ 2 ^ 31)
    | _ => false

theorem Row.regular_of_check {r : Row} (h : r.regularCheck = true) : r.Regular := by
  unfold Row.regularCheck at h
  unfold Row.Regular
  cases hb : r.built with
  | kind k =>
    rw [hb] at h
    exact Kind.regular_of_check h
  | basic sh idx P =>
    rw [hb] at h
    simp only [Bool.and_eq_true, Bool.or_eq_true, decide_eq_true_eq] at h
    refine ⟨h.1, h.2.imp id fun h => ?_⟩
    match sh, idx, h with
    | n :: rest, .slice a b c :: more, h =>
      simp only [dynamicCheck, Bool.and_eq_true, Bool.or_eq_true, decide_eq_true_eq, Option.isNone_iff_eq_none] at h
      obtain ⟨⟨⟨⟨⟨⟨h1, h2⟩, h3⟩, h4⟩, h5⟩, h6⟩, h7⟩ := h
      exact ⟨rest, a, b, c, more, by rw [h1], rfl, ⟨h2, h3, select_of_check h4, h5⟩, h6, h7⟩
  | advanced idx P base =>
    rw [hb] at h
    simp only [Bool.and_eq_true, Bool.or_eq_true, decide_eq_true_eq, Bool.not_eq_true', Bool.and_eq_false_iff, decide_eq_false_iff_not] at h
    refine ⟨h.1, ?_⟩
    rintro rfl ⟨h1, h2, _⟩
    rcases h.2 with h | h | h
    · cases h
    · rw [h1] at h; cases h
    · exact h h2
  | permutation x =>
    rw [hb] at h
    dsimp only at h
    split at h
    · rename_i m n hx
      simp only [Bool.and_eq_true, decide_eq_true_eq] at h
      obtain ⟨⟨h1, h2⟩, h3⟩ := h
      refine ⟨n.toNat, by omega, ?_, ?_⟩
      · have : (n.toNat : Int) = n := Int.toNat_of_nonneg h1.le
        rw [← this] at h3
        exact_mod_cast h3
      · rw [Int.toNat_of_nonneg h1.le, hx, h2]
    · cases h

namespace Script

/-- The outputs belong to disjoint lists. -/
def ofLists (s : Script) (i : Nat) : Bool :=
  match (s.row i).ops with
  | [p] => match (s.row p).built with
    | .kind (.disjointLists _ _) => true
    | _ => false
  | _ => true

def unslicedCheck (s : Script) : Nat → Nat → Bool
  | 0, _ => false
  | fuel + 1, i => decide (i < s.length) && dynamicShape (s.row i).out.shape &&
    match (s.sizes i).array with
    | none => false
    | some b => match (s.row i).built with
      | .kind k => (decide (b = i) && (match k with | .output _ => s.ofLists i | _ => true)) ||
          (match k with | .binary _ => s.unslicedCheck fuel b | _ => false)
      | .advanced idx _ _ => idx.all Option.isSome && s.unslicedCheck fuel b
      | _ => false

theorem unsliced_of_check {s : Script} : ∀ (fuel : Nat) {i : Nat}, s.unslicedCheck fuel i = true → s.Unsliced i
  | 0, _, h => by simp [unslicedCheck] at h
  | fuel + 1, i, h => by
    unfold unslicedCheck at h
    simp only [Bool.and_eq_true, decide_eq_true_eq] at h
    obtain ⟨⟨h1, h2⟩, h3⟩ := h
    split at h3
    · cases h3
    · rename_i b hb
      split at h3
      · rename_i k hk
        simp only [Bool.or_eq_true, Bool.and_eq_true, decide_eq_true_eq] at h3
        rcases h3 with ⟨rfl, h3⟩ | h3
        · refine .self h1 hk h2 hb ?_
          rintro j p rfl hops
          simp only [ofLists, hops] at h3
          split at h3
          · rename_i P N e
            exact ⟨P, N, e⟩
          · cases h3
        · split at h3
          · exact .binary h1 hk h2 hb (unsliced_of_check fuel h3)
          · cases h3
      · rename_i idx P base hk
        simp only [Bool.and_eq_true, List.all_eq_true] at h3
        exact .advanced h1 hk h2 h3.1 hb (unsliced_of_check fuel h3.2)
      · cases h3

def measuredCheck (s : Script) (fuel i : Nat) : Bool :=
  !dynamicShape (s.row i).out.shape || s.unslicedCheck fuel i ||
  match (s.row i).built, (s.row i).ops with
  | .basic [n] [.slice a b none] _, [x] => decide (n = -1) && s.unslicedCheck fuel x && decide ((s.sizes x).array = some x) &&
      decide (b ≠ some 0) && !(decide (a.getD 0 < 0) && decide (0 < b.getD (-1)))
  | _, _ => false

theorem measured_of_check {s : Script} {fuel i : Nat} (h : s.measuredCheck fuel i = true) : s.Measured i := by
  unfold measuredCheck at h
  simp only [Bool.or_eq_true, Bool.not_eq_true'] at h
  rcases h with (h | h) | h
  · exact .fixed h
  · exact .unsliced (unsliced_of_check fuel h)
  · split at h
    · rename_i n a b P x hb hops
      simp only [Bool.and_eq_true, decide_eq_true_eq, Bool.not_eq_true', Bool.and_eq_false_iff, decide_eq_false_iff_not] at h
      obtain ⟨⟨⟨⟨h1, h2⟩, h3⟩, h4⟩, h5⟩ := h
      subst h1
      refine .slice hb hops (unsliced_of_check fuel h2) h3 ⟨h4, ?_⟩
      rintro ⟨k1, k2⟩
      rcases h5 with h5 | h5
      · exact h5 k1
      · exact h5 k2
    · cases h

/-- Symbols taken as orders. -/
def orderCheck (s : Script) (n : Int) (p : Nat) : Bool :=
  match (s.row p).built with
  | .kind (.collection m lo hi) => decide (m = n) && decide (lo = n) && decide (hi = n)
  | .kind (.constant a) => a.data.all fun v => decide (v.den = 1) && decide (0 ≤ v.num) && decide (v.num < n)
  | _ => false

theorem order_of_check {s : Script} {n : Int} {p : Nat} (h : s.orderCheck n p = true) : s.TakenAsOrder n p := by
  unfold orderCheck at h
  split at h
  · rename_i m lo hi' hk
    simp only [Bool.and_eq_true, decide_eq_true_eq] at h
    obtain ⟨⟨h1, h2⟩, h3⟩ := h
    rw [h1, h2, h3] at hk
    exact .inl hk
  · rename_i a hk
    simp only [List.all_eq_true, Bool.and_eq_true, decide_eq_true_eq] at h
    refine .inr ⟨a, hk, fun v hv => ?_⟩
    obtain ⟨⟨h1, h2⟩, h3⟩ := h v hv
    refine ⟨v.num.toNat, ?_, by omega⟩
    have e : ((v.num.toNat : Nat) : Int) = v.num := by omega
    have := Rat.coe_int_num_of_den_eq_one h1
    rw [← this]
    exact_mod_cast congrArg (Int.cast : Int → ℚ) e.symm
  · cases h

/-- The conditions on the symbol `i`. -/
def trustedCheck (s : Script) (T : Nat → Bool) (fuel i : Nat) : Bool :=
  match (s.row i).built with
  | .kind k => !T i || k.isTruth || ((s.row i).ops.all T &&
      (match (s.row i).ins.mapM Info.claim with
        | .ok cs => k.tameCheck cs ((s.row i).ins.map Info.shapes)
        | _ => true) &&
      (match k with
        | .reduce _ _ | .size => (s.row i).ops.all fun p => !dynamicShape (s.row p).out.shape || s.unslicedCheck fuel p
        | _ => true))
  | .advanced _ _ _ => ((s.row i).ops.tail.all fun p => T p && s.measuredCheck fuel p) &&
      (!T i || (s.row i).ops.head?.all T)
  | .permutation x => ((s.row i).ops.tail.all fun p => s.orderCheck (x.shape.headD 0) p) &&
      (!T i || (s.row i).ops.head?.all T)
  | .basic _ _ _ => !T i || (s.row i).ops.head?.all T

theorem trusted_of_check {s : Script} {T : Nat → Bool} {fuel : Nat} (h : ∀ i < s.length, s.trustedCheck T fuel i = true) :
    s.Trusted (fun i => T i = true) := by
  refine ⟨?_, ?_, ?_, ?_⟩
  · intro i hi idx P base hb p hp
    have := h i hi
    unfold trustedCheck at this
    rw [hb] at this
    simp only [Bool.and_eq_true, List.all_eq_true] at this
    obtain ⟨h1, h2⟩ := this.1 p hp
    exact ⟨h1, measured_of_check h2⟩
  · intro i hi hT k hb ht
    have := h i hi
    unfold trustedCheck at this
    rw [hb] at this
    simp only [hT, ht, Bool.not_true, Bool.false_or, Bool.and_eq_true, List.all_eq_true] at this
    obtain ⟨⟨h1, h2⟩, h3⟩ := this
    refine ⟨h1, fun cs hcs => ?_, ?_⟩
    · rw [hcs] at h2
      exact Kind.tame_of_check h2
    · intro hk p hp
      rcases hk with ⟨op, init, rfl⟩ | rfl <;>
      · simp only [List.all_eq_true, Bool.or_eq_true, Bool.not_eq_true'] at h3
        exact (h3 p hp).imp id (unsliced_of_check fuel)
  · intro i hi hT hk p hp
    have := h i hi
    unfold trustedCheck at this
    cases hb : (s.row i).built with
    | kind k => exact absurd hb (hk k)
    | _ =>
      rw [hb] at this
      simp only [hT, Bool.not_true, Bool.false_or, Bool.and_eq_true] at this
      first
        | exact Option.all_eq_true _ _ |>.1 this p hp
        | exact Option.all_eq_true _ _ |>.1 this.2 p hp
  · intro i hi x hb p hp
    have := h i hi
    unfold trustedCheck at this
    rw [hb] at this
    simp only [Bool.and_eq_true, List.all_eq_true] at this
    exact order_of_check (this.1 p hp)

end Script
end Verif
