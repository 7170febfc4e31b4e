import Verif.Lemmas.QuadraticArguments
import Mathlib.Data.List.GetD

/-!
# C81: `quadratic_model` computes the polynomial it is given
-/

namespace Verif

/-- The coefficients of `x[v]` in the argument `linear`. -/
def LinearArg.entries : LinearArg → List (Int × Rat)
  | .dict d => d
  | .array l => l.zipIdx.map fun p => ((p.2 : Int), p.1)
  | _ => []

/-- The coefficients of `x[u] * x[v]` in the argument `quadratic`. -/
def QuadArg.entries : QuadArg → List (Int × Int × Rat)
  | .dict d => d.map fun t => (t.1.1, t.1.2, t.2)
  | .coords data (.ints _ [us, vs]) => us.zip (vs.zip data)
  | _ => []

/-- The polynomial the arguments describe. -/
def polynomial (quadratic : QuadArg) (linear : LinearArg) (x : Nat → Rat) : Rat :=
  (linear.entries.map fun p => p.2 * x p.1.toNat).sum + (quadratic.entries.map fun t => t.2.2 * (x t.1.toNat * x t.2.1.toNat)).sum

/-- Numbers that are an `int`. -/
def IsIntc (k : Int) : Prop := -2 ^ 31 ≤ k ∧ k < 2 ^ 31

/-- The indices are integers of 32 bits, and arrays of coordinates have two rows. -/
def QuadArg.Sane : QuadArg → Prop
  | .dict d => ∀ t ∈ d, IsIntc t.1.1 ∧ IsIntc t.1.2
  | .coords _ (.ints cols rows) => ∃ us vs, rows = [us, vs] ∧ us.length = cols ∧ vs.length = cols ∧
      (∀ k ∈ us, IsIntc k) ∧ ∀ k ∈ vs, IsIntc k
  | .coords _ (.floats _ _) => False
  | _ => True

/-- The two arguments go together: dictionaries, or arrays of the same length. -/
def SameForm : QuadArg → LinearArg → Prop
  | .dict _, .none => True
  | .dict _, .dict _ => True
  | .coords data (.ints cols _), .none => data.length = cols
  | .coords data (.ints cols _), .array _ => data.length = cols
  | _, _ => False

/-- The arguments describe a polynomial in `n` variables with at least one product. -/
structure Describes (n : Nat) (quadratic : QuadArg) (linear : LinearArg) : Prop where
  form : SameForm quadratic linear
  some : quadratic.entries ≠ []
  quadratic : ∀ t ∈ quadratic.entries, 0 ≤ t.1 ∧ t.1 < n ∧ 0 ≤ t.2.1 ∧ t.2.1 < n
  linear : ∀ p ∈ linear.entries, 0 ≤ p.1 ∧ p.1 < n

theorem weigh_array (l : List Rat) (y : Nat → Rat) :
    weigh l y = ((LinearArg.array l).entries.map fun p => p.2 * y p.1.toNat).sum := by
  unfold weigh
  simp only [LinearArg.entries, List.map_map]
  rfl

theorem array_range (l : List Rat) (n : Nat) : (∀ p ∈ (LinearArg.array l).entries, 0 ≤ p.1 ∧ p.1 < (n : Int)) ↔ l.length ≤ n := by
  constructor
  · intro h
    cases hl : l.length with
    | zero => omega
    | succ k =>
      have hk : k < l.length := by omega
      have := h ((k : Int), l[k]) (by
        simp only [LinearArg.entries, List.mem_map]
        exact ⟨(l[k], k), by rw [List.mem_zipIdx_iff_getElem?]; exact List.getElem?_eq_getElem hk, rfl⟩)
      simp only at this
      omega
  · intro h p hp
    simp only [LinearArg.entries, List.mem_map] at hp
    obtain ⟨⟨b, i⟩, hp, rfl⟩ := hp
    have := List.snd_lt_of_mem_zipIdx hp
    simp only at *
    omega

/-- What is left once the arguments have been read. -/
theorem initFromCoords_two {n : Nat} (hn : 1 ≤ n) (hn' : n < 2 ^ 31) (logical : Bool) (l data : List Rat) (cols : Nat) (us vs : List Int)
    (hu : us.length = cols) (hv : vs.length = cols) :
    (l.length ≤ n ∧ data.length = cols ∧ us.zip (vs.zip data) ≠ [] ∧
      (∀ t ∈ us.zip (vs.zip data), 0 ≤ t.1 ∧ t.1 < (n : Int) ∧ 0 ≤ t.2.1 ∧ t.2.1 < (n : Int)) →
      ∃ q, initFromCoords ⟨[(n : Int)], logical⟩ l data cols [us, vs] = .ok q ∧
        QModel.build n (Draft.loadedBiases logical l (us.zip (vs.zip data))) = .ok q ∧ q.n = n) ∧
    (¬(l.length ≤ n ∧ data.length = cols ∧ us.zip (vs.zip data) ≠ [] ∧
      (∀ t ∈ us.zip (vs.zip data), 0 ≤ t.1 ∧ t.1 < (n : Int) ∧ 0 ≤ t.2.1 ∧ t.2.1 < (n : Int))) →
      initFromCoords ⟨[(n : Int)], logical⟩ l data cols [us, vs] = .throw) := by
  have hp : ([(n : Int)] : List Int).prod = n := by simp
  have hfst : data.length = cols → ∀ k ∈ us, ∃ t ∈ us.zip (vs.zip data), t.1 = k := by
    intro hd k hk
    obtain ⟨i, hi, rfl⟩ := List.getElem_of_mem hk
    refine ⟨(us.zip (vs.zip data))[i]'(by simp; omega), List.getElem_mem _, by simp⟩
  have hsnd : data.length = cols → ∀ k ∈ vs, ∃ t ∈ us.zip (vs.zip data), t.2.1 = k := by
    intro hd k hk
    obtain ⟨i, hi, rfl⟩ := List.getElem_of_mem hk
    refine ⟨(us.zip (vs.zip data))[i]'(by simp; omega), List.getElem_mem _, by simp⟩
  have hmem : ∀ t ∈ us.zip (vs.zip data), t.1 ∈ us ∧ t.2.1 ∈ vs := by
    rintro ⟨a, b, c⟩ ht
    have h := List.of_mem_zip ht
    exact ⟨h.1, (List.of_mem_zip h.2).1⟩
  have hne : data.length = cols → (us.zip (vs.zip data) ≠ [] ↔ 1 ≤ data.length) := by
    intro hd
    rw [← List.length_pos_iff]
    simp
    omega
  constructor
  · rintro ⟨h1, h2, h3, h4⟩
    obtain ⟨q, e, hq, _⟩ := build_inv n (loadedBiases_inRange logical h1 h4)
    refine ⟨q, ?_, e, hq⟩
    unfold initFromCoords
    simp only [hp]
    rw [guardThrow_true (by omega), Res.ok_bind, guardThrow_true h2, Res.ok_bind, guardThrow_true ((hne h2).1 h3), Res.ok_bind,
      guardThrow_true (by simp), Res.ok_bind, guardThrow_true, Res.ok_bind, guardThrow_true, Res.ok_bind]
    · rw [show coordTerms [us, vs] data = .ok (us.zip (vs.zip data)) from rfl, Res.ok_bind, makeQuadratic, hp, toIntc_of (by omega), e, Res.ok_bind, quadraticShape, hq, guardThrow_true rfl, Res.ok_bind, Res.ok_bind]
    · intro r hr k hk
      simp only [List.mem_cons, List.not_mem_nil, or_false] at hr
      rcases hr with rfl | rfl
      · obtain ⟨t, ht, rfl⟩ := hfst h2 k hk
        exact (h4 t ht).2.1
      · obtain ⟨t, ht, rfl⟩ := hsnd h2 k hk
        exact (h4 t ht).2.2.2
    · intro r hr k hk
      simp only [List.mem_cons, List.not_mem_nil, or_false] at hr
      rcases hr with rfl | rfl
      · obtain ⟨t, ht, rfl⟩ := hfst h2 k hk
        exact (h4 t ht).1
      · obtain ⟨t, ht, rfl⟩ := hsnd h2 k hk
        exact (h4 t ht).2.2.1
  · intro hc
    unfold initFromCoords guardThrow
    simp only [hp]
    by_cases h1 : (l.length : Int) ≤ n
    · rw [if_pos h1, Res.ok_bind]
      by_cases h2 : data.length = cols
      · rw [if_pos h2, Res.ok_bind]
        by_cases h3 : 1 ≤ data.length
        · rw [if_pos h3, Res.ok_bind, if_pos (by simp), Res.ok_bind]
          by_cases h4 : ∀ r ∈ [us, vs], ∀ k ∈ r, 0 ≤ k
          · rw [if_pos h4, Res.ok_bind]
            by_cases h5 : ∀ r ∈ [us, vs], ∀ k ∈ r, k < (n : Int)
            · refine absurd ⟨by omega, h2, (hne h2).2 h3, fun t ht => ?_⟩ hc
              obtain ⟨m1, m2⟩ := hmem t ht
              exact ⟨h4 us (by simp) _ m1, h5 us (by simp) _ m1, h4 vs (by simp) _ m2, h5 vs (by simp) _ m2⟩
            · rw [if_neg h5, Res.throw_bind]
          · rw [if_neg h4, Res.throw_bind]
        · rw [if_neg h3, Res.throw_bind]
      · rw [if_neg h2, Res.throw_bind]
    · rw [if_neg h1, Res.throw_bind]

theorem pyQuadratic_vector {n : Nat} (hn : 1 ≤ n) (logical : Bool) (quadratic : QuadArg) (linear : LinearArg) :
    pyQuadratic ⟨[(n : Int)], logical⟩ quadratic linear = (match quadratic with
      | .dict d => initFromQubo ⟨[(n : Int)], logical⟩ d linear
      | .coords data c => do
        let l ← linear.forCoords
        let a ← c.convert
        initFromCoords ⟨[(n : Int)], logical⟩ l data a.1 a.2
      | .tuple => .throw
      | .other => .throw) := by
  unfold pyQuadratic
  rw [guardThrow_true (by simp [dynamicShape]), Res.ok_bind, guardThrow_true (by simp), Res.ok_bind, guardThrow_true (by simp; omega), Res.ok_bind]
  cases quadratic <;> rfl

theorem zip_dict (d : List ((Int × Int) × Rat)) :
    (d.map fun t => t.1.1).zip ((d.map fun t => t.1.2).zip (d.map Prod.snd)) = (QuadArg.dict d).entries := by
  induction d with
  | nil => rfl
  | cons t d ih =>
    simp only [QuadArg.entries, List.map_cons, List.zip_cons_cons] at *
    rw [ih]

/-- Arguments that describe a polynomial, and others. -/
theorem pyQuadratic_cases {n : Nat} (hn : 1 ≤ n) (hn' : n < 2 ^ 31) (logical : Bool) {quadratic : QuadArg} {linear : LinearArg}
    (hq : quadratic.Sane) :
    (Describes n quadratic linear → ∃ (q : QModel) (l : List Rat), pyQuadratic ⟨[(n : Int)], logical⟩ quadratic linear = .ok q ∧
      QModel.build n (Draft.loadedBiases logical l quadratic.entries) = .ok q ∧ q.n = n ∧ l.length ≤ n ∧
      ∀ y, weigh l y = (linear.entries.map fun p => p.2 * y p.1.toNat).sum) ∧
    (¬Describes n quadratic linear → pyQuadratic ⟨[(n : Int)], logical⟩ quadratic linear = .throw) := by
  rw [pyQuadratic_vector hn]
  cases quadratic with
  | tuple => exact ⟨fun h => absurd rfl h.some, fun _ => rfl⟩
  | other => exact ⟨fun h => absurd rfl h.some, fun _ => rfl⟩
  | dict d =>
    have hm1 : (d.map fun t => toIntc t.1.1) = d.map fun t => t.1.1 := List.map_congr_left fun t ht => toIntc_of (hq t ht).1
    have hm2 : (d.map fun t => toIntc t.1.2) = d.map fun t => t.1.2 := List.map_congr_left fun t ht => toIntc_of (hq t ht).2
    have hs : ∀ t ∈ d, fitsSsize t.1.1 ∧ fitsSsize t.1.2 := by
      intro t ht
      have h := hq t ht
      unfold IsIntc at h
      unfold fitsSsize
      omega
    have key := fun l : List Rat => initFromCoords_two hn hn' logical l (d.map Prod.snd) d.length (d.map fun t => t.1.1)
      (d.map fun t => t.1.2) (by simp) (by simp)
    simp only [zip_dict] at key
    have hpn : ([(n : Int)] : List Int).prod.toNat = n := by simp
    have step : ∀ (l : List Rat), linear.forQubo n = .ok l →
        initFromQubo ⟨[(n : Int)], logical⟩ d linear =
          initFromCoords ⟨[(n : Int)], logical⟩ l (d.map Prod.snd) d.length [d.map fun t => t.1.1, d.map fun t => t.1.2] := by
      intro l hl
      unfold initFromQubo
      simp only [hpn]
      rw [hl, Res.ok_bind, guardThrow_true hs, Res.ok_bind, hm1, hm2]
    have good : ∀ (l : List Rat), linear.forQubo n = .ok l → l.length = n →
        (∀ y, weigh l y = (linear.entries.map fun p => p.2 * y p.1.toNat).sum) → SameForm (.dict d) linear →
        (∀ p ∈ linear.entries, 0 ≤ p.1 ∧ p.1 < (n : Int)) →
        (Describes n (.dict d) linear → ∃ (q : QModel) (l : List Rat), initFromQubo ⟨[(n : Int)], logical⟩ d linear = .ok q ∧
          QModel.build n (Draft.loadedBiases logical l (QuadArg.dict d).entries) = .ok q ∧ q.n = n ∧ l.length ≤ n ∧
          ∀ y, weigh l y = (linear.entries.map fun p => p.2 * y p.1.toNat).sum) ∧
        (¬Describes n (.dict d) linear → initFromQubo ⟨[(n : Int)], logical⟩ d linear = .throw) := by
      intro l hl hlen hw hf hr
      rw [step l hl]
      constructor
      · intro h
        obtain ⟨q, e1, e2, e3⟩ := (key l).1 ⟨by omega, by simp, h.some, h.quadratic⟩
        exact ⟨q, l, e1, e2, e3, by omega, hw⟩
      · intro h
        exact (key l).2 fun ⟨_, _, h3, h4⟩ => h ⟨hf, h3, h4, hr⟩
    cases linear with
    | none =>
      exact good (List.replicate n 0) rfl (by simp) (fun y => by rw [weigh_zero]; rfl) trivial (by simp [LinearArg.entries])
    | dict e =>
      by_cases hr : ∀ p ∈ e, 0 ≤ p.1 ∧ p.1 < (n : Int)
      · obtain ⟨l, h1, h2, h3⟩ := addItems_ok e (List.replicate n 0) (by simpa using hr)
        exact good l h1 (by simpa using h2) (fun y => by rw [h3, weigh_zero, zero_add]; rfl) trivial hr
      · refine ⟨fun h => absurd h.linear hr, fun _ => ?_⟩
        unfold initFromQubo
        simp only [hpn, LinearArg.forQubo]
        rw [addItems_throw e _ (by simpa using hr)]
        rfl
    | array l => exact ⟨fun h => h.form.elim, fun _ => rfl⟩
    | other => exact ⟨fun h => h.form.elim, fun _ => rfl⟩
  | coords data c =>
    cases c with
    | floats _ _ => exact hq.elim
    | other =>
      refine ⟨fun h => absurd rfl h.some, fun _ => ?_⟩
      cases linear <;> rfl
    | ints cols rows =>
      obtain ⟨us, vs, rfl, h1, h2, h3, h4⟩ := hq
      have hm1 : us.map toIntc = us := by
        conv_rhs => rw [← List.map_id us]
        exact List.map_congr_left fun k hk => toIntc_of (h3 k hk)
      have hm2 : vs.map toIntc = vs := by
        conv_rhs => rw [← List.map_id vs]
        exact List.map_congr_left fun k hk => toIntc_of (h4 k hk)
      have key := fun l : List Rat => initFromCoords_two hn hn' logical l data cols us vs h1 h2
      have good : ∀ (l : List Rat), linear.forCoords = .ok l →
          (∀ y, weigh l y = (linear.entries.map fun p => p.2 * y p.1.toNat).sum) →
          (SameForm (.coords data (.ints cols [us, vs])) linear ↔ data.length = cols) →
          ((∀ p ∈ linear.entries, 0 ≤ p.1 ∧ p.1 < (n : Int)) ↔ l.length ≤ n) →
          (Describes n (.coords data (.ints cols [us, vs])) linear → ∃ (q : QModel) (l : List Rat),
            (do
              let l ← linear.forCoords
              let a ← (CoordArray.ints cols [us, vs]).convert
              initFromCoords ⟨[(n : Int)], logical⟩ l data a.1 a.2) = .ok q ∧
            QModel.build n (Draft.loadedBiases logical l (QuadArg.coords data (.ints cols [us, vs])).entries) = .ok q ∧ q.n = n ∧ l.length ≤ n ∧
            ∀ y, weigh l y = (linear.entries.map fun p => p.2 * y p.1.toNat).sum) ∧
          (¬Describes n (.coords data (.ints cols [us, vs])) linear → (do
              let l ← linear.forCoords
              let a ← (CoordArray.ints cols [us, vs]).convert
              initFromCoords ⟨[(n : Int)], logical⟩ l data a.1 a.2) = .throw) := by
        intro l hl hw hf hr
        simp only [hl, Res.ok_bind, CoordArray.convert, List.map_cons, List.map_nil, hm1, hm2]
        constructor
        · intro h
          obtain ⟨q, e1, e2, e3⟩ := (key l).1 ⟨hr.1 h.linear, hf.1 h.form, h.some, h.quadratic⟩
          exact ⟨q, l, e1, e2, e3, hr.1 h.linear, hw⟩
        · intro h
          exact (key l).2 fun ⟨k1, k2, k3, k4⟩ => h ⟨hf.2 k2, k3, k4, hr.2 k1⟩
      cases linear with
      | none => exact good [] rfl (fun y => rfl) Iff.rfl (by simp [LinearArg.entries])
      | array l => exact good l rfl (fun y => weigh_array l y) Iff.rfl (array_range l n)
      | dict e => exact ⟨fun h => h.form.elim, fun _ => rfl⟩
      | other => exact ⟨fun h => h.form.elim, fun _ => rfl⟩

/-- **C81**, partial: with indices that are integers of 32 bits and two rows of coordinates, a quadratic model is made exactly if `x` is a
vector of fixed size with at least one element and the arguments describe a polynomial in its elements; otherwise an exception is raised.
Missing: other indices and other numbers of rows, for which it is false (`C81_wrap_fails`, `C81_fraction_fails`, `C81_rows_fails`,
`C81_third_row_fails`). -/
theorem C81_accepted_partial {x : QuadOperand} (hx : x.shape.prod < 2 ^ 31) {quadratic : QuadArg} {linear : LinearArg} (hq : quadratic.Sane) :
    ((∃ q, pyQuadratic x quadratic linear = .ok q) ↔ ∃ n : Nat, x.shape = [(n : Int)] ∧ 1 ≤ n ∧ Describes n quadratic linear) ∧
    pyQuadratic x quadratic linear ≠ .ub := by
  obtain ⟨shape, logical⟩ := x
  by_cases hs : ∃ n : Nat, shape = [(n : Int)] ∧ 1 ≤ n
  · obtain ⟨n, rfl, hn⟩ := hs
    obtain ⟨h1, h2⟩ := pyQuadratic_cases hn (by simpa using hx) logical (linear := linear) hq
    by_cases hd : Describes n quadratic linear
    · obtain ⟨q, l, e, _⟩ := h1 hd
      rw [e]
      exact ⟨⟨fun _ => ⟨n, rfl, hn, hd⟩, fun _ => ⟨q, rfl⟩⟩, by simp⟩
    · rw [h2 hd]
      refine ⟨⟨(fun ⟨q, h⟩ => by cases h), ?_⟩, by simp⟩
      rintro ⟨m, hm, _, h⟩
      obtain rfl : n = m := by simpa using hm
      exact absurd h hd
  · have : pyQuadratic ⟨shape, logical⟩ quadratic linear = .throw := by
      unfold pyQuadratic guardThrow
      by_cases h1 : dynamicShape shape = false
      · rw [if_pos h1, Res.ok_bind]
        by_cases h2 : shape.length = 1
        · rw [if_pos h2, Res.ok_bind]
          by_cases h3 : 1 ≤ shape.prod
          · refine absurd ?_ hs
            match shape, h2 with
            | [k], _ =>
              simp only [List.prod_cons, List.prod_nil, mul_one] at h3
              exact ⟨k.toNat, by rw [Int.toNat_of_nonneg (by omega)], by omega⟩
          · rw [if_neg h3]
            rfl
        · rw [if_neg h2]
          rfl
      · rw [if_neg h1]
        rfl
    rw [this]
    exact ⟨⟨(fun ⟨q, h⟩ => by cases h), fun ⟨n, h1, h2, _⟩ => absurd ⟨n, h1, h2⟩ hs⟩, by simp⟩

example : Describes 3 (.dict [((0, 1), 2), ((1, 0), -1), ((2, 2), 1 / 2)]) (.dict [(2, 5), (0, 1)]) :=
  ⟨trivial, by simp [QuadArg.entries], by simp [QuadArg.entries], by simp [LinearArg.entries]⟩
example : Describes 3 (.coords [2, 1] (.ints 2 [[0, 2], [1, 2]])) (.array [1, 5]) :=
  ⟨rfl, by simp [QuadArg.entries], by simp [QuadArg.entries], by simp [LinearArg.entries]⟩

/-- What a model that was made is. -/
theorem pyQuadratic_ok {x : QuadOperand} (hx : x.shape.prod < 2 ^ 31) {quadratic : QuadArg} {linear : LinearArg} (hq : quadratic.Sane)
    {q : QModel} (h : pyQuadratic x quadratic linear = .ok q) :
    ∃ (n : Nat) (l : List Rat), x.shape = [(n : Int)] ∧ Describes n quadratic linear ∧ l.length ≤ n ∧ q.n = n ∧
      QModel.build n (Draft.loadedBiases x.logical l quadratic.entries) = .ok q ∧
      ∀ y, weigh l y = (linear.entries.map fun p => p.2 * y p.1.toNat).sum := by
  obtain ⟨n, hs, hn, hd⟩ := (C81_accepted_partial hx hq).1.1 ⟨q, h⟩
  obtain ⟨shape, logical⟩ := x
  subst hs
  obtain ⟨q', l, e1, e2, e3, e4, e5⟩ := (pyQuadratic_cases hn (by simpa using hx) logical (linear := linear) hq).1 hd
  obtain rfl : q' = q := Res.ok.inj (e1.symm.trans h)
  exact ⟨n, l, rfl, hd, e4, e3, e2, e5⟩

/-- **C81**: after every history of changes of `x` the symbol's value is that of the polynomial; changes are reported exactly and can be
taken back (`Incremental`).  If all values of `x` are 0 or 1, as the symbol says, squares count as the numbers themselves. -/
theorem C81_value {x : QuadOperand} (hx : x.shape.prod < 2 ^ 31) {quadratic : QuadArg} {linear : LinearArg} (hq : quadratic.Sane)
    {q : QModel} (h : pyQuadratic x quadratic linear = .ok q) :
    ∃ f : List Rat → Rat,
      Incremental ArrRel [] (quadraticNode q f) (fun xs => ⟨[], [f (xs.headD ⟨[], []⟩).data]⟩)
        (fun xs => ∃ a : Arr Rat, xs = [a] ∧ a.shape = x.shape ∧ a.WF) ∧
      ∀ data : List Rat, (x.logical = true → ∀ v ∈ data, v = 0 ∨ v = 1) →
        f data = polynomial quadratic linear fun i => data.getD i 0 := by
  obtain ⟨n, l, hs, hd, hl, hqn, hb, hw⟩ := pyQuadratic_ok hx hq h
  have hr := loadedBiases_inRange x.logical hl hd.quadratic
  obtain ⟨q', e, hinc⟩ := C34_value n _ hr
  obtain rfl : q' = q := Res.ok.inj (e.symm.trans hb)
  refine ⟨_, by rw [hs]; exact hinc, fun data hdata => ?_⟩
  rw [(biasesOf_adds hr (loadedBiases_adds _ _ _)).1, loadedBiases_sum]
  unfold polynomial
  rw [← hw fun i => data.getD i 0]
  congr 1
  congr 1
  refine List.map_congr_left fun t _ => ?_
  split_ifs with hc
  · rw [← hc.2]
    simp only [BiasOp.adds]
    congr 1
    have : data.getD t.1.toNat 0 = 0 ∨ data.getD t.1.toNat 0 = 1 := by
      by_cases hi : t.1.toNat < data.length
      · rw [List.getD_eq_getElem _ _ hi]
        exact hdata hc.1 _ (List.getElem_mem hi)
      · left
        rw [List.getD_eq_default _ _ (by omega)]
    rcases this with h | h <;> rw [h] <;> norm_num
  · rfl

example : polynomial (.dict [((0, 1), 2), ((1, 0), -1), ((2, 2), 1 / 2)]) (.dict [(2, 5), (0, 1)]) (fun i => [3, 2, 4].getD i 0) = 37 := by
  norm_num [polynomial, LinearArg.entries, QuadArg.entries, show Int.toNat 2 = 2 from rfl]

/-- **C81**: `get_linear` and `get_quadratic` give the sums of the coefficients that were given for a variable and for a product, in either
order; for symbols whose values are 0 or 1 coefficients of squares are found with the linear ones.  Other indices raise an exception. -/
theorem C81_biases {x : QuadOperand} (hx : x.shape.prod < 2 ^ 31) {quadratic : QuadArg} {linear : LinearArg} (hq : quadratic.Sane)
    {q : QModel} (h : pyQuadratic x quadratic linear = .ok q) (u v : Int) :
    (q.pyGetLinear v = if 0 ≤ v ∧ v < x.shape.prod then
        .ok ((linear.entries.map fun p => if p.1 = v then p.2 else 0).sum +
          (quadratic.entries.map fun t => if x.logical = true ∧ t.1 = v ∧ t.2.1 = v then t.2.2 else 0).sum)
      else .throw) ∧
    (q.pyGetQuadratic u v = if (0 ≤ u ∧ u < x.shape.prod) ∧ 0 ≤ v ∧ v < x.shape.prod then
        .ok (quadratic.entries.map fun t => if ((t.1 = u ∧ t.2.1 = v) ∨ (t.1 = v ∧ t.2.1 = u)) ∧ ¬(x.logical = true ∧ u = v) then
          t.2.2 else 0).sum
      else .throw) := by
  obtain ⟨n, l, hs, hd, hl, hqn, hb, hw⟩ := pyQuadratic_ok hx hq h
  have hr := loadedBiases_inRange x.logical hl hd.quadratic
  obtain ⟨q', e, h1, h2⟩ := C34_biases n _ hr
  obtain rfl : q' = q := Res.ok.inj (e.symm.trans hb)
  obtain ⟨_, b1, b2⟩ := biasesOf_adds hr (loadedBiases_adds _ _ _)
  have hp : x.shape.prod = n := by rw [hs]; simp
  rw [hp]
  constructor
  · unfold QModel.pyGetLinear guardThrow
    rw [hqn]
    split_ifs with hv
    · rw [Res.ok_bind, h1 _ (by omega), b1, loadedBiases_sum]
      congr 2
      · have := hw fun i => if (i : Int) = v then 1 else 0
        unfold weigh at this
        have e1 : (l.zipIdx.map fun p => BiasOp.toLinear v.toNat (.addLinear p.2 p.1)) =
            l.zipIdx.map fun p => p.1 * if (p.2 : Int) = v then 1 else 0 := by
          refine List.map_congr_left fun p _ => ?_
          simp only [BiasOp.toLinear]
          by_cases hc : (p.2 : Int) = v
          · rw [if_pos hc, if_pos (by omega), mul_one]
          · rw [if_neg hc, if_neg (by omega), mul_zero]
        have e2 : (linear.entries.map fun p => if p.1 = v then p.2 else 0) =
            linear.entries.map fun p => p.2 * if ((p.1.toNat : Nat) : Int) = v then 1 else 0 := by
          refine List.map_congr_left fun p hp => ?_
          have := hd.linear p hp
          rw [Int.toNat_of_nonneg this.1]
          split_ifs <;> ring
        rw [e1, e2, this]
      · congr 1
        refine List.map_congr_left fun t ht => ?_
        have := hd.quadratic t ht
        by_cases hc : x.logical = true ∧ t.1 = t.2.1
        · rw [if_pos hc]
          simp only [BiasOp.toLinear]
          by_cases hv' : t.1 = v
          · rw [if_pos (by omega), if_pos ⟨hc.1, hv', by omega⟩]
          · rw [if_neg (by omega), if_neg (fun h => hv' h.2.1)]
        · rw [if_neg hc, if_neg (fun h => hc ⟨h.1, by omega⟩)]
          rfl
    · rfl
  · unfold QModel.pyGetQuadratic guardThrow
    rw [hqn]
    by_cases hu : 0 ≤ u ∧ u < (n : Int)
    · rw [if_pos hu, Res.ok_bind]
      by_cases hv : 0 ≤ v ∧ v < (n : Int)
      · rw [if_pos hv, Res.ok_bind, if_pos ⟨hu, hv⟩, (h2 _ _ (by omega) (by omega)).1, b2, loadedBiases_sum]
        congr 1
        have hz : (l.zipIdx.map fun p => BiasOp.toQuadratic u.toNat v.toNat (.addLinear p.2 p.1)).sum = 0 := by
          have : (l.zipIdx.map fun p => BiasOp.toQuadratic u.toNat v.toNat (.addLinear p.2 p.1)) = l.zipIdx.map fun _ => (0 : Rat) := rfl
          rw [this]
          simp
        rw [hz, zero_add]
        congr 1
        refine List.map_congr_left fun t ht => ?_
        have := hd.quadratic t ht
        by_cases hc : x.logical = true ∧ t.1 = t.2.1
        · rw [if_pos hc, if_neg]
          · rfl
          · rintro ⟨h3, h4⟩
            exact h4 ⟨hc.1, by omega⟩
        · rw [if_neg hc]
          simp only [BiasOp.toQuadratic]
          by_cases h3 : (t.1 = u ∧ t.2.1 = v) ∨ (t.1 = v ∧ t.2.1 = u)
          · rw [if_pos (by omega), if_pos ⟨h3, fun h4 => hc ⟨h4.1, by omega⟩⟩]
          · rw [if_neg (by omega), if_neg (fun h4 => h3 h4.1)]
      · rw [if_neg hv, if_neg (fun h => hv h.2)]
        rfl
    · have hn : ¬((0 ≤ u ∧ u < (n : Int)) ∧ 0 ≤ v ∧ v < (n : Int)) := fun h => hu h.1
      rw [if_neg hn, if_neg hu, Res.throw_bind]

/-! ## Where C81 is false -/

theorem initFromCoords_zeros {n : Nat} (hn : 1 ≤ n) (logical : Bool) (b : Rat) {rows : List (List Int)} (h : rows ≠ [])
    (h0 : ∀ r ∈ rows, ∀ k ∈ r, k = 0) :
    initFromCoords ⟨[(n : Int)], logical⟩ [] [b] 1 rows = (coordTerms rows [b] >>= makeQuadratic ⟨[(n : Int)], logical⟩ []) := by
  unfold initFromCoords
  rw [guardThrow_true (by simp), Res.ok_bind, guardThrow_true (by simp), Res.ok_bind, guardThrow_true (by simp), Res.ok_bind,
    guardThrow_true h, Res.ok_bind, guardThrow_true (fun r hr k hk => by rw [h0 r hr k hk]), Res.ok_bind,
    guardThrow_true (fun r hr k hk => by rw [h0 r hr k hk]; simp; omega), Res.ok_bind]

theorem pyQuadratic_coords {n : Nat} (hn : 1 ≤ n) (logical : Bool) (data : List Rat) {c : CoordArray} {cols : Nat} {rows : List (List Int)}
    (hc : c.convert = .ok (cols, rows)) :
    pyQuadratic ⟨[(n : Int)], logical⟩ (.coords data c) .none = initFromCoords ⟨[(n : Int)], logical⟩ [] data cols rows := by
  rw [pyQuadratic_vector hn]
  dsimp only [LinearArg.forCoords]
  rw [Res.ok_bind, hc, Res.ok_bind]

theorem toIntc_zero : toIntc 0 = 0 := by decide

/-- **C81 fails**: with one row of coordinates, as for a one-dimensional array, the second row is read beyond the array. -/
theorem C81_rows_fails {n : Nat} (hn : 1 ≤ n) (logical : Bool) (b : Rat) :
    pyQuadratic ⟨[(n : Int)], logical⟩ (.coords [b] (.ints 1 [[0]])) .none = .ub := by
  rw [pyQuadratic_coords hn logical _ (cols := 1) (rows := [[0]]) (by simp [CoordArray.convert, toIntc_zero]),
    initFromCoords_zeros hn logical b (by simp) (by simp), show coordTerms [[0]] [b] = .ub from rfl, Res.ub_bind]

/-- **C81 fails**: more than two rows are accepted, and the others do not matter. -/
theorem C81_third_row_fails {n : Nat} (hn : 1 ≤ n) (logical : Bool) (b : Rat) :
    pyQuadratic ⟨[(n : Int)], logical⟩ (.coords [b] (.ints 1 [[0], [0], [0]])) .none =
      pyQuadratic ⟨[(n : Int)], logical⟩ (.coords [b] (.ints 1 [[0], [0]])) .none := by
  rw [pyQuadratic_coords hn logical _ (cols := 1) (rows := [[0], [0], [0]]) (by simp [CoordArray.convert, toIntc_zero]),
    pyQuadratic_coords hn logical _ (cols := 1) (rows := [[0], [0]]) (by simp [CoordArray.convert, toIntc_zero]),
    initFromCoords_zeros hn logical b (by simp) (by simp), initFromCoords_zeros hn logical b (by simp) (by simp)]
  congr 1

/-- **C81 fails**: the index `2 ** 32` is taken for 0. -/
theorem C81_wrap_fails {n : Nat} (hn : 1 ≤ n) (logical : Bool) (b : Rat) :
    pyQuadratic ⟨[(n : Int)], logical⟩ (.dict [((2 ^ 32, 0), b)]) .none =
      pyQuadratic ⟨[(n : Int)], logical⟩ (.dict [((0, 0), b)]) .none := by
  have h1 : toIntc (2 ^ 32) = 0 := by decide
  rw [pyQuadratic_vector hn, pyQuadratic_vector hn]
  dsimp only [initFromQubo, LinearArg.forQubo]
  rw [Res.ok_bind, guardThrow_true (by simp [fitsSsize]), Res.ok_bind, Res.ok_bind, guardThrow_true (by simp [fitsSsize]), Res.ok_bind]
  have e : List.map (fun t : (Int × Int) × Rat => toIntc t.1.1) [((2 ^ 32, 0), b)] = List.map (fun t => toIntc t.1.1) [((0, 0), b)] := by
    rw [List.map_cons, List.map_cons]; exact congrArg (· :: _) (h1.trans toIntc_zero.symm)
  rw [e]
  congr 1

/-- **C81 fails**: fractions are accepted as indices, and what comes after the point does not matter. -/
theorem C81_fraction_fails {n : Nat} (hn : 1 ≤ n) (logical : Bool) (b : Rat) :
    pyQuadratic ⟨[(n : Int)], logical⟩ (.coords [b] (.floats 1 [[1 / 2], [-1 / 2]])) .none =
      pyQuadratic ⟨[(n : Int)], logical⟩ (.coords [b] (.ints 1 [[0], [0]])) .none := by
  have h1 : truncIntc (1 / 2) = .ok 0 := by decide +kernel
  have h2 : truncIntc (-1 / 2) = .ok 0 := by decide +kernel
  rw [pyQuadratic_coords hn logical _ (cols := 1) (rows := [[0], [0]]) (by simp only [CoordArray.convert, List.mapM_cons, h1, h2]; rfl),
    pyQuadratic_coords hn logical _ (cols := 1) (rows := [[0], [0]]) (by simp [CoordArray.convert, toIntc_zero])]

/-- In these cases a model is made. -/
example : ∃ q, pyQuadratic ⟨[2], false⟩ (.dict [((2 ^ 32, 0), 1)]) .none = .ok q := by
  rw [show ([2] : List Int) = [((2 : Nat) : Int)] from rfl, C81_wrap_fails (by omega)]
  refine (C81_accepted_partial (by simp) (by simp [QuadArg.Sane, IsIntc])).1.2 ⟨2, rfl, by omega, trivial, ?_, ?_, ?_⟩ <;>
    simp [QuadArg.entries, LinearArg.entries]

end Verif
