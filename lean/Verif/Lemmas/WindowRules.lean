import Verif.Lemmas.GenerateRouting
import Verif.Model.GeneratorsWindows

set_option linter.unusedSectionVars false
set_option linter.unusedSimpArgs false
set_option linter.unusedVariables false

/-! Helper lemmas: rules for the symbols of vehicle routing with time windows. -/

namespace Verif

open Script

variable {full : Prop} {P : Nat → Prop} {s s' : Script} {D : Nat → Prop} {adm : (Nat → Val) → Prop}

/-- `where(condition, x, y)` for numbers. -/
theorem Script.State.whereNumber (S : State full P s D adm) (hP : P s.length) {c x y : Nat} {cc cx cy : Res Claim} {zc zx zy : SizeInfo}
    {kc kx ky : Option (Arr Rat)} {gc gx gy : (Nat → Val) → Rat} (hc : HasArr P s c [] cc zc kc fun A => [gc A])
    (hx : HasArr P s x [] cx zx kx fun A => [gx A]) (hy : HasArr P s y [] cy zy ky fun A => [gy A]) :
    ∃ s', s.add (.kind .where_) [c, x, y] = .ok (s', s.length) ∧
      NextArr full P s s' D adm [] (Kind.where_.claimFrom s.sizes [⟨[[]], cc, zc, kc⟩, ⟨[[]], cx, zx, kx⟩, ⟨[[]], cy, zy, ky⟩])
        (.fixed 1) none (fun A => [if gc A ≠ 0 then gx A else gy A]) := by
  obtain ⟨s', e, N⟩ := S.kind (k := .where_) (ops := [c, x, y]) (qs := [(_, _), (_, _), (_, _)]) (out := [[]])
    (v := fun A => [⟨[], [if gc A ≠ 0 then gx A else gy A]⟩])
    hP (.cons hc (.cons hx (.cons hy .nil))) rfl rfl rfl trivial (by simp [GoodShape]) (by simp [GoodShape]) (fun A hA => by
      show [(⟨[], if gc A ≠ 0 then [gx A] else [gy A]⟩ : Arr Rat)] = _
      split_ifs <;> rfl)
  exact ⟨s', e, N⟩

/-- `x.size()` for a list of variable length. -/
theorem Script.State.sizeOf (S : State full P s D adm) (hP : P s.length) {x : Nat} {cx : Res Claim} {zx : SizeInfo}
    {kx : Option (Arr Rat)} {gx : (Nat → Val) → List Rat} (hx : HasArr P s x [-1] cx zx kx gx) :
    ∃ s' c, s.add (.kind .size) [x] = .ok (s', s.length) ∧
      NextArr full P s s' D adm [] c (.fixed 1) none (fun A => [((gx A).length : Rat)]) := by
  obtain ⟨s', e, N⟩ := S.kind (k := .size) (ops := [x]) (qs := [(_, _)]) (out := [[]])
    (v := fun A => [⟨[], [((gx A).length : Rat)]⟩])
    hP (.cons hx .nil) rfl rfl rfl trivial (by simp [GoodShape]) (by simp [GoodShape]) (fun A hA => rfl)
  exact ⟨s', _, e, N⟩

/-- Two numbers. -/
theorem Script.State.numbers (S : State full P s D adm) (hP : P s.length) (op : BinaryOp) (hop : op ≠ .divide) {x y : Nat}
    {gx gy : (Nat → Val) → Rat} (hx : Computes P s x gx) (hy : Computes P s y gy) :
    ∃ s', s.add (.kind (.binary op)) [x, y] = .ok (s', s.length) ∧ State full P s' D adm ∧ Ext P s s' ∧ s'.length = s.length + 1 ∧
      Computes P s' s.length fun A => op.func (gx A) (gy A) := by
  obtain ⟨_, _, _, hx⟩ := hx
  obtain ⟨_, _, _, hy⟩ := hy
  obtain ⟨s', e, N⟩ := S.binary hP op hop hx hy (by simp [GoodShape]) rfl
  exact ⟨s', e, N.state, N.ext, N.len, _, _, _, N.has⟩

/-- A truth value. -/
def Holds (P : Nat → Prop) (s : Script) (i : Nat) (q : (Nat → Val) → Bool) : Prop :=
  ∃ size const, HasArr P s i [] (.ok ⟨⟨0, 1⟩, true⟩) size const fun A => [ofBool (q A)]

theorem Holds.mono {i : Nat} {q : (Nat → Val) → Bool} (h : Holds P s i q) (e : Ext P s s') : Holds P s' i q := by
  obtain ⟨z, k, h⟩ := h
  exact ⟨z, k, h.mono e⟩

theorem Holds.computes {i : Nat} {q : (Nat → Val) → Bool} (h : Holds P s i q) : Computes P s i fun A => ofBool (q A) := by
  obtain ⟨z, k, h⟩ := h
  exact ⟨_, _, _, h⟩

/-- `x <= y` for numbers. -/
theorem Script.State.lessEqual (S : State full P s D adm) (hP : P s.length) {x y : Nat} {gx gy : (Nat → Val) → Rat}
    (hx : Computes P s x gx) (hy : Computes P s y gy) :
    ∃ s', s.add (.kind (.binary .lessEqual)) [x, y] = .ok (s', s.length) ∧ State full P s' D adm ∧ Ext P s s' ∧ s'.length = s.length + 1 ∧
      Holds P s' s.length fun A => decide (gx A ≤ gy A) := by
  obtain ⟨_, _, _, hx⟩ := hx
  obtain ⟨_, _, _, hy⟩ := hy
  obtain ⟨s', e, N⟩ := S.truth hP .lessEqual rfl hx hy (by simp [GoodShape]) rfl
  exact ⟨s', e, N.state, N.ext, N.len, _, _, N.has⟩

/-- The number of a customer, or `n`. -/
def IsStop (P : Nat → Prop) (adm : (Nat → Val) → Prop) (n : Nat) (s : Script) (i : Nat) (g : (Nat → Val) → Rat) : Prop :=
  ∃ c const, IsIndex P s adm (n + 1) i [] c (.fixed 1) const fun A => [g A]

theorem IsStop.mono {n i : Nat} {g : (Nat → Val) → Rat} (h : IsStop P adm n s i g) (e : Ext P s s') : IsStop P adm n s' i g := by
  obtain ⟨c, k, h⟩ := h
  exact ⟨c, k, h.mono e⟩

/-- `table[i]`. -/
theorem look_ok {n i x : Nat} {T : List Rat} {g : (Nat → Val) → Rat} (S : State full P s D adm) (hP : P s.length)
    (hT : Table P s x [((n + 1 : Nat) : Int)] T) (hi : IsStop P adm n s i g) :
    ∃ s', s.add (.advanced [true]) [x, i] = .ok (s', s.length) ∧ State full P s' D adm ∧ Ext P s s' ∧ s'.length = s.length + 1 ∧
      Computes P s' s.length fun A => T.getD (toSS (g A)).toNat 0 := by
  obtain ⟨w, claim, z, h⟩ := hT
  obtain ⟨c, k, hi⟩ := hi
  obtain ⟨s1, e1, N1⟩ := S.advancedOne hP h (by
    rintro _ ⟨⟩
    exact ⟨rfl, w, fun _ _ => rfl⟩) hi (by simp) (by omega)
  exact ⟨s1, e1, N1.state, N1.ext, N1.len, _, _, _, N1.has⟩

/-- `table[i, j]`. -/
theorem look2_ok {n i j x : Nat} {T : List Rat} {g g' : (Nat → Val) → Rat} (S : State full P s D adm) (hP : P s.length)
    (hT : Table P s x [((n + 1 : Nat) : Int), ((n + 1 : Nat) : Int)] T) (hi : IsStop P adm n s i g) (hj : IsStop P adm n s j g') :
    ∃ s', s.add (.advanced [true, true]) [x, i, j] = .ok (s', s.length) ∧ State full P s' D adm ∧ Ext P s s' ∧ s'.length = s.length + 1 ∧
      Computes P s' s.length fun A => T.getD (toSS (g A) * (n + 1 : Nat) + toSS (g' A)).toNat 0 := by
  obtain ⟨w, claim, z, h⟩ := hT
  obtain ⟨c, k, hi⟩ := hi
  obtain ⟨c', k', hj⟩ := hj
  obtain ⟨s1, e1, N1⟩ := S.advancedTwo hP h (by
    rintro _ ⟨⟩
    exact ⟨rfl, w, fun _ _ => rfl⟩) hi hj (by simp) rfl (SizeInfo.beq_self _) (fun _ _ => rfl) (by omega) (by omega)
  exact ⟨s1, e1, N1.state, N1.ext, N1.len, _, _, _, N1.has⟩

/-- Numbers `0`, ..., `n`. -/
structure IsHelper (P : Nat → Prop) (n : Nat) (s : Script) (i : Nat) : Prop where
  has : ∃ c size const, HasArr P s i [((n + 1 : Nat) : Int)] (.ok c) size const (fun _ => (List.range (n + 1)).map fun k : Nat => (k : Rat)) ∧
    c.integral = true ∧ 0 ≤ c.range.lo ∧ c.range.hi < (n + 1 : Nat) ∧ ∀ k ≤ n, c.range.lo ≤ (k : Rat) ∧ (k : Rat) ≤ c.range.hi

theorem IsHelper.mono {n i : Nat} (h : IsHelper P n s i) (e : Ext P s s') : IsHelper P n s' i := by
  obtain ⟨c, z, k, h, r⟩ := h
  exact ⟨c, z, k, h.mono e, r⟩

theorem getD_helper {n k : Nat} (h : k ≤ n) : ((List.range (n + 1)).map fun k : Nat => (k : Rat)).getD k 0 = k :=
  getD_row _ (by omega)

/-- `range_helper[k]`. -/
theorem IsHelper.at {n i : Nat} (h : IsHelper P n s i) (S : State full P s D adm) (hP : P s.length) (hbig : (n : Int) + 1 ≤ ssMax)
    {k : Nat} (hk : k ≤ n) :
    ∃ s', s.add (.basic [.at k]) [i] = .ok (s', s.length) ∧ State full P s' D adm ∧ Ext P s s' ∧ s'.length = s.length + 1 ∧
      Computes P s' s.length fun _ => (k : Rat) := by
  obtain ⟨c, z, const, h, _⟩ := h
  obtain ⟨s', e, N⟩ := S.atFixed hP h k (by push_cast; exact hbig) (by push_cast; omega)
  have := N.has
  rw [if_neg (by omega), Int.toNat_natCast, getD_helper hk] at this
  exact ⟨s', e, N.state, N.ext, N.len, _, _, _, this⟩

/-- There is nothing behind the end of the helper. -/
theorem IsHelper.beyond {n i : Nat} (h : IsHelper P n s i) {k : Nat} (hk : n < k) : s.add (.basic [.at k]) [i] = .throw := by
  obtain ⟨c, z, const, h, _⟩ := h
  have hp : basicParse [((n + 1 : Nat) : Int)] [.at (k : Int)] = .throw := by
    simp only [basicParse, BasicIndex.makeAll, BasicIndex.make, Res.ok_bind, parseIndex]
    rw [guardThrow_true (by rfl), Res.ok_bind, not_dynamic (by simp; omega)]
    simp only [shapeToStrides, parseAxes]
    rw [show guardThrow _ = Res.throw from if_neg (by rw [if_neg (by omega)]; push_cast; omega)]
    rfl
  unfold Script.add
  rw [guardUB_true (by simpa using h.is.lt), Res.ok_bind]
  simp only [List.map_cons, List.map_nil, h.out, Term.construct]
  rw [show Kind.arrayShape [[((n + 1 : Nat) : Int)]] = .ok [((n + 1 : Nat) : Int)] from rfl, Res.ok_bind, hp]
  rfl

/-- `range_helper[-1]`. -/
theorem IsHelper.last {n i : Nat} (h : IsHelper P n s i) (S : State full P s D adm) (hP : P s.length) (hbig : (n : Int) + 1 ≤ ssMax) :
    ∃ s' c size const, s.add (.basic [.at (-1)]) [i] = .ok (s', s.length) ∧ State full P s' D adm ∧ Ext P s s' ∧ s'.length = s.length + 1 ∧
      HasArr P s' s.length [] (.ok c) size const (fun _ => [(n : Rat)]) ∧ c.integral = true ∧ 0 ≤ c.range.lo ∧ c.range.hi < (n + 1 : Nat) ∧
      c.range.lo ≤ n ∧ n ≤ c.range.hi := by
  obtain ⟨c, z, const, h, h1, h2, h3, h4⟩ := h
  obtain ⟨s', e, N⟩ := S.atFixed hP h (-1) (by push_cast; exact hbig) (by push_cast; omega)
  have := N.has
  rw [if_pos (by omega), show ((-1 : Int) + ((n + 1 : Nat) : Int)).toNat = n from by omega, getD_helper le_rfl] at this
  exact ⟨s', c, _, _, e, N.state, N.ext, N.len, this, h1, h2, h3, h4 n le_rfl⟩

/-- The size of `x[k:k+1]`. -/
theorem size_one (x k : Nat) (hk : 0 < k) (hbig : (k : Int) + 1 < ssMax) :
    SizeInfo.ofSlice x 1 1 ⟨k, k + 1, 1⟩ = .ok ⟨some x, 1, -k, none, some (k + 1)⟩ := by
  unfold SizeInfo.ofSlice
  have e1 : (1 / ((1 : Int) : Rat) * ((1 : Int) : Rat) / ((1 : Int) : Rat) : Rat) = 1 := by norm_num
  have e : ∀ j : Int, 0 ≤ j → truncate (1 * (j : Rat)) = j := by
    intro j hj
    unfold truncate
    rw [one_mul, if_pos (by exact_mod_cast hj), Int.floor_intCast]
  rw [guardUB_true (by norm_num), Res.ok_bind]
  simp only [e1]
  rw [guardUB_true (by intro _; norm_num), Res.ok_bind, if_pos (by exact_mod_cast hk), if_pos ⟨by omega, by omega⟩, if_pos ⟨by omega, by omega⟩,
    e _ (by omega), e _ (by omega), add_zero]

theorem known_one {sizes : Nat → SizeInfo} {n r k : Nat} (h : sizes r = .of r (some 0) (some n)) (hk : k ≤ n) :
    ∃ t : SizeInfo, (⟨some r, 1, -k, none, some (k + 1)⟩ : SizeInfo).substitute sizes 100 = .ok t ∧
      t.known = .dynamic (some 0) (some ((Min.min (k + 1) n - k : Nat) : Int)) := by
  have hscale : ∀ b : Int, SizeInfo.scale 1 (-(k : Int)) b = Max.max 0 (b - k) := by
    intro b
    unfold SizeInfo.scale
    rw [if_neg (by simp)]
    rfl
  have hm : Max.max 0 (Min.min ((k : Int) + 1) n - k) = ((Min.min (k + 1) n - k : Nat) : Int) := by omega
  have hj : ∃ t : SizeInfo, (⟨some r, 1, -k, none, some (k + 1)⟩ : SizeInfo).join (.of r (some 0) (some n)) = t ∧ t.array = some r ∧
      t.min = some 0 ∧ t.max = some ((Min.min (k + 1) n - k : Nat) : Int) := by
    unfold SizeInfo.join SizeInfo.of
    simp only [SizeInfo.capMax, SizeInfo.capMin, Option.map_some, hscale, hm]
    have h0 : Max.max 0 ((0 : Int) - k) = 0 := by omega
    rw [h0]
    split_ifs with h
    · exact ⟨_, rfl, rfl, rfl, rfl⟩
    · exact ⟨_, rfl, rfl, rfl, rfl⟩
  obtain ⟨t, hj, ha, hmin, hmax⟩ := hj
  have hden : ((1 : Rat) * ((SizeInfo.of r (some 0) (some (n : Int))).offset : Rat)).den = 1 := by norm_num [SizeInfo.of]
  refine ⟨t, ?_, by unfold SizeInfo.known; rw [hmin, hmax]⟩
  have c1 : (⟨some r, 1, -k, none, some (k + 1)⟩ : SizeInfo).converged (.of r (some 0) (some n)) = false := by
    simp [SizeInfo.converged, SizeInfo.of, ssMax]
  have c2 : t.converged (.of r (some 0) (some n)) = true := by
    unfold SizeInfo.converged SizeInfo.of
    rw [decide_eq_true_eq]
    simp only [ha, hmin, hmax, Option.getD_some]
    refine ⟨trivial, trivial, trivial, le_rfl, ?_⟩
    omega
  unfold SizeInfo.substitute
  simp only [h, c1, Bool.false_eq_true, if_false]
  rw [guardUB_true hden, Res.ok_bind, hj]
  unfold SizeInfo.substitute
  simp only [ha, h, c2, if_true]

/-- `slice.sum()` for a slice with at most one element. -/
theorem sum_ok {n i : Nat} {z t : SizeInfo} {g : (Nat → Val) → List Rat} (S : State full P s D adm) (hP : P s.length) (hn : 0 < n)
    (hi : IsIndex P s adm n i [-1] ⟨⟨0, n - 1⟩, true⟩ z none g) {m : Nat} (hz : z.substitute s.sizes 100 = .ok t)
    (ht : t.known = .dynamic (some 0) (some m)) (hm : m ≤ 1) (hg : ∀ A, adm A → (g A).length ≤ m) :
    ∃ s' hi, s.add (.kind (.reduce .sum 0)) [i] = .ok (s', s.length) ∧ State full P s' D adm ∧ Ext P s s' ∧ s'.length = s.length + 1 ∧
      HasArr P s' s.length [] (.ok ⟨⟨0, hi⟩, true⟩) (.fixed 1) none (fun A => [(g A).sum]) ∧ hi < (n + 1 : Nat) ∧
      ∀ A, adm A → ((g A).sum).den = 1 ∧ 0 ≤ (g A).sum ∧ (g A).sum ≤ hi := by
  have hn1 : (1 : Rat) ≤ n := by exact_mod_cast hn
  obtain ⟨s', e, N⟩ := S.kind (k := .reduce .sum 0) (ops := [i]) (qs := [(_, _)]) (out := [[]]) (v := fun A => [⟨[], [(g A).sum]⟩])
    hP (.cons hi.has .nil) rfl rfl rfl trivial (by simp [GoodShape]) (by simp [GoodShape]) (fun A _ => by
      show [(⟨[], [_]⟩ : Arr Rat)] = _
      simp [single])
  have hcl : (Kind.reduce .sum 0).claimFrom s.sizes [⟨[[-1]], .ok ⟨⟨0, (n : Rat) - 1⟩, true⟩, z, none⟩] = .ok ⟨⟨0, m * (n - 1)⟩, true⟩ := by
    have hk : Info.known s.sizes ⟨[[-1]], .ok ⟨⟨0, (n : Rat) - 1⟩, true⟩, z, none⟩ = .ok (.dynamic (some 0) (some m)) := by
      unfold Info.known
      rw [if_pos (by rfl)]
      simp only [hz, Res.ok_bind, ht]
    show (do
      let k ← Info.known s.sizes ⟨[[-1]], .ok ⟨⟨0, (n : Rat) - 1⟩, true⟩, z, none⟩
      Res.ok (⟨⟨ReduceOp.min .sum 0 k ⟨0, (n : Rat) - 1⟩, ReduceOp.max .sum 0 k ⟨0, (n : Rat) - 1⟩⟩, ReduceOp.integral .sum 0 true⟩ : Claim)) = _
    rw [hk, Res.ok_bind]
    have h1 : ReduceOp.min .sum 0 (.dynamic (some 0) (some m)) ⟨0, (n : Rat) - 1⟩ = 0 := by simp [ReduceOp.min]
    have h2 : ReduceOp.max .sum 0 (.dynamic (some 0) (some m)) ⟨0, (n : Rat) - 1⟩ = m * (n - 1) := by
      unfold ReduceOp.max
      by_cases h : (n : Rat) - 1 = 0
      · simp [h]
      · simp only [h, if_false]
        rw [if_pos (by
          rcases lt_or_eq_of_le hn1 with hlt | heq
          · show 0 < (n : Rat) - 1
            linarith
          · exact absurd (by rw [← heq]; ring) h)]
        push_cast
        ring
    rw [h1, h2]
    rfl
  refine ⟨s', m * ((n : Rat) - 1), e, N.state, N.ext, N.len, ?_, ?_, ?_⟩
  · have := N.has
    simp only [List.map_cons, List.map_nil] at this
    rw [hcl] at this
    exact this
  · have : (m : Rat) ≤ 1 := by exact_mod_cast hm
    push_cast
    nlinarith
  · intro A hA
    have hl := hg A hA
    have hv := hi.values A hA
    rcases hga : g A with _ | ⟨v, _ | ⟨w, l⟩⟩
    · simp only [List.sum_nil]
      have : (0 : Rat) ≤ m := by positivity
      exact ⟨rfl, le_rfl, by nlinarith⟩
    · rw [hga] at hl
      obtain rfl : m = 1 := by simp at hl; omega
      have := hv v (by rw [hga]; simp)
      simpa using this
    · rw [hga] at hl
      simp at hl
      omega

/-- `where(condition, route[a:b].sum(), range_helper[-1])`. -/
theorem stop_ok {n r condition : Nat} {c : Generators.WindowsSymbols} {q : (Nat → Val) → Bool} {g : (Nat → Val) → List Rat}
    (S : State full P s D adm) (hP : ∀ i, P i) (hr : IsRoute P adm n s r g) (hn : 0 < n) (hbig : (n : Int) + 1 < ssMax)
    (hh : IsHelper P n s c.helper) (hq : Holds P s condition q) (a b : Option Int) {sl : Slice} (hsl : Slice.make a b none = .ok sl)
    {z : SizeInfo} (hz : SizeInfo.ofSlice r 1 1 sl = .ok z) (hf : (BasicIndex.slice a b none).Fits) {m : Nat}
    (hsub : ∀ sizes : Nat → SizeInfo, sizes r = .of r (some 0) (some n) → ∃ t, z.substitute sizes 100 = .ok t ∧ t.known = .dynamic (some 0) (some m))
    (hm : m ≤ 1) (hg : ∀ A, adm A → (sliceOf a b (g A)).length ≤ m) :
    ∃ s' i, Generators.stop c r condition a b s = .ok (s', i) ∧ State full P s' D adm ∧ Ext P s s' ∧
      IsStop P adm n s' i fun A => if q A = true then (sliceOf a b (g A)).sum else n := by
  obtain ⟨s1, e1, S1, x1, l1, I1⟩ := hr.slice S (hP _) (by omega) a b hsl hz hf
  obtain ⟨t, h1, h2⟩ := hsub s1.sizes (hr.index.mono x1).has.size
  obtain ⟨s2, hi, e2, S2, x2, l2, H2, B2, V2⟩ := sum_ok S1 (hP _) hn I1 h1 h2 hm hg
  obtain ⟨s3, c3, z3, k3, e3, S3, x3, l3, H3, A3, B3, C3, D3, E3⟩ := (hh.mono (x1.trans x2)).last S2 (hP _) (by omega)
  obtain ⟨zq, kq, hq⟩ := hq
  obtain ⟨s4, e4, N4⟩ := S3.whereNumber (hP _) (hq.mono (x1.trans (x2.trans x3))) (H2.mono x3) H3
  have hcl : Kind.where_.claimFrom s3.sizes [⟨[[]], .ok ⟨⟨0, 1⟩, true⟩, zq, kq⟩, ⟨[[]], .ok ⟨⟨0, hi⟩, true⟩, .fixed 1, none⟩, ⟨[[]], .ok c3, z3, k3⟩] =
      .ok ⟨⟨Min.min 0 c3.range.lo, Max.max hi c3.range.hi⟩, true && c3.integral⟩ := rfl
  refine ⟨s4, s3.length, ?_, N4.state, x1.trans (x2.trans (x3.trans N4.ext)), ⟨⟨Min.min 0 c3.range.lo, Max.max hi c3.range.hi⟩, true && c3.integral⟩,
    none, ⟨?_, ?_, ?_, ?_, ?_⟩⟩
  · unfold Generators.stop
    simp only [e1, e2, e3, e4, Res.ok_bind]
  · have := N4.has
    rw [hcl] at this
    have e : (fun A : Nat → Val => [if ofBool (q A) ≠ 0 then (sliceOf a b (g A)).sum else (n : Rat)]) =
        fun A => [if q A = true then (sliceOf a b (g A)).sum else (n : Rat)] := by
      funext A
      cases hqa : q A <;> simp [ofBool]
    rw [e] at this
    exact this
  · rw [A3]; rfl
  · show 0 ≤ Min.min 0 c3.range.lo
    exact le_min le_rfl B3
  · exact max_lt B2 C3
  · intro A hA v hv
    obtain rfl := List.mem_singleton.1 hv
    show _ ∧ Min.min 0 c3.range.lo ≤ _ ∧ _ ≤ Max.max hi c3.range.hi
    obtain ⟨a1, a2, a3⟩ := V2 A hA
    dsimp only
    split_ifs
    · exact ⟨a1, le_trans (min_le_left _ _) a2, le_trans a3 (le_max_left _ _)⟩
    · exact ⟨by simp, le_trans (min_le_right _ _) D3, le_trans E3 (le_max_right _ _)⟩

end Verif
