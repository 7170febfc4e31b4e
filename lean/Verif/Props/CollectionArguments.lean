import Verif.Model.CollectionArguments
import Verif.Lemmas.QuadraticArguments
import Verif.Props.Collection

/-!
# C83: collections have the sizes they are given
-/

namespace Verif

/-- The argument is an integer of 64 bits. -/
def SizeArg.Is : SizeArg → Int → Prop
  | .int n, k => n = k ∧ -2 ^ 63 ≤ k ∧ k < 2 ^ 63
  | .other, _ => False

theorem SizeArg.cases (a : SizeArg) : (∃ k, a.convert = .ok k ∧ ∀ j, a.Is j ↔ j = k) ∨ (a.convert = .throw ∧ ∀ j, ¬a.Is j) := by
  cases a with
  | other => exact .inr ⟨rfl, fun j h => h⟩
  | int n =>
    by_cases h : fitsSsize n
    · refine .inl ⟨n, by rw [SizeArg.convert, guardThrow_true h, Res.ok_bind], fun j => ⟨fun hj => hj.1.symm, ?_⟩⟩
      rintro rfl
      exact ⟨rfl, h.1, h.2⟩
    · refine .inr ⟨by rw [SizeArg.convert, guardThrow, if_neg h, Res.throw_bind], fun j hj => h ?_⟩
      obtain ⟨rfl, h1, h2⟩ := hj
      exact ⟨h1, h2⟩

theorem makeCollVar_cases {n lo hi : Int} (hs : lo = hi → hi < 2 ^ 31) :
    makeCollVar n lo hi = if 0 ≤ lo ∧ lo ≤ hi ∧ hi ≤ n then
      .ok ⟨[if lo = hi then hi else -1], if lo = hi then hi else -1, ⟨n.toNat, lo.toNat, hi.toNat⟩⟩ else .throw := by
  have hsize : cppSize [if lo = hi then hi else -1] = .ok (if lo = hi ∧ 0 ≤ hi then hi else -1) := by
    by_cases h : lo = hi
    · by_cases h0 : 0 ≤ hi
      · rw [if_pos h, if_pos ⟨h, h0⟩, cppSize, if_neg (by omega), reduceShape, one_mul,
          guardUB_true ⟨by omega, by have := hs h; omega⟩, Res.ok_bind, toIntc_of ⟨by omega, by have := hs h; omega⟩, reduceShape]
      · rw [if_pos h, if_neg (by tauto), cppSize, if_pos (by omega)]
    · rw [if_neg h, if_neg (by tauto)]; rfl
  have hmake : CollNode.make n lo hi = if 0 ≤ lo ∧ lo ≤ hi ∧ hi ≤ n then .ok ⟨n.toNat, lo.toNat, hi.toNat⟩ else .throw := by
    unfold CollNode.make guardThrow
    by_cases h1 : ¬(lo < 0 ∨ hi < 0)
    · by_cases h2 : ¬lo > hi
      · by_cases h3 : ¬hi > n
        · have hc : 0 ≤ lo ∧ lo ≤ hi ∧ hi ≤ n := by omega
          rw [if_pos h1, if_pos h2, if_pos h3, if_pos hc]; rfl
        · have hc : ¬(0 ≤ lo ∧ lo ≤ hi ∧ hi ≤ n) := by omega
          rw [if_pos h1, if_pos h2, if_neg h3, if_neg hc]; rfl
      · have hc : ¬(0 ≤ lo ∧ lo ≤ hi ∧ hi ≤ n) := by omega
        rw [if_pos h1, if_neg h2, if_neg hc]; rfl
    · have hc : ¬(0 ≤ lo ∧ lo ≤ hi ∧ hi ≤ n) := by omega
      rw [if_neg h1, if_neg hc]; rfl
  unfold makeCollVar
  dsimp only
  rw [hsize, Res.ok_bind, hmake]
  by_cases hc : 0 ≤ lo ∧ lo ≤ hi ∧ hi ≤ n
  · have he : (lo = hi ∧ 0 ≤ hi) ↔ lo = hi := by omega
    simp only [if_pos hc, he]
    rw [Res.ok_bind]
  · rw [if_neg hc, if_neg hc, Res.throw_bind]

/-- **C83**, lists of fewer than 2^31 items: `list(n)` makes a vector of `n` elements exactly when `n` is a non-negative integer, and
raises an exception otherwise.

Missing: longer lists, for which it is false (`C83_size_fails`). -/
theorem C83_list_partial {a : SizeArg} (hs : ∀ n, a.Is n → n < 2 ^ 31) :
    (∀ n, a.Is n → 0 ≤ n → pyList a = .ok ⟨[n], n, ⟨n.toNat, n.toNat, n.toNat⟩⟩) ∧
    ((¬∃ n, a.Is n ∧ 0 ≤ n) → pyList a = .throw) := by
  unfold pyList
  rcases a.cases with ⟨k, h1, h2⟩ | ⟨h1, h2⟩
  · rw [h1, Res.ok_bind, makeCollVar_cases fun _ => hs k ((h2 k).2 rfl)]
    constructor
    · intro n hn h0
      obtain rfl := (h2 n).1 hn
      rw [if_pos ⟨h0, le_refl _, le_refl _⟩, if_pos rfl]
    · intro h
      rw [if_neg]
      exact fun h0 => h ⟨k, (h2 k).2 rfl, h0.1⟩
  · rw [h1, Res.throw_bind]
    exact ⟨fun n h => absurd h (h2 n), fun _ => rfl⟩

example : pyList (.int 5) = .ok ⟨[5], 5, ⟨5, 5, 5⟩⟩ :=
  (C83_list_partial (by rintro n ⟨rfl, _⟩; norm_num)).1 5 ⟨rfl, by norm_num, by norm_num⟩ (by norm_num)

/-- **C83**, sets: `set(n, min_size, max_size)` makes a set exactly when `0 ≤ min_size ≤ max_size ≤ n`, where `min_size` is 0 and `max_size` is `n`
if not given.  Its size changes unless both are the same, then it is that number.

Missing: sets of a fixed size of 2^31 or more, for which it is false (`C83_size_fails`). -/
theorem C83_set_partial {a : SizeArg} {minSize maxSize : Option SizeArg}
    (hs : ∀ k, (minSize.getD (.int 0)).Is k → (maxSize.getD a).Is k → k < 2 ^ 31) :
    (∀ n lo hi, a.Is n → (minSize.getD (.int 0)).Is lo → (maxSize.getD a).Is hi → 0 ≤ lo → lo ≤ hi → hi ≤ n →
      pySet a minSize maxSize = .ok ⟨[if lo < hi then -1 else lo], if lo < hi then -1 else lo, ⟨n.toNat, lo.toNat, hi.toNat⟩⟩) ∧
    ((¬∃ n lo hi, a.Is n ∧ (minSize.getD (.int 0)).Is lo ∧ (maxSize.getD a).Is hi ∧ 0 ≤ lo ∧ lo ≤ hi ∧ hi ≤ n) →
      pySet a minSize maxSize = .throw) := by
  unfold pySet
  rcases a.cases with ⟨n, h1, h2⟩ | ⟨h1, h2⟩
  · rw [h1, Res.ok_bind]
    rcases (minSize.getD (.int 0)).cases with ⟨lo, e1, e2⟩ | ⟨e1, e2⟩
    · rw [e1, Res.ok_bind]
      rcases (maxSize.getD a).cases with ⟨hi, f1, f2⟩ | ⟨f1, f2⟩
      · rw [f1, Res.ok_bind, makeCollVar_cases fun h => hs hi ((e2 hi).2 h.symm) ((f2 hi).2 rfl)]
        constructor
        · intro n' lo' hi' g1 g2 g3 g4 g5 g6
          obtain rfl := (h2 n').1 g1
          obtain rfl := (e2 lo').1 g2
          obtain rfl := (f2 hi').1 g3
          rw [if_pos ⟨g4, g5, g6⟩]
          by_cases h : lo' = hi'
          · rw [if_pos h, if_neg (by omega), h]
          · rw [if_neg h, if_pos (by omega)]
        · intro h
          rw [if_neg]
          rintro ⟨g4, g5, g6⟩
          exact h ⟨n, lo, hi, (h2 n).2 rfl, (e2 lo).2 rfl, (f2 hi).2 rfl, g4, g5, g6⟩
      · rw [f1, Res.throw_bind]
        exact ⟨fun _ _ hi _ _ h => absurd h (f2 hi), fun _ => rfl⟩
    · rw [e1, Res.throw_bind]
      exact ⟨fun _ lo _ _ h => absurd h (e2 lo), fun _ => rfl⟩
  · rw [h1, Res.throw_bind]
    exact ⟨fun n _ _ h => absurd h (h2 n), fun _ => rfl⟩

example : pySet (.int 10) (some (.int 2)) none = .ok ⟨[-1], -1, ⟨10, 2, 10⟩⟩ := by
  refine (C83_set_partial (a := .int 10) (minSize := some (.int 2)) (maxSize := none) ?_).1 10 2 10 ⟨rfl, by norm_num, by norm_num⟩
    ⟨rfl, by norm_num, by norm_num⟩ ⟨rfl, by norm_num, by norm_num⟩ (by norm_num) (by norm_num) (by norm_num)
  rintro k ⟨rfl, _⟩ ⟨h, _⟩
  exact absurd h (by norm_num)

/-- **C83**: a list or set counts as an array of changing size exactly when its two sizes differ. -/
theorem C83_dynamic {n lo hi : Int} (hs : lo = hi → hi < 2 ^ 31) {v : CollVar} (h : makeCollVar n lo hi = .ok v) :
    sizeChanges v.size = true ↔ lo < hi := by
  rw [makeCollVar_cases hs] at h
  by_cases hc : 0 ≤ lo ∧ lo ≤ hi ∧ hi ≤ n
  · rw [if_pos hc] at h
    obtain rfl := Res.ok.inj h
    simp only [sizeChanges, decide_eq_true_eq]
    by_cases he : lo = hi
    · rw [if_pos he]; omega
    · rw [if_neg he]; omega
  · rw [if_neg hc] at h
    cases h

example : ∃ v, makeCollVar 10 2 4 = .ok v ∧ sizeChanges v.size = true :=
  ⟨_, rfl, (C83_dynamic (n := 10) (lo := 2) (hi := 4) (by norm_num) rfl).2 (by norm_num)⟩

/-- **C83**: the states of a list or set that was made are the sequences of different numbers of `range(n)` with an allowed length; others raise an
exception. -/
theorem C83_states {n lo hi : Int} {v : CollVar} (h : makeCollVar n lo hi = .ok v) (contents : List Rat) :
    (ValidCollection n.toNat lo.toNat hi.toNat contents → ∃ s, v.node.initExplicit contents = .ok s ∧ s.elements.take s.size = contents) ∧
    (¬ValidCollection n.toNat lo.toNat hi.toNat contents → v.node.initExplicit contents = .throw) := by
  obtain ⟨size, _, h⟩ := Res.bind_eq_ok.1 h
  obtain ⟨c, hc, h⟩ := Res.bind_eq_ok.1 h
  obtain rfl := Res.ok.inj h
  obtain ⟨_, h1, hc⟩ := Res.bind_eq_ok.1 hc
  obtain ⟨_, h2, hc⟩ := Res.bind_eq_ok.1 hc
  obtain ⟨_, h3, hc⟩ := Res.bind_eq_ok.1 hc
  obtain rfl := Res.ok.inj hc
  exact C05_explicit_accepts_iff ⟨n.toNat, lo.toNat, hi.toNat⟩ contents

example : ∃ v, makeCollVar 10 2 4 = .ok v ∧ v.node.initExplicit [7, 7] = .throw := ⟨_, rfl, by decide +kernel⟩

theorem makeParts_range {num : Int} : ∀ (k made : Nat), ((made + k : Nat) : Int) ≤ num →
    makeParts num made (List.range' made k) = .ok (List.range' made k) := by
  intro k
  induction k with
  | zero => intro made _; rfl
  | succ k ih =>
    intro made h
    rw [List.range'_succ, makeParts, makePart, guardThrow_true (by omega), Res.ok_bind, guardThrow_true (le_refl _), Res.ok_bind, if_pos rfl,
      Res.ok_bind, Res.ok_bind]
    dsimp only
    rw [ih (made + 1) (by omega), Res.ok_bind]

/-- **C83**, disjoint collections: they are made exactly when the set has no negative size and there is at least one part; all parts are returned,
once and in order. -/
theorem C83_disjoint {a b : SizeArg} :
    (∀ p n, a.Is p → b.Is n → 0 ≤ p → 1 ≤ n → pyDisjoint a b = .ok ⟨p, n, List.range n.toNat⟩) ∧
    ((¬∃ p n, a.Is p ∧ b.Is n ∧ 0 ≤ p ∧ 1 ≤ n) → pyDisjoint a b = .throw) := by
  unfold pyDisjoint
  rcases a.cases with ⟨p, h1, h2⟩ | ⟨h1, h2⟩
  · rw [h1, Res.ok_bind]
    rcases b.cases with ⟨n, e1, e2⟩ | ⟨e1, e2⟩
    · rw [e1, Res.ok_bind]
      by_cases hp : 0 ≤ p
      · rw [guardThrow_true (by omega), Res.ok_bind]
        by_cases hn : 1 ≤ n
        · rw [guardThrow_true (by omega), Res.ok_bind, List.range_eq_range', makeParts_range _ _ (by omega), Res.ok_bind]
          constructor
          · intro p' n' g1 g2 _ _
            obtain rfl := (h2 p').1 g1
            obtain rfl := (e2 n').1 g2
            rw [List.range_eq_range']
          · intro h
            exact absurd ⟨p, n, (h2 p).2 rfl, (e2 n).2 rfl, hp, hn⟩ h
        · rw [guardThrow, if_neg (by omega), Res.throw_bind]
          refine ⟨fun p' n' _ g2 _ h => absurd h ?_, fun _ => rfl⟩
          obtain rfl := (e2 n').1 g2
          exact hn
      · rw [guardThrow, if_neg (by omega), Res.throw_bind]
        refine ⟨fun p' n' g1 _ h => absurd h ?_, fun _ => rfl⟩
        obtain rfl := (h2 p').1 g1
        exact hp
    · rw [e1, Res.throw_bind]
      exact ⟨fun _ n _ h => absurd h (e2 n), fun _ => rfl⟩
  · rw [h1, Res.throw_bind]
    exact ⟨fun p _ h => absurd h (h2 p), fun _ => rfl⟩

example : pyDisjoint (.int 4) (.int 3) = .ok ⟨4, 3, [0, 1, 2]⟩ :=
  C83_disjoint.1 4 3 ⟨rfl, by norm_num, by norm_num⟩ ⟨rfl, by norm_num, by norm_num⟩ (by norm_num) (by norm_num)

/-- **C83 fails**: a list of 2^31 items has a negative number of elements and counts as an array of changing size, one of 2^32 has none. -/
theorem C83_size_fails : pyList (.int (2 ^ 31)) = .ok ⟨[2 ^ 31], -2 ^ 31, ⟨2 ^ 31, 2 ^ 31, 2 ^ 31⟩⟩ ∧
    pyList (.int (2 ^ 32)) = .ok ⟨[2 ^ 32], 0, ⟨2 ^ 32, 2 ^ 32, 2 ^ 32⟩⟩ := by
  constructor <;> decide +kernel

end Verif
