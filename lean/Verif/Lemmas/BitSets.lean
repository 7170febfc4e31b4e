import Verif.Model.Disjoint
import Verif.Lemmas.Collection
import Mathlib.Data.Rat.Defs
import Mathlib.Algebra.Order.Ring.Rat

set_option linter.unusedSectionVars false
set_option linter.unusedSimpArgs false

/-! Helper lemmas: `BitSetsState` refines a pair of assignments. -/

namespace Verif
namespace BitSetsState

/-- Row `k` of a flat vector. -/
def row (P : Nat) (data : List Rat) (k : Nat) : List Rat := (data.drop (k * P)).take P

theorem row_get {P k i : Nat} (data : List Rat) (hi : i < P) :
    (row P data k)[i]? = data[k * P + i]? := by
  simp [row, List.getElem?_take, hi, List.getElem?_drop]

theorem row_get_ge {P k i : Nat} (data : List Rat) (hi : P ≤ i) : (row P data k)[i]? = none := by
  apply List.getElem?_eq_none; simp [row]; omega

theorem flat_inj {P k j i i' : Nat} (hi : i < P) (hi' : i' < P) (h : k * P + i = j * P + i') :
    k = j ∧ i = i' := by
  have h1 : (k * P + i) / P = k := by
    rw [Nat.mul_comm, Nat.mul_add_div (by omega), Nat.div_eq_of_lt hi]; omega
  have h2 : (j * P + i') / P = j := by
    rw [Nat.mul_comm, Nat.mul_add_div (by omega), Nat.div_eq_of_lt hi']; omega
  have : k = j := by rw [← h1, h, h2]
  subst this
  exact ⟨rfl, by omega⟩

theorem flat_lt {P N k i : Nat} (hk : k < N) (hi : i < P) : k * P + i < N * P := by
  have : (k + 1) * P ≤ N * P := Nat.mul_le_mul_right P hk
  rw [Nat.add_mul] at this
  omega

theorem row_set_same {P k i : Nat} {data : List Rat} {v : Rat} (hi : i < P) :
    row P (data.set (k * P + i) v) k = (row P data k).set i v := by
  apply List.ext_getElem?
  intro j
  by_cases hj : j < P
  · rw [row_get _ hj]
    simp only [List.getElem?_set]
    by_cases h : i = j
    · subst h
      simp only [if_true]
      have hl : (i < (row P data k).length) ↔ k * P + i < data.length := by
        simp [row]; omega
      simp only [hl]
    · rw [if_neg (by omega), if_neg h, row_get _ hj]
  · rw [row_get_ge _ (by omega)]
    symm
    apply List.getElem?_eq_none; simp [row]; omega

theorem row_set_other {P k i j : Nat} {data : List Rat} {v : Rat} (hi : i < P) (h : k ≠ j) :
    row P (data.set (k * P + i) v) j = row P data j := by
  apply List.ext_getElem?
  intro l
  by_cases hl : l < P
  · rw [row_get _ hl, row_get _ hl, List.getElem?_set_ne]
    intro he
    exact h (flat_inj hi hl he).1
  · rw [row_get_ge _ (by omega), row_get_ge _ (by omega)]

theorem bitsOf_length (w : List Nat) (k : Nat) : (bitsOf w k).length = w.length := by simp [bitsOf]

/-- The state represents the committed assignment `com` and the current assignment `cur` of `P`
elements to `N` sets. -/
structure Rep (N : Nat) (s : BitSetsState) (com cur : List Nat) : Prop where
  num : s.num = N
  len : s.data.length = N * s.primary
  prim : s.primary = cur.length
  primc : s.primary = com.length
  dlen : s.diffs.length = N
  lt : ∀ x ∈ cur, x < N
  ltc : ∀ x ∈ com, x < N
  rows : ∀ k < N, row s.primary s.data k = bitsOf cur k
  diffs : ∀ k < N, ∀ d, s.diffs[k]? = some d →
    Replays (bitsOf com k) d (bitsOf cur k) ∧ ∀ u ∈ d, u.placed = false ∧ u.removed = false

theorem Rep.get {N : Nat} {s : BitSetsState} {com cur} (h : Rep N s com cur) {k e x : Nat}
    (hk : k < N) (hx : cur[e]? = some x) :
    s.data[k * s.primary + e]? = some (if x = k then 1 else 0) := by
  have he : e < s.primary := by rw [h.prim]; exact (List.getElem?_eq_some_iff.1 hx).1
  rw [← row_get _ he, h.rows k hk]
  simp [bitsOf, hx]

theorem bitsOf_set (w : List Nat) (e x k : Nat) :
    bitsOf (w.set e x) k = (bitsOf w k).set e (if x = k then 1 else 0) := by
  simp [bitsOf, List.map_set]

/-- Undoing one set leaves the others alone. -/
theorem revertSet_row {P k : Nat} : ∀ (us : List (Update Rat)) (data : List Rat),
    (∀ u ∈ us, u.index < P) →
    (us.foldl (fun d u => d.set (k * P + u.index) (u.old.getD 0)) data).length = data.length ∧
    row P (us.foldl (fun d u => d.set (k * P + u.index) (u.old.getD 0)) data) k =
      us.foldl (fun l u => l.set u.index (u.old.getD 0)) (row P data k) ∧
    ∀ j, k ≠ j → row P (us.foldl (fun d u => d.set (k * P + u.index) (u.old.getD 0)) data) j =
      row P data j
  | [], data, _ => ⟨rfl, rfl, fun _ _ => rfl⟩
  | u :: us, data, h => by
    have hu := h u (by simp)
    obtain ⟨h1, h2, h3⟩ := revertSet_row (P := P) (k := k) us (data.set (k * P + u.index) (u.old.getD 0))
      (fun v hv => h v (by simp [hv]))
    refine ⟨by simpa using h1, ?_, ?_⟩
    · rw [List.foldl_cons, h2, row_set_same hu]; rfl
    · intro j hj
      rw [List.foldl_cons, h3 j hj, row_set_other hu hj]

theorem changes_index {d : List (Update Rat)} : ∀ {a b : List Rat}, Replays a d b →
    (∀ u ∈ d, u.placed = false ∧ u.removed = false) → ∀ u ∈ d, u.index < a.length := by
  induction d with
  | nil => simp
  | cons u us ih =>
    intro a b h hu v hv
    obtain ⟨m, h1, h2⟩ := replays_cons.1 h
    have hu' := hu u (by simp)
    rcases step_cases h1 with ⟨x, rfl, rfl⟩ | ⟨x, rfl, rfl⟩ | ⟨x, y, hx, hb, rfl⟩
    · simp at hu'
    · simp at hu'
    · rcases List.mem_cons.1 hv with rfl | hv
      · exact (List.getElem?_eq_some_iff.1 hx).1
      · have := ih h2 (fun w hw => hu w (by simp [hw])) v hv
        simpa using this

/-- All sets. -/
theorem revertAll_row {P N : Nat} {com cur : List Nat} (hP : P = com.length) :
    ∀ (ds : List (List (Update Rat))) (k : Nat) (data : List Rat), k + ds.length = N →
    (∀ j, j < k → row P data j = bitsOf com j) →
    (∀ j, k ≤ j → j < N → row P data j = bitsOf cur j) →
    (∀ j d, ds[j]? = some d → Replays (bitsOf com (k + j)) d (bitsOf cur (k + j)) ∧
      ∀ u ∈ d, u.placed = false ∧ u.removed = false) →
    ((ds.zipIdx k).foldl (fun d p => revertSet P d p.2 p.1) data).length = data.length ∧
    ∀ j < N, row P ((ds.zipIdx k).foldl (fun d p => revertSet P d p.2 p.1) data) j = bitsOf com j
  | [], k, data, hk, hlo, _, _ => by
    simp at hk; subst hk
    exact ⟨rfl, hlo⟩
  | d :: ds, k, data, hk, hlo, hhi, hd => by
    simp only [List.length_cons] at hk
    obtain ⟨hr, hc⟩ := hd 0 d (by simp)
    simp only [Nat.add_zero] at hr
    have hidx : ∀ u ∈ d.reverse, u.index < P := by
      intro u hu
      have := changes_index hr hc u (by simpa using hu)
      rw [bitsOf_length] at this; omega
    obtain ⟨h1, h2, h3⟩ := revertSet_row (P := P) (k := k) d.reverse data hidx
    have hk' : row P (revertSet P data k d) k = bitsOf com k := by
      unfold revertSet
      rw [h2, hhi k (by omega) (by omega)]
      exact CollState.undo_changes _ (by simpa using hr) (fun u hu => hc u (by simpa using hu))
    obtain ⟨h4, h5⟩ := revertAll_row (N := N) hP ds (k + 1) (revertSet P data k d) (by omega)
      (by
        intro j hj
        by_cases h : j = k
        · subst h; exact hk'
        · have : k ≠ j := fun h' => h h'.symm
          unfold revertSet; rw [h3 j this]; exact hlo j (by omega))
      (by
        intro j hj hj'
        unfold revertSet; rw [h3 j (by omega)]; exact hhi j (by omega) hj')
      (by
        intro j d' hd'
        have := hd (j + 1) d' (by simpa using hd')
        rw [show k + 1 + j = k + (j + 1) by omega]; exact this)
    refine ⟨?_, ?_⟩
    · rw [List.zipIdx_cons, List.foldl_cons, h4]; unfold revertSet; exact h1
    · intro j hj
      rw [List.zipIdx_cons, List.foldl_cons]; exact h5 j hj

theorem Rep.commit {N : Nat} {s : BitSetsState} {com cur} (h : Rep N s com cur) :
    Rep N s.commit cur cur := by
  refine ⟨h.num, h.len, h.prim, h.prim, by simp [BitSetsState.commit, h.dlen], h.lt, h.lt, h.rows, ?_⟩
  intro k hk d hd
  simp only [BitSetsState.commit, List.getElem?_map, Option.map_eq_some_iff] at hd
  obtain ⟨_, _, rfl⟩ := hd
  simp

theorem Rep.revert {N : Nat} {s : BitSetsState} {com cur} (h : Rep N s com cur) :
    Rep N s.revert com com := by
  obtain ⟨h1, h2⟩ := revertAll_row (N := N) (com := com) (cur := cur) h.primc s.diffs 0 s.data
    (by have := h.dlen; omega) (by simp) (fun j _ hj => h.rows j hj)
    (by
      intro j d hd
      have hj : j < N := by have := (List.getElem?_eq_some_iff.1 hd).1; have := h.dlen; omega
      simpa using h.diffs j hj d hd)
  refine ⟨h.num, by simp only [BitSetsState.revert]; rw [h1]; exact h.len, h.primc, h.primc,
    by simp [BitSetsState.revert, h.dlen], h.ltc, h.ltc, ?_, ?_⟩
  · intro k hk; exact h2 k hk
  · intro k hk d hd
    simp only [BitSetsState.revert, List.getElem?_map, Option.map_eq_some_iff] at hd
    obtain ⟨_, _, rfl⟩ := hd
    simp

theorem Rep.swap {N : Nat} {s : BitSetsState} {com cur} (h : Rep N s com cur) {f t e x : Nat}
    (hf : f < N) (ht : t < N) (hx : cur[e]? = some x) :
    ∃ s', s.swapBetween f t e = .ok s' ∧
      Rep N s' com (cur.set e (if x = f then t else if x = t then f else x)) := by
  have hec : e < cur.length := (List.getElem?_eq_some_iff.1 hx).1
  have hxe : cur[e] = x := (List.getElem?_eq_some_iff.1 hx).2
  have he : e < s.primary := by rw [h.prim]; exact hec
  have g1 := h.get hf hx
  have g2 := h.get ht hx
  have hxN : x < N := h.lt x (List.mem_of_getElem? hx)
  unfold swapBetween
  rw [g1, g2]
  by_cases hne : (if x = f then (1 : Rat) else 0) = if x = t then 1 else 0
  · refine ⟨s, by simp [hne], ?_⟩
    have : cur.set e (if x = f then t else if x = t then f else x) = cur := by
      have hxx : (if x = f then t else if x = t then f else x) = x := by
        by_cases h1 : x = f <;> by_cases h2 : x = t <;> simp_all
      rw [hxx, ← hxe]; simp
    rw [this]; exact h
  · have hft : f ≠ t := by rintro rfl; exact hne rfl
    have hdf : f < s.diffs.length := by rw [h.dlen]; exact hf
    have hdt : t < s.diffs.length := by rw [h.dlen]; exact ht
    set y := (if x = f then t else if x = t then f else x) with hy
    have hyf : (if y = f then (1 : Rat) else 0) = if x = t then 1 else 0 := by
      have := Ne.symm hft
      by_cases h1 : x = f <;> by_cases h2 : x = t <;> simp_all
    have hyt : (if y = t then (1 : Rat) else 0) = if x = f then 1 else 0 := by
      by_cases h1 : x = f <;> by_cases h2 : x = t <;> simp_all
    refine ⟨{ s with
      diffs := (s.diffs.set f (s.diffs[f] ++ [Update.change e (if x = f then 1 else 0) (if x = t then 1 else 0)])).set t
        (s.diffs[t] ++ [Update.change e (if x = t then 1 else 0) (if x = f then 1 else 0)])
      data := (s.data.set (f * s.primary + e) (if x = t then 1 else 0)).set (t * s.primary + e) (if x = f then 1 else 0) },
      ?_, ?_⟩
    · simp only [ne_eq, hne, not_false_eq_true, if_true, List.getElem?_eq_getElem hdf]
      rw [List.getElem?_set_ne hft, List.getElem?_eq_getElem hdt]
    · have hother : ∀ k, k ≠ f → k ≠ t → bitsOf (cur.set e y) k = bitsOf cur k := by
        intro k h1 h2
        rw [bitsOf_set]
        apply List.ext_getElem?
        intro i
        rw [List.getElem?_set]
        split
        · rename_i hi; subst hi
          simp only [bitsOf, List.length_map, hec, if_true, List.getElem?_map, hx, Option.map_some,
            Option.some.injEq]
          by_cases h3 : x = f <;> by_cases h4 : x = t <;> simp_all [Ne.symm]
        · rfl
      refine ⟨h.num, by simpa using h.len, by simpa using h.prim, h.primc, by simpa using h.dlen,
        ?_, h.ltc, ?_, ?_⟩
      · intro z hz
        rcases List.mem_or_eq_of_mem_set hz with hz | rfl
        · exact h.lt z hz
        · rw [hy]; split
          · exact ht
          · split
            · exact hf
            · exact hxN
      · intro k hk
        simp only
        by_cases hkt : k = t
        · subst hkt
          rw [row_set_same he, row_set_other he hft, h.rows k hk, bitsOf_set, hyt]
        · rw [row_set_other he (Ne.symm hkt)]
          by_cases hkf : k = f
          · subst hkf
            rw [row_set_same he, h.rows k hk, bitsOf_set, hyf]
          · rw [row_set_other he (Ne.symm hkf), h.rows k hk, hother k hkf hkt]
      · intro k hk d hd
        simp only at hd
        have hbit : ∀ k, (bitsOf cur k)[e]? = some (if x = k then 1 else 0) := by
          intro k; simp [bitsOf, hx]
        by_cases hkt : k = t
        · subst hkt
          rw [List.getElem?_set_self (by simpa using hdt)] at hd
          simp only [Option.some.injEq] at hd; subst hd
          obtain ⟨h1, h2⟩ := h.diffs k hk _ (List.getElem?_eq_getElem hdt)
          refine ⟨?_, ?_⟩
          · rw [bitsOf_set, hyt]; exact h1.snoc (step_change (hbit k))
          · intro u hu
            rcases List.mem_append.1 hu with hu | hu
            · exact h2 u hu
            · simp at hu; subst hu; simp
        · rw [List.getElem?_set_ne (Ne.symm hkt)] at hd
          by_cases hkf : k = f
          · subst hkf
            rw [List.getElem?_set_self hdf] at hd
            simp only [Option.some.injEq] at hd; subst hd
            obtain ⟨h1, h2⟩ := h.diffs k hk _ (List.getElem?_eq_getElem hdf)
            refine ⟨?_, ?_⟩
            · rw [bitsOf_set, hyf]; exact h1.snoc (step_change (hbit k))
            · intro u hu
              rcases List.mem_append.1 hu with hu | hu
              · exact h2 u hu
              · simp at hu; subst hu; simp
          · rw [List.getElem?_set_ne (Ne.symm hkf)] at hd
            rw [hother k hkf hkt]
            exact h.diffs k hk d hd

theorem Rep.mkDefault {P N : Nat} (hN : 0 < N) :
    ∃ s, BitSetsState.mkDefault P N = .ok s ∧
      Rep N s (List.replicate P 0) (List.replicate P 0) := by
  have hle : P ≤ P * N := Nat.le_mul_of_pos_right P hN
  refine ⟨⟨P, N, List.replicate P 1 ++ (List.replicate (P * N) (0 : Rat)).drop P,
    List.replicate N []⟩, by simp [BitSetsState.mkDefault, hle], rfl, ?_, by simp, by simp, by simp,
    ?_, ?_, ?_, ?_⟩
  · simp [Nat.mul_comm N P]; omega
  · intro x hx; simp at hx; omega
  · intro x hx; simp at hx; omega
  · intro k hk
    simp only
    apply List.ext_getElem?
    intro i
    by_cases hi : i < P
    · rw [row_get _ hi]
      have := flat_lt (N := N) hk hi
      rw [Nat.mul_comm N P] at this
      rcases Nat.eq_zero_or_pos k with rfl | hk0
      · simp [bitsOf, List.getElem?_append, hi]
      · have h2 : P ≤ k * P := Nat.le_mul_of_pos_left P hk0
        rw [List.getElem?_append_right (by simp; omega)]
        have hk1 : ¬ 0 = k := by omega
        simp [bitsOf, hi, hk1]
        rw [List.getElem?_replicate, if_pos (by omega)]
    · rw [row_get_ge _ (by omega)]
      symm; apply List.getElem?_eq_none; simp [bitsOf]; omega
  · intro k hk d hd
    simp [List.getElem?_replicate] at hd
    obtain ⟨_, rfl⟩ := hd
    simp

end BitSetsState
end Verif
