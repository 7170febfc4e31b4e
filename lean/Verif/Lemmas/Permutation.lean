import Verif.Model.Nodes.Permutation
import Verif.Lemmas.AdvancedParse
import Verif.Spec.Permute

set_option linter.unusedSimpArgs false
set_option linter.unusedVariables false

/-!
# Permutations of a square matrix (lemmas)
-/

namespace Verif

theorem set_map_range {α : Type} (g : Nat → α) (m i : Nat) (v : α) :
    ((List.range m).map g).set i v = (List.range m).map fun t => if t = i then v else g t := by
  apply List.ext_getElem?
  intro t
  rw [List.getElem?_set]
  by_cases ht : t < m
  · by_cases hi : i = t
    · subst hi; simp [ht]
    · simp [ht, hi, List.getElem?_range, Ne.symm hi]
  · by_cases hi : i = t
    · subst hi; simp [ht]
    · simp [ht, hi]

/-- The state shows the elements at the positions `g`. -/
structure PermGrid (x : List Rat) (m : Nat) (s : PermState) (g : Nat → Int) : Prop where
  offsets : s.offsets = (List.range m).map g
  data : s.data = (List.range m).map fun t => x.getD (g t).toNat 0

/-- What happened since the last commit, when the state had positions `O` and elements `D`. -/
structure PermTrace (s : PermState) (O : List Int) (D : List Rat) : Prop where
  replays : Replays D s.diff s.data
  changes : ∀ u ∈ s.diff, u.isChange = true
  len : s.diff.length = s.oldOffsets.length
  undo : ∀ d' o', (s.diff.reverse.zip s.oldOffsets.reverse).foldlM PermState.undo ⟨s.offsets, s.data, d', o'⟩ = .ok ⟨O, D, d', o'⟩

variable {x : List Rat} {m n : Nat} {s : PermState} {g : Nat → Int} {O : List Int} {D : List Rat}

theorem toSS_int (v : Int) : toSS (v : Rat) = v := by simp [toSS]

theorem cell_spec {i : Nat} {δ : Int} (hg : PermGrid x m s g) (ht : PermTrace s O D) (hi : i < m)
    (hp : 0 ≤ g i + δ ∧ (g i + δ).toNat < x.length) :
    ∃ s', PermState.cell x (δ : Rat) s i = .ok s' ∧ PermGrid x m s' (fun t => if t = i then g i + δ else g t) ∧ PermTrace s' O D := by
  have ho : s.offsets[i]? = some (g i) := by rw [hg.offsets]; simp [hi]
  have hv : s.data[i]? = some (x.getD (g i).toNat 0) := by rw [hg.data]; simp [hi]
  have e : toSS ((g i : Rat) + (δ : Rat)) = g i + δ := by
    rw [← Int.cast_add]; exact toSS_int _
  refine ⟨⟨s.offsets.set i (g i + δ), s.data.set i (x.getD (g i + δ).toNat 0),
    s.diff ++ [Update.change i (x.getD (g i).toNat 0) (x.getD (g i + δ).toNat 0)], s.oldOffsets ++ [g i]⟩, ?_, ⟨?_, ?_⟩, ?_⟩
  · unfold PermState.cell
    rw [ho, hv]
    simp only [e]
    rw [guardUB_true hp]
    rfl
  · simp only [hg.offsets, set_map_range]
  · simp only [hg.data, set_map_range]
    apply List.map_congr_left
    intro t _
    by_cases h : t = i <;> simp [h]
  · refine ⟨ht.replays.snoc (step_change hv), ?_, by simp [ht.len], ?_⟩
    · intro u hu
      rw [List.mem_append, List.mem_singleton] at hu
      rcases hu with hu | rfl
      · exact ht.changes u hu
      · rfl
    · intro d' o'
      have hl : i < s.offsets.length := by rw [hg.offsets]; simpa using hi
      have hl' : i < s.data.length := by rw [hg.data]; simpa using hi
      have h1 : (s.offsets.set i (g i + δ)).set i (g i) = s.offsets := by
        rw [List.set_set]
        apply List.ext_getElem?
        intro t
        rw [List.getElem?_set]
        by_cases h : i = t
        · subst h; rw [if_pos rfl, if_pos hl]; exact ho.symm
        · simp [h]
      have h2 : (s.data.set i (x.getD (g i + δ).toNat 0)).set i (x.getD (g i).toNat 0) = s.data := by
        rw [List.set_set]
        apply List.ext_getElem?
        intro t
        rw [List.getElem?_set]
        by_cases h : i = t
        · subst h; rw [if_pos rfl, if_pos hl']; exact hv.symm
        · simp [h]
      simp only [List.reverse_append, List.reverse_singleton, List.singleton_append, List.zip_cons_cons, List.foldlM_cons]
      have hstep : PermState.undo ⟨s.offsets.set i (g i + δ), s.data.set i (x.getD (g i + δ).toNat 0), d', o'⟩
          (Update.change i (x.getD (g i).toNat 0) (x.getD (g i + δ).toNat 0), g i) = .ok ⟨s.offsets, s.data, d', o'⟩ := by
        unfold PermState.undo
        rw [guardUB_true (by simp [hl, hl'])]
        simp only [Res.ok_bind, change_index, change_old, Option.getD_some, h1, h2]
      rw [hstep]
      exact ht.undo d' o'

theorem cells_spec {δ : Int} : ∀ (is : List Nat) {s : PermState} {g : Nat → Int}, PermGrid x m s g → PermTrace s O D → is.Nodup →
    (∀ i ∈ is, i < m) → (∀ i ∈ is, 0 ≤ g i + δ ∧ (g i + δ).toNat < x.length) →
    ∃ s', is.foldlM (PermState.cell x (δ : Rat)) s = .ok s' ∧ PermGrid x m s' (fun t => if t ∈ is then g t + δ else g t) ∧
      PermTrace s' O D
  | [], s, g, hg, ht, _, _, _ => ⟨s, rfl, by simpa using hg, ht⟩
  | i :: is, s, g, hg, ht, hn, hm, hr => by
    obtain ⟨s1, e1, g1, t1⟩ := cell_spec hg ht (hm i (by simp)) (hr i (by simp))
    obtain ⟨hni, hn'⟩ := List.nodup_cons.1 hn
    obtain ⟨s2, e2, g2, t2⟩ := cells_spec is g1 t1 hn' (fun j hj => hm j (by simp [hj])) (by
      intro j hj
      have hne : j ≠ i := by rintro rfl; exact hni hj
      simp only [if_neg hne]
      exact hr j (by simp [hj]))
    refine ⟨s2, by rw [List.foldlM_cons, e1]; exact e2, ?_, t2⟩
    have : (fun t => if t ∈ is then (if t = i then g i + δ else g t) + δ else if t = i then g i + δ else g t) =
        fun t => if t ∈ i :: is then g t + δ else g t := by
      funext t
      by_cases h : t = i
      · subst h; simp [hni]
      · simp [h]
    rw [← this]
    exact g2

/-- The `i`-th entry of an order. -/
def ordAt (a : List Rat) (i : Nat) : Int := toSS (a.getD i 0)

theorem IsOrder.at {a : List Rat} (h : IsOrder n a) {i : Nat} (hi : i < n) : 0 ≤ ordAt a i ∧ ordAt a i < n := by
  have hl : i < a.length := by rw [h.1]; exact hi
  have e : a.getD i 0 = a[i] := by rw [List.getD_eq_getElem?_getD, List.getElem?_eq_getElem hl]; rfl
  obtain ⟨h1, h2, h3⟩ := h.2 a[i] (List.getElem_mem _)
  unfold ordAt
  rw [e, (toSS_den h1).1]
  rw [← (toSS_den h1).2] at h2 h3
  exact ⟨by exact_mod_cast h2, by exact_mod_cast h3⟩

/-- The positions when the rows are in order `a` and the columns in order `b`. -/
def permPos (n : Nat) (a b : List Rat) (t : Nat) : Int := ordAt a (t / n) * n + ordAt b (t % n)

theorem permPos_range {a b : List Rat} (ha : IsOrder n a) (hb : IsOrder n b) {t : Nat} (ht : t < n * n) :
    0 ≤ permPos n a b t ∧ permPos n a b t < n * n := by
  have hn : 0 < n := by
    rcases Nat.eq_zero_or_pos n with h | h
    · subst h; simp at ht
    · exact h
  obtain ⟨h1, h2⟩ := ha.at (Nat.div_lt_of_lt_mul ht)
  obtain ⟨h3, h4⟩ := hb.at (Nat.mod_lt t hn)
  unfold permPos
  constructor
  · have := mul_nonneg h1 (Int.natCast_nonneg n); omega
  · have : ordAt a (t / n) * n ≤ (n - 1) * n := by
      apply mul_le_mul_of_nonneg_right
      · omega
      · omega
    have e : ((n : Int) - 1) * n = n * n - n := by ring
    omega

theorem change_order {a a' : List Rat} {u : Update Rat} (ha : IsOrder n a) (hs : u.step a = some a') (hc : u.isChange = true)
    (hv : ∀ v ∈ u.value, v.den = 1 ∧ 0 ≤ v ∧ v < n) :
    ∃ old neo, u = Update.change u.index old neo ∧ u.index < n ∧ IsOrder n a' ∧
      (∀ st : Int, ∃ δ : Int, (st : Rat) * (neo - old) = (δ : Rat) ∧ δ = st * (ordAt a' u.index - ordAt a u.index)) ∧
      ∀ i, i ≠ u.index → ordAt a' i = ordAt a i := by
  rcases step_cases hs with ⟨v, rfl, _⟩ | ⟨v, _, rfl⟩ | ⟨old, neo, h1, h2, h3⟩
  · simp [Update.isChange] at hc
  · simp [Update.isChange] at hc
  have hlt := (List.getElem?_eq_some_iff.1 h1).1
  have hneo := hv neo (by rw [h2]; rfl)
  have hold : old.den = 1 ∧ 0 ≤ old ∧ old < n := ha.2 old (List.mem_of_getElem? h1)
  refine ⟨old, neo, h2, by rw [← ha.1]; exact hlt, ⟨by rw [h3, List.length_set]; exact ha.1, ?_⟩, ?_, ?_⟩
  · intro v hv'
    rw [h3] at hv'
    rcases List.mem_or_eq_of_mem_set hv' with hv' | rfl
    · exact ha.2 v hv'
    · exact hneo
  · intro st
    refine ⟨st * (neo.num - old.num), ?_, ?_⟩
    · push_cast
      rw [(toSS_den hneo.1).2, (toSS_den hold.1).2]
    · have e1 : ordAt a' u.index = neo.num := by
        unfold ordAt
        rw [h3, List.getD_eq_getElem?_getD, List.getElem?_set_self hlt]
        exact (toSS_den hneo.1).1
      have e2 : ordAt a u.index = old.num := by
        unfold ordAt
        rw [List.getD_eq_getElem?_getD, h1]
        exact (toSS_den hold.1).1
      rw [e1, e2]
  · intro i hi
    unfold ordAt
    rw [h3, List.getD_eq_getElem?_getD, List.getElem?_set_ne (Ne.symm hi), List.getD_eq_getElem?_getD]

theorem PermGrid.congr {g' : Nat → Int} (h : PermGrid x m s g) (he : ∀ t, t < m → g t = g' t) : PermGrid x m s g' := by
  refine ⟨?_, ?_⟩
  · rw [h.offsets]; exact List.map_congr_left fun t ht => he t (List.mem_range.1 ht)
  · rw [h.data]; exact List.map_congr_left fun t ht => by rw [he t (List.mem_range.1 ht)]

/-- The rows. -/
theorem rows_spec {b : List Rat} (hx : x.length = n * n) (hb : IsOrder n b) :
    ∀ (d : List (Update Rat)) {s : PermState} {a a' : List Rat}, IsOrder n a → Replays a d a' → (∀ u ∈ d, u.isChange = true) →
      (∀ u ∈ d, ∀ v ∈ u.value, v.den = 1 ∧ 0 ≤ v ∧ v < n) → PermGrid x (n * n) s (permPos n a b) → PermTrace s O D →
      ∃ s', d.foldlM (PermState.update x n n 1 n) s = .ok s' ∧ PermGrid x (n * n) s' (permPos n a' b) ∧ PermTrace s' O D
  | [], s, a, a', ha, hr, _, _, hg, ht => by
    rw [replays_nil] at hr; subst hr; exact ⟨s, rfl, hg, ht⟩
  | u :: d, s, a, a', ha, hr, hc, hv, hg, ht => by
    obtain ⟨a1, h1, h2⟩ := replays_cons.1 hr
    obtain ⟨old, neo, hu, hi, ha1, hδ, hoth⟩ := change_order ha h1 (hc u (by simp)) (hv u (by simp))
    obtain ⟨δ, e1, e2⟩ := hδ n
    have hn : 0 < n := by omega
    have hmem : ∀ t, t < n * n → (t ∈ (List.range n).map (fun k => u.index * n + k * 1) ↔ t / n = u.index) := by
      intro t ht
      simp only [List.mem_map, List.mem_range]
      constructor
      · rintro ⟨k, hk, rfl⟩
        rw [mul_one, mul_comm, Nat.mul_add_div hn, Nat.div_eq_of_lt hk, add_zero]
      · intro h
        refine ⟨t % n, Nat.mod_lt _ hn, ?_⟩
        rw [← h, mul_one, mul_comm]
        exact Nat.div_add_mod t n
    have hlt : ∀ i ∈ (List.range n).map (fun k => u.index * n + k * 1), i < n * n := by
      intro i hi'
      simp only [List.mem_map, List.mem_range] at hi'
      obtain ⟨k, hk, rfl⟩ := hi'
      have : (u.index + 1) * n ≤ n * n := Nat.mul_le_mul_right _ hi
      rw [add_mul] at this
      omega
    have hnew : ∀ t, t < n * n → (if t ∈ (List.range n).map (fun k => u.index * n + k * 1) then permPos n a b t + δ
        else permPos n a b t) = permPos n a1 b t := by
      intro t ht
      by_cases h : t / n = u.index
      · rw [if_pos ((hmem t ht).2 h)]
        unfold permPos
        rw [e2, h]; ring
      · rw [if_neg (fun hh => h ((hmem t ht).1 hh))]
        unfold permPos
        rw [hoth _ h]
    obtain ⟨s1, f1, g1, t1⟩ := cells_spec (δ := δ) ((List.range n).map (fun k => u.index * n + k * 1)) hg ht (by
        refine List.Nodup.map ?_ List.nodup_range
        intro k k' h
        simpa using h) hlt (by
        intro i hi'
        have := hnew i (hlt i hi')
        rw [if_pos hi'] at this
        rw [this]
        have := permPos_range ha1 hb (hlt i hi')
        omega)
    have hstep : PermState.update x n n 1 n s u = .ok s1 := by
      unfold PermState.update
      rw [hu]
      simp only [change_old, change_value, change_index]
      rw [List.foldlM_map] at f1
      rw [← f1]
      have : ((n : Int) : Rat) * (neo - old) = (δ : Rat) := e1
      rw [this]
    obtain ⟨s2, f2, g2, t2⟩ := rows_spec hx hb d ha1 h2 (fun v hv' => hc v (by simp [hv'])) (fun v hv' => hv v (by simp [hv']))
      (g1.congr hnew) t1
    exact ⟨s2, by rw [List.foldlM_cons, hstep]; exact f2, g2, t2⟩

/-- The columns. -/
theorem columns_spec {b : List Rat} (hx : x.length = n * n) (hb : IsOrder n b) :
    ∀ (d : List (Update Rat)) {s : PermState} {a a' : List Rat}, IsOrder n a → Replays a d a' → (∀ u ∈ d, u.isChange = true) →
      (∀ u ∈ d, ∀ v ∈ u.value, v.den = 1 ∧ 0 ≤ v ∧ v < n) → PermGrid x (n * n) s (permPos n b a) → PermTrace s O D →
      ∃ s', d.foldlM (PermState.update x n 1 n 1) s = .ok s' ∧ PermGrid x (n * n) s' (permPos n b a') ∧ PermTrace s' O D
  | [], s, a, a', ha, hr, _, _, hg, ht => by
    rw [replays_nil] at hr; subst hr; exact ⟨s, rfl, hg, ht⟩
  | u :: d, s, a, a', ha, hr, hc, hv, hg, ht => by
    obtain ⟨a1, h1, h2⟩ := replays_cons.1 hr
    obtain ⟨old, neo, hu, hi, ha1, hδ, hoth⟩ := change_order ha h1 (hc u (by simp)) (hv u (by simp))
    obtain ⟨δ, e1, e2⟩ := hδ 1
    have hn : 0 < n := by omega
    have hmem : ∀ t, t < n * n → (t ∈ (List.range n).map (fun k => u.index * 1 + k * n) ↔ t % n = u.index) := by
      intro t ht
      simp only [List.mem_map, List.mem_range]
      constructor
      · rintro ⟨k, hk, rfl⟩
        rw [mul_one, Nat.add_mul_mod_self_right, Nat.mod_eq_of_lt hi]
      · intro h
        refine ⟨t / n, Nat.div_lt_of_lt_mul ht, ?_⟩
        rw [← h, mul_one, mul_comm]
        exact Nat.mod_add_div t n
    have hlt : ∀ i ∈ (List.range n).map (fun k => u.index * 1 + k * n), i < n * n := by
      intro i hi'
      simp only [List.mem_map, List.mem_range] at hi'
      obtain ⟨k, hk, rfl⟩ := hi'
      have : (k + 1) * n ≤ n * n := Nat.mul_le_mul_right _ hk
      rw [add_mul] at this
      omega
    have hnew : ∀ t, t < n * n → (if t ∈ (List.range n).map (fun k => u.index * 1 + k * n) then permPos n b a t + δ
        else permPos n b a t) = permPos n b a1 t := by
      intro t ht
      by_cases h : t % n = u.index
      · rw [if_pos ((hmem t ht).2 h)]
        unfold permPos
        rw [e2, h]; ring
      · rw [if_neg (fun hh => h ((hmem t ht).1 hh))]
        unfold permPos
        rw [hoth _ h]
    obtain ⟨s1, f1, g1, t1⟩ := cells_spec (δ := δ) ((List.range n).map (fun k => u.index * 1 + k * n)) hg ht (by
        refine List.Nodup.map ?_ List.nodup_range
        intro k k' h
        have h' : k * n = k' * n := by simpa using h
        exact Nat.eq_of_mul_eq_mul_right hn h') hlt (by
        intro i hi'
        have := hnew i (hlt i hi')
        rw [if_pos hi'] at this
        rw [this]
        have := permPos_range hb ha1 (hlt i hi')
        omega)
    have hstep : PermState.update x n 1 n 1 s u = .ok s1 := by
      unfold PermState.update
      rw [hu]
      simp only [change_old, change_value, change_index]
      rw [List.foldlM_map] at f1
      rw [← f1]
      have : ((1 : Int) : Rat) * (neo - old) = (δ : Rat) := e1
      rw [this]
    obtain ⟨s2, f2, g2, t2⟩ := columns_spec hx hb d ha1 h2 (fun v hv' => hc v (by simp [hv'])) (fun v hv' => hv v (by simp [hv']))
      (g1.congr hnew) t1
    exact ⟨s2, by rw [List.foldlM_cons, hstep]; exact f2, g2, t2⟩

end Verif
