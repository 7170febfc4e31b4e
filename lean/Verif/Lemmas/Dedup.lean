import Verif.Model.Dedup
import Verif.Lemmas.Replay

set_option linter.unusedSectionVars false
set_option linter.unusedSimpArgs false

/-! Helper lemmas for `deduplicate_diff`. -/

namespace Verif

variable {α : Type _} [DecidableEq α]

/-- Updates of one cell in order: each starts from the value the previous one left. -/
def Chain (a : Option α) : List (Update α) → Option α → Prop
  | [], b => a = b
  | u :: us, b => u.old = a ∧ Chain u.value us b

theorem step_cell {l l' : List α} {u : Update α} (h : u.step l = some l') :
    u.old = l[u.index]? ∧ u.value = l'[u.index]? ∧ ∀ i, i ≠ u.index → l[i]? = l'[i]? := by
  rcases step_cases h with ⟨v, rfl, rfl⟩ | ⟨v, rfl, rfl⟩ | ⟨a, b, ha, hu, rfl⟩
  · refine ⟨by simp, by simp, ?_⟩
    intro i hi
    simp only [placement_index] at hi
    rw [List.getElem?_append]
    split
    · rfl
    · rw [List.getElem?_eq_none (by omega), List.getElem?_eq_none (by simp; omega)]
  · refine ⟨by simp, by simp, ?_⟩
    intro i hi
    simp only [removal_index] at hi
    rw [List.getElem?_append]
    split
    · rfl
    · rw [List.getElem?_eq_none (by simp; omega), List.getElem?_eq_none (by omega)]
  · have hlt := (List.getElem?_eq_some_iff.1 ha).1
    refine ⟨by rw [ha, hu], by rw [List.getElem?_set_self hlt, hu], ?_⟩
    intro i hi
    rw [List.getElem?_set_ne (Ne.symm hi)]

theorem replays_chain (i : Nat) : ∀ {us : List (Update α)} {l l' : List α}, Replays l us l' →
    Chain l[i]? (us.filter (fun u => u.index = i)) l'[i]?
  | [], l, l', h => by simp at h; subst h; rfl
  | u :: us, l, l', h => by
    obtain ⟨m, h1, h2⟩ := replays_cons.1 h
    obtain ⟨ho, hv, hne⟩ := step_cell h1
    have ih := replays_chain i h2
    by_cases hi : u.index = i
    · subst hi
      simp only [List.filter_cons, decide_true, if_true]
      exact ⟨ho, hv ▸ ih⟩
    · simp only [List.filter_cons, hi, decide_false, Bool.false_eq_true, if_false]
      rw [hne i (Ne.symm hi)]; exact ih

theorem insertByIndex_filter (u : Update α) (i : Nat) : ∀ l : List (Update α),
    (insertByIndex u l).filter (fun u => u.index = i) = (u :: l).filter (fun u => u.index = i)
  | [] => rfl
  | v :: vs => by
    unfold insertByIndex
    split
    · rfl
    · rename_i h
      simp only [List.filter_cons] at *
      rw [insertByIndex_filter u i vs]
      simp only [List.filter_cons]
      by_cases h1 : v.index = i <;> by_cases h2 : u.index = i <;> simp [h1, h2]
      omega

theorem stableSort_filter (i : Nat) : ∀ l : List (Update α),
    (stableSort l).filter (fun u => u.index = i) = l.filter (fun u => u.index = i)
  | [] => rfl
  | v :: vs => by
    have ih := stableSort_filter i vs
    simp only [stableSort, List.foldr_cons] at *
    rw [insertByIndex_filter, List.filter_cons, ih, List.filter_cons]

theorem insertByIndex_mem (u v : Update α) : ∀ l : List (Update α),
    v ∈ insertByIndex u l ↔ v = u ∨ v ∈ l
  | [] => by simp [insertByIndex]
  | w :: ws => by
    unfold insertByIndex
    split
    · simp
    · simp [insertByIndex_mem u v ws]; grind

theorem insertByIndex_sorted (u : Update α) : ∀ {l : List (Update α)},
    l.Pairwise (fun a b => a.index ≤ b.index) →
    (insertByIndex u l).Pairwise (fun a b => a.index ≤ b.index)
  | [], _ => by simp [insertByIndex]
  | w :: ws, h => by
    rw [List.pairwise_cons] at h
    unfold insertByIndex
    split
    · rename_i hle
      refine List.pairwise_cons.2 ⟨?_, List.pairwise_cons.2 h⟩
      intro b hb
      rcases List.mem_cons.1 hb with rfl | hb
      · exact hle
      · exact Nat.le_trans hle (h.1 b hb)
    · rename_i hle
      refine List.pairwise_cons.2 ⟨?_, insertByIndex_sorted u h.2⟩
      intro b hb
      rcases (insertByIndex_mem u b ws).1 hb with rfl | hb
      · omega
      · exact h.1 b hb

theorem stableSort_sorted : ∀ l : List (Update α),
    (stableSort l).Pairwise (fun a b => a.index ≤ b.index)
  | [] => by simp [stableSort]
  | v :: vs => insertByIndex_sorted v (stableSort_sorted vs)

theorem stableSort_mem (v : Update α) : ∀ l : List (Update α), v ∈ stableSort l ↔ v ∈ l
  | [] => by simp [stableSort]
  | w :: ws => by
    have ih := stableSort_mem v ws
    simp only [stableSort, List.foldr_cons] at *
    rw [insertByIndex_mem, ih]; simp

theorem getElem?_none_mono {l : List α} {i j : Nat} (h : l[i]? = none) (hij : i ≤ j) :
    l[j]? = none := by
  rw [List.getElem?_eq_none_iff] at *; omega

/-- Loop invariant: `done ++ [c]` are the kept entries, `rest` is still to come. -/
structure DedupInv (before after : List α) (done : List (Update α)) (c : Update α)
    (rest : List (Update α)) : Prop where
  incr : (done ++ [c]).Pairwise (fun u v => u.index < v.index)
  entries : ∀ u ∈ done, u.old = before[u.index]? ∧ u.value = after[u.index]? ∧
    ¬ (u.old = none ∧ u.value = none)
  cold : c.old = before[c.index]?
  cchain : Chain c.value (rest.filter (fun u => u.index = c.index)) after[c.index]?
  below : ∀ i, i < c.index → (∀ u ∈ done, u.index ≠ i) → before[i]? = after[i]?
  above : ∀ i, c.index < i → Chain before[i]? (rest.filter (fun u => u.index = i)) after[i]?
  sorted : rest.Pairwise (fun a b => a.index ≤ b.index)
  ge : ∀ u ∈ rest, c.index ≤ u.index

theorem null_iff (c : Update α) : c.null = true ↔ c.old = none ∧ c.value = none := by
  simp [Update.null]

theorem filter_index_nil {l : List (Update α)} {i : Nat} (h : ∀ u ∈ l, u.index ≠ i) :
    l.filter (fun u => u.index = i) = [] := by
  simp only [List.filter_eq_nil_iff, decide_eq_true_eq]; exact h

theorem identity_chain {d : Update α} {a b : Option α} {us : List (Update α)}
    (hid : d.identity = true) (h : Chain a (d :: us) b) : Chain a us b := by
  obtain ⟨i, o, v⟩ := d
  obtain ⟨h1, h2⟩ := h
  cases o <;> cases v <;> simp [Update.identity] at hid
  subst hid
  simp only at h1 h2
  exact h1 ▸ h2

theorem dedupLoop_spec (before after : List α) : ∀ (rest done : List (Update α)) (c : Update α)
    (r : List (Update α)), DedupInv before after done c rest →
    dedupLoop (done ++ [c]) rest = .ok r → NetEffect before r after
  | [], done, c, r, h, hr => by
    simp only [dedupLoop, dedupFinish, List.getLast?_append, List.getLast?_singleton,
      Option.some_or, List.dropLast_concat, Res.ok.injEq] at hr
    have hval : c.value = after[c.index]? := by simpa [Chain] using h.cchain
    by_cases hn : c.null = true
    · rw [if_pos hn] at hr
      subst hr
      obtain ⟨hn1, hn2⟩ := (null_iff c).1 hn
      refine ⟨(List.pairwise_append.1 h.incr).1, h.entries, ?_⟩
      intro i hi
      rcases Nat.lt_trichotomy i c.index with hlt | rfl | hgt
      · exact h.below i hlt hi
      · rw [← h.cold, ← hval, hn1, hn2]
      · simpa [Chain] using h.above i hgt
    · rw [if_neg hn] at hr
      subst hr
      refine ⟨h.incr, ?_, ?_⟩
      · intro u hu
        rcases List.mem_append.1 hu with hu | hu
        · exact h.entries u hu
        · rw [List.mem_singleton] at hu; subst hu
          exact ⟨h.cold, hval, fun hh => hn ((null_iff u).2 hh)⟩
      · intro i hi
        rcases Nat.lt_trichotomy i c.index with hlt | rfl | hgt
        · exact h.below i hlt (fun u hu => hi u (by simp [hu]))
        · exact absurd rfl (hi c (by simp))
        · simpa [Chain] using h.above i hgt
  | d :: ds, done, c, r, h, hr => by
    rw [dedupLoop] at hr
    simp only [List.getLast?_append, List.getLast?_singleton, Option.some_or,
      List.dropLast_concat] at hr
    have hsort := List.pairwise_cons.1 h.sorted
    by_cases heq : d.index = c.index
    · rw [if_pos heq] at hr
      refine dedupLoop_spec before after ds done { c with value := d.value } r ?_ hr
      have hch := h.cchain
      simp only [List.filter_cons, heq, decide_true, if_true] at hch
      refine ⟨?_, h.entries, h.cold, hch.2, h.below, ?_, hsort.2, ?_⟩
      · have := h.incr
        rw [List.pairwise_append] at this ⊢
        refine ⟨this.1, by simp, ?_⟩
        intro a ha b hb
        rw [List.mem_singleton] at hb; subst hb
        exact this.2.2 a ha c (by simp)
      · intro i hi
        have := h.above i hi
        have hne : d.index ≠ i := by simp at hi; omega
        simpa [List.filter_cons, hne] using this
      · intro u hu; exact h.ge u (by simp [hu])
    · rw [if_neg heq] at hr
      have hdc : c.index < d.index := by
        have := h.ge d (by simp); omega
      have hrest : ∀ u ∈ d :: ds, u.index ≠ c.index := by
        intro u hu
        rcases List.mem_cons.1 hu with rfl | hu
        · omega
        · have := hsort.1 u hu; omega
      have hval : c.value = after[c.index]? := by
        have := h.cchain
        rw [filter_index_nil hrest] at this
        exact this
      by_cases hn : c.null = true
      · rw [if_pos hn] at hr
        obtain ⟨hn1, hn2⟩ := (null_iff c).1 hn
        have hb : before[c.index]? = none := by rw [← h.cold, hn1]
        have ha : after[c.index]? = none := by rw [← hval, hn2]
        unfold dedupFinish at hr
        cases hl : done.getLast? with
        | none => rw [hl] at hr; simp at hr
        | some e =>
          rw [hl] at hr
          have hmem : e ∈ done := List.mem_of_getLast? hl
          have hen : ¬ e.null = true := by
            rw [null_iff]; exact (h.entries e hmem).2.2
          simp only [hen, if_false, Res.ok.injEq] at hr
          have hr : done = r := by simpa using hr
          subst hr
          refine ⟨(List.pairwise_append.1 h.incr).1, h.entries, ?_⟩
          intro i hi
          by_cases hlt : i < c.index
          · exact h.below i hlt hi
          · rw [getElem?_none_mono hb (by omega), getElem?_none_mono ha (by omega)]
      · rw [if_neg hn] at hr
        by_cases hid : d.identity = true
        · rw [if_pos hid] at hr
          refine dedupLoop_spec before after ds done c r ?_ hr
          refine ⟨h.incr, h.entries, h.cold, ?_, h.below, ?_, hsort.2, ?_⟩
          · rw [filter_index_nil (fun u hu => hrest u (by simp [hu]))]; exact hval
          · intro i hi
            have := h.above i hi
            by_cases hdi : d.index = i
            · simp only [List.filter_cons, hdi, decide_true, if_true] at this
              exact identity_chain hid this
            · simpa [List.filter_cons, hdi] using this
          · intro u hu; exact h.ge u (by simp [hu])
        · rw [if_neg hid] at hr
          refine dedupLoop_spec before after ds (done ++ [c]) d r ?_ hr
          have hcd : ∀ u ∈ done, u.index < c.index := fun u hu =>
            (List.pairwise_append.1 h.incr).2.2 u hu c (by simp)
          have hd := h.above d.index hdc
          simp only [List.filter_cons, decide_true, if_true] at hd
          refine ⟨?_, ?_, hd.1, hd.2, ?_, ?_, hsort.2, hsort.1⟩
          · rw [List.pairwise_append]
            refine ⟨h.incr, by simp, ?_⟩
            intro a ha b hb
            rw [List.mem_singleton] at hb; subst hb
            rcases List.mem_append.1 ha with ha | ha
            · have := hcd a ha; omega
            · rw [List.mem_singleton] at ha; subst ha; exact hdc
          · intro u hu
            rcases List.mem_append.1 hu with hu | hu
            · exact h.entries u hu
            · rw [List.mem_singleton] at hu; subst hu
              exact ⟨h.cold, hval, fun hh => hn ((null_iff u).2 hh)⟩
          · intro i hi hu
            rcases Nat.lt_trichotomy i c.index with hlt | rfl | hgt
            · exact h.below i hlt (fun u hm => hu u (by simp [hm]))
            · exact absurd rfl (hu c (by simp))
            · have := h.above i hgt
              rw [filter_index_nil] at this
              · exact this
              · intro u hm
                rcases List.mem_cons.1 hm with rfl | hm
                · omega
                · have := hsort.1 u hm; omega
          · intro i hi
            have := h.above i (by omega)
            have hne : d.index ≠ i := by omega
            simpa [List.filter_cons, hne] using this

/-- Skipping leading no-ops keeps the per-cell chains. -/
theorem dropWhile_chain (before after : List α) : ∀ (l : List (Update α)),
    (∀ i, Chain before[i]? (l.filter (fun u => u.index = i)) after[i]?) →
    ∀ i, Chain before[i]? ((l.dropWhile Update.identity).filter (fun u => u.index = i)) after[i]?
  | [], h => h
  | d :: ds, h => by
    rw [List.dropWhile_cons]
    split
    · rename_i hid
      refine dropWhile_chain before after ds ?_
      intro i
      have := h i
      by_cases hdi : d.index = i
      · simp only [List.filter_cons, hdi, decide_true, if_true] at this
        exact identity_chain hid this
      · simpa [List.filter_cons, hdi] using this
    · exact h

end Verif

namespace Verif

variable {α : Type _} [DecidableEq α]

theorem dedupLoop_ub_iff (before after : List α) : ∀ (rest done : List (Update α)) (c : Update α),
    DedupInv before after done c rest →
    (dedupLoop (done ++ [c]) rest ≠ .throw) ∧
    (dedupLoop (done ++ [c]) rest = .ub ↔ done = [] ∧ before[c.index]? = none ∧
      after[c.index]? = none ∧ ∃ d ∈ rest, c.index < d.index)
  | [], done, c, h => by
    simp [dedupLoop, dedupFinish]
  | d :: ds, done, c, h => by
    rw [dedupLoop]
    simp only [List.getLast?_append, List.getLast?_singleton, Option.some_or,
      List.dropLast_concat]
    have hsort := List.pairwise_cons.1 h.sorted
    by_cases heq : d.index = c.index
    · rw [if_pos heq]
      have hch := h.cchain
      simp only [List.filter_cons, heq, decide_true, if_true] at hch
      have hinv : DedupInv before after done { c with value := d.value } ds := by
        refine ⟨?_, h.entries, h.cold, hch.2, h.below, ?_, hsort.2, ?_⟩
        · have := h.incr
          rw [List.pairwise_append] at this ⊢
          refine ⟨this.1, by simp, ?_⟩
          intro a ha b hb
          rw [List.mem_singleton] at hb; subst hb
          exact this.2.2 a ha c (by simp)
        · intro i hi
          have := h.above i hi
          have hne : d.index ≠ i := by simp at hi; omega
          simpa [List.filter_cons, hne] using this
        · intro u hu; exact h.ge u (by simp [hu])
      have ih := dedupLoop_ub_iff before after ds done _ hinv
      refine ⟨ih.1, ih.2.trans ?_⟩
      simp [heq]
    · rw [if_neg heq]
      have hdc : c.index < d.index := by
        have := h.ge d (by simp); omega
      have hrest : ∀ u ∈ d :: ds, u.index ≠ c.index := by
        intro u hu
        rcases List.mem_cons.1 hu with rfl | hu
        · omega
        · have := hsort.1 u hu; omega
      have hval : c.value = after[c.index]? := by
        have := h.cchain
        rw [filter_index_nil hrest] at this
        exact this
      by_cases hn : c.null = true
      · rw [if_pos hn]
        obtain ⟨hn1, hn2⟩ := (null_iff c).1 hn
        have hb : before[c.index]? = none := by rw [← h.cold, hn1]
        have ha : after[c.index]? = none := by rw [← hval, hn2]
        rcases List.eq_nil_or_concat done with rfl | ⟨l, e, rfl⟩
        · simp [dedupFinish, hb, ha]
          left; simpa using hdc
        · simp [dedupFinish]
      · rw [if_neg hn]
        have hno : ¬ (before[c.index]? = none ∧ after[c.index]? = none) := by
          rw [← h.cold, ← hval]; exact fun hh => hn ((null_iff c).2 hh)
        by_cases hid : d.identity = true
        · rw [if_pos hid]
          have hinv : DedupInv before after done c ds := by
            refine ⟨h.incr, h.entries, h.cold, ?_, h.below, ?_, hsort.2, ?_⟩
            · rw [filter_index_nil (fun u hu => hrest u (by simp [hu]))]; exact hval
            · intro i hi
              have := h.above i hi
              by_cases hdi : d.index = i
              · simp only [List.filter_cons, hdi, decide_true, if_true] at this
                exact identity_chain hid this
              · simpa [List.filter_cons, hdi] using this
            · intro u hu; exact h.ge u (by simp [hu])
          have ih := dedupLoop_ub_iff before after ds done c hinv
          refine ⟨ih.1, ih.2.trans ?_⟩
          constructor
          · rintro ⟨_, h1, h2, _⟩; exact absurd ⟨h1, h2⟩ hno
          · rintro ⟨_, h1, h2, _⟩; exact absurd ⟨h1, h2⟩ hno
        · rw [if_neg hid]
          have hinv : DedupInv before after (done ++ [c]) d ds := by
            have hcd : ∀ u ∈ done, u.index < c.index := fun u hu =>
              (List.pairwise_append.1 h.incr).2.2 u hu c (by simp)
            have hd := h.above d.index hdc
            simp only [List.filter_cons, decide_true, if_true] at hd
            refine ⟨?_, ?_, hd.1, hd.2, ?_, ?_, hsort.2, hsort.1⟩
            · rw [List.pairwise_append]
              refine ⟨h.incr, by simp, ?_⟩
              intro a ha b hb
              rw [List.mem_singleton] at hb; subst hb
              rcases List.mem_append.1 ha with ha | ha
              · have := hcd a ha; omega
              · rw [List.mem_singleton] at ha; subst ha; exact hdc
            · intro u hu
              rcases List.mem_append.1 hu with hu | hu
              · exact h.entries u hu
              · rw [List.mem_singleton] at hu; subst hu
                exact ⟨h.cold, hval, fun hh => hn ((null_iff u).2 hh)⟩
            · intro i hi hu
              rcases Nat.lt_trichotomy i c.index with hlt | rfl | hgt
              · exact h.below i hlt (fun u hm => hu u (by simp [hm]))
              · exact absurd rfl (hu c (by simp))
              · have := h.above i hgt
                rw [filter_index_nil] at this
                · exact this
                · intro u hm
                  rcases List.mem_cons.1 hm with rfl | hm
                  · omega
                  · have := hsort.1 u hm; omega
            · intro i hi
              have := h.above i (by omega)
              have hne : d.index ≠ i := by omega
              simpa [List.filter_cons, hne] using this
          have ih := dedupLoop_ub_iff before after ds (done ++ [c]) d hinv
          refine ⟨ih.1, ih.2.trans ?_⟩
          constructor
          · rintro ⟨h0, _⟩; simp at h0
          · rintro ⟨_, h1, h2, _⟩; exact absurd ⟨h1, h2⟩ hno

/-- A legal script can only touch a fresh position after placing all fresh positions below it. -/
theorem placed_below : ∀ {us : List (Update α)} {l l' : List α} {u : Update α} {j : Nat},
    Replays l us l' → u ∈ us → l.length ≤ j → j ≤ u.index → ∃ v ∈ us, v.index = j ∧ v.old = none
  | [], _, _, _, _, _, hu, _, _ => by simp at hu
  | w :: ws, l, l', u, j, h, hu, hl, hj => by
    obtain ⟨m, h1, h2⟩ := replays_cons.1 h
    by_cases hm : m.length ≤ j
    · rcases List.mem_cons.1 hu with rfl | hu
      · rcases step_cases h1 with ⟨v, rfl, rfl⟩ | ⟨v, rfl, rfl⟩ | ⟨a, b, ha, hb, rfl⟩
        · simp at hm hj; omega
        · simp at hl hj; omega
        · have := (List.getElem?_eq_some_iff.1 ha).1; omega
      · obtain ⟨v, hv, hh⟩ := placed_below h2 hu hm hj
        exact ⟨v, by simp [hv], hh⟩
    · rcases step_cases h1 with ⟨v, rfl, rfl⟩ | ⟨v, rfl, rfl⟩ | ⟨a, b, ha, hb, rfl⟩
      · simp at hm
        exact ⟨_, by simp; left; rfl, by simp; omega, rfl⟩
      · simp at hl; omega
      · simp at hm; omega

theorem dropWhile_inv {before after : List α} {diff : List (Update α)}
    (h : Replays before diff after) {d : Update α} {ds : List (Update α)}
    (hd : (stableSort diff).dropWhile Update.identity = d :: ds) :
    DedupInv before after [] d ds := by
  have hch : ∀ i, Chain before[i]? ((d :: ds).filter (fun u => u.index = i)) after[i]? := by
    rw [← hd]
    apply dropWhile_chain
    intro i; rw [stableSort_filter]; exact replays_chain i h
  have hs : (d :: ds).Pairwise (fun a b => a.index ≤ b.index) := by
    rw [← hd]
    exact (stableSort_sorted diff).sublist (List.dropWhile_sublist _)
  rw [List.pairwise_cons] at hs
  have h0 := hch d.index
  simp only [List.filter_cons, decide_true, if_true] at h0
  refine ⟨by simp, by simp, h0.1, h0.2, ?_, ?_, hs.2, hs.1⟩
  · intro i hi _
    have := hch i
    rw [filter_index_nil] at this
    · exact this
    · intro u hu
      rcases List.mem_cons.1 hu with rfl | hu
      · omega
      · have := hs.1 u hu; omega
  · intro i hi
    have := hch i
    have hne : d.index ≠ i := by omega
    simpa [List.filter_cons, hne] using this

end Verif
