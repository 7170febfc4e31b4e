import Verif.Lemmas.Dedup
import Mathlib.Data.List.TakeWhile

/-!
# C04: `deduplicate_diff`
-/

set_option linter.unusedSimpArgs false

namespace Verif

variable {α : Type _} [DecidableEq α]

/-- **C04 (part).** For every legal edit script, if deduplication returns, then its result lists
exactly the net change of each position.  Missing for the full property: it does not always return,
see `C04_dedup_fails` and the exact condition `C04_dedup_ub_iff`. -/
theorem C04_dedup_partial {before after : List α} {diff r : List (Update α)}
    (h : Replays before diff after) (hr : deduplicateDiff diff = .ok r) :
    NetEffect before r after := by
  unfold deduplicateDiff at hr
  split at hr
  · rename_i he
    rw [List.isEmpty_iff] at he
    subst he
    simp only [Res.ok.injEq] at hr
    subst hr
    simp at h
    subst h
    exact ⟨by simp, by simp, by simp⟩
  · split at hr
    · rename_i he
      simp only [Res.ok.injEq] at hr
      subst hr
      refine ⟨by simp, by simp, ?_⟩
      intro i _
      have := dropWhile_chain before after (stableSort diff) (by
        intro i; rw [stableSort_filter]; exact replays_chain i h) i
      rw [he] at this
      exact this
    · rename_i d ds he
      exact dedupLoop_spec before after ds [] d r (dropWhile_inv h he) hr

example : Replays [1, 2] [Update.change 0 1 5, .placement 2 9, .change 0 5 6, .removal 2 9,
      .removal 1 2] [6] ∧
    deduplicateDiff [Update.change 0 1 5, .placement 2 9, .change 0 5 6, .removal 2 9, .removal 1 2]
      = .ok [Update.change 0 1 6, .removal 1 2] := by decide

/-- **C04, exact domain.** For a legal script, deduplication reads outside the list exactly when at
least two positions beyond both the old and the new length were placed and removed again and no
surviving position has a proper change; it never throws. -/
theorem C04_dedup_ub_iff {before after : List α} {diff : List (Update α)}
    (h : Replays before diff after) :
    deduplicateDiff diff ≠ .throw ∧
    (deduplicateDiff diff = .ub ↔
      (∀ u ∈ diff, u.index < max before.length after.length → u.old = u.value) ∧
      ∃ u ∈ diff, max before.length after.length < u.index) := by
  have hidv : ∀ u ∈ diff, u.identity = true → u.old = u.value := by
    intro u _ hu
    obtain ⟨i, o, v⟩ := u
    cases o <;> cases v <;> simp [Update.identity] at hu ⊢
    exact hu
  have hvid : ∀ u ∈ diff, u.index < max before.length after.length → u.old = u.value →
      u.identity = true := by
    intro u hu _ hv
    obtain ⟨i, o, v⟩ := u
    simp only at hv
    subst hv
    cases o with
    | some o => simp [Update.identity]
    | none =>
      -- a null update is never legal
      exfalso
      have : ∀ {us : List (Update α)} {l l' : List α}, Replays l us l' → ∀ i,
          (⟨i, none, none⟩ : Update α) ∉ us := by
        intro us
        induction us with
        | nil => intros; simp
        | cons w ws ih =>
          intro l l' hr i hm
          obtain ⟨m, h1, h2⟩ := replays_cons.1 hr
          rcases List.mem_cons.1 hm with rfl | hm
          · simp [Update.step] at h1
          · exact ih h2 i hm
      exact this h i hu
  unfold deduplicateDiff
  split
  · rename_i he
    rw [List.isEmpty_iff] at he
    subst he; simp
  · split
    · rename_i he
      simp only [ne_eq, reduceCtorEq, not_false_eq_true, false_iff, not_and, not_exists, true_and]
      intro hall u hu hlt
      obtain ⟨v, hv, hvi, hvo⟩ := placed_below h hu (j := max before.length after.length)
        (by omega) (by omega)
      have hvid : v.identity = true := by
        have hm : v ∈ stableSort diff := (stableSort_mem v diff).2 hv
        exact (List.dropWhile_eq_nil_iff.1 he) v hm
      obtain ⟨i, o, w⟩ := v
      simp only at hvo
      subst hvo
      simp [Update.identity] at hvid
    · rename_i d ds he
      have hinv := dropWhile_inv h he
      have hl := dedupLoop_ub_iff before after ds [] d hinv
      simp only [List.nil_append, true_and] at hl
      refine ⟨hl.1, hl.2.trans ?_⟩
      have hdmem : d ∈ diff := (stableSort_mem d diff).1 ((List.dropWhile_sublist
        (p := Update.identity)).subset (by rw [he]; simp))
      have hdid : ¬ d.identity = true := by
        have := List.head?_dropWhile_not Update.identity (stableSort diff)
        rw [he] at this; simpa using this
      have hsub : ∀ u ∈ ds, u ∈ diff := fun u hu => (stableSort_mem u diff).1
        ((List.dropWhile_sublist (p := Update.identity)).subset (by rw [he]; simp [hu]))
      -- every proper change is among `d :: ds`
      have hkeep : ∀ u ∈ diff, ¬ u.identity = true → u ∈ d :: ds := by
        intro u hu hid
        have hm : u ∈ stableSort diff := (stableSort_mem u diff).2 hu
        rw [← List.takeWhile_append_dropWhile (p := Update.identity) (l := stableSort diff),
          List.mem_append, he] at hm
        rcases hm with hm | hm
        · exact absurd (List.mem_takeWhile_imp hm) hid
        · exact hm
      constructor
      · rintro ⟨hb, ha, u, hu, hlt⟩
        rw [List.getElem?_eq_none_iff] at hb ha
        refine ⟨?_, u, hsub u hu, by omega⟩
        intro v hv hvlt
        by_cases hid : v.identity = true
        · exact hidv v hv hid
        · rcases List.mem_cons.1 (hkeep v hv hid) with rfl | hm
          · omega
          · have := hinv.ge v hm; omega
      · rintro ⟨hall, u, hu, hlt⟩
        have hdge : max before.length after.length ≤ d.index := by
          apply Nat.le_of_not_lt
          intro hlt'
          exact hdid (hvid d hdmem hlt' (hall d hdmem hlt'))
        have hdle : d.index ≤ max before.length after.length := by
          obtain ⟨v, hv, hvi, hvo⟩ := placed_below h hu (j := max before.length after.length)
            (by omega) (by omega)
          have hnid : ¬ v.identity = true := by
            obtain ⟨i, o, w⟩ := v
            simp only at hvo
            subst hvo
            simp [Update.identity]
          rcases List.mem_cons.1 (hkeep v hv hnid) with rfl | hm
          · omega
          · have := hinv.ge v hm; omega
        refine ⟨List.getElem?_eq_none (by omega), List.getElem?_eq_none (by omega), ?_⟩
        obtain ⟨v, hv, hvi, hvo⟩ := placed_below h hu (j := u.index) (by omega) (by omega)
        have hnid : ¬ v.identity = true := by
          obtain ⟨i, o, w⟩ := v
          simp only at hvo
          subst hvo
          simp [Update.identity]
        rcases List.mem_cons.1 (hkeep v hv hnid) with rfl | hm
        · omega
        · exact ⟨v, hm, by omega⟩

/-- **C04 is false of the code as it stands**: on the legal script which places two elements after
the end and removes them again, `deduplicate_diff` reads before the start of the list. -/
theorem C04_dedup_fails :
    ∃ (before after : List Nat) (diff : List (Update Nat)), Replays before diff after ∧
      deduplicateDiff diff = .ub :=
  ⟨[], [], [.placement 0 7, .placement 1 8, .removal 1 8, .removal 0 7], by decide, by decide⟩

/-- The other side of the condition is inhabited as well: one placed-and-removed position is fine. -/
example : deduplicateDiff [Update.placement 1 8, .removal 1 8] = .ok [] ∧
    Replays [7] [Update.placement 1 8, .removal 1 8] [7] := by decide

end Verif
