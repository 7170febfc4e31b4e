import Verif.Model.Oracle
import Mathlib.Data.List.Basic
import Mathlib.Data.Int.ModEq
import Mathlib.Tactic.NormNum
import Mathlib.Tactic.Ring

/-!
# Lemmas for C66
-/

namespace Verif

namespace Oracle

theorem same_some (a b : Rat) : same (some a) (some b) = decide (a = b) := by simp [same]

theorem same_none (a : Option Rat) : same a none = false := by cases a <;> simp [same]

theorem equal_iff (l : List (Option Rat)) (v : List Rat) : equal l (v.map some) = true ↔ l = v.map some := by
  induction l generalizing v with
  | nil => cases v <;> simp [equal]
  | cons a l ih =>
    cases v with
    | nil => simp [equal]
    | cons b v =>
      rw [List.map_cons, equal, Bool.and_eq_true, ih v, List.cons.injEq]
      refine and_congr_left fun _ => ?_
      cases a <;> simp [same]

/-- Something wrong that is never forgotten. -/
def Bad (s : List (Option Rat) × Bool) : Prop := s.2 = true ∨ none ∈ s.1

theorem bad_apply {s : List (Option Rat) × Bool} (h : Bad s) (u : Update Rat) : Bad (apply s u) := by
  obtain ⟨l, b⟩ := s
  unfold apply
  dsimp only
  split_ifs with h1 h2 h3 h4 h5
  · exact Or.inl rfl
  · rcases h with h | h
    · exact Or.inl h
    · exact Or.inr (List.mem_append_left _ h)
  · exact Or.inl rfl
  · rcases h with h | h
    · exact Or.inl (by simp only at h; simp [h])
    · have hl : l ≠ [] := List.ne_nil_of_mem h
      have hi : u.index = l.length - 1 := by
        have := List.length_pos_of_ne_nil hl
        push Not at h4
        omega
      rw [← List.dropLast_append_getLast hl, List.mem_append, List.mem_singleton] at h
      rcases h with h | h
      · exact Or.inr h
      · refine Or.inl ?_
        have : l.getD u.index none = none := by
          rw [h, hi, List.getLast_eq_getElem, List.getD_eq_getElem?_getD, List.getElem?_eq_getElem (by
            have := List.length_pos_of_ne_nil hl; omega), Option.getD_some]
        show (b || !same u.old (l.getD u.index none)) = true
        rw [this, same_none, Bool.not_false, Bool.or_true]
  · exact Or.inl rfl
  · rcases h with h | h
    · exact Or.inl (by simp only at h; simp [h])
    · obtain ⟨i, hi, e⟩ := List.mem_iff_getElem.1 h
      by_cases hu : i = u.index
      · refine Or.inl ?_
        have : l.getD u.index none = none := by
          rw [List.getD_eq_getElem?_getD, ← hu, List.getElem?_eq_getElem hi, e]
          rfl
        show (b || !same u.old (l.getD u.index none)) = true
        rw [this, same_none, Bool.not_false, Bool.or_true]
      · refine Or.inr (List.mem_iff_getElem.2 ⟨i, by simpa using hi, ?_⟩)
        rw [List.getElem_set_ne (fun h => hu h.symm), e]

theorem bad_foldl (us : List (Update Rat)) {s : List (Option Rat) × Bool} (h : Bad s) : Bad (us.foldl apply s) := by
  induction us generalizing s with
  | nil => exact h
  | cons u us ih => exact ih (bad_apply h u)

theorem apply_step {l l' : List Rat} {u : Update Rat} (h : u.step l = some l') : apply (l.map some, false) u = (l'.map some, false) := by
  obtain ⟨i, o, v⟩ := u
  unfold Update.step at h
  unfold apply
  cases o with
  | none =>
    cases v with
    | none => cases h
    | some v =>
      dsimp only at h
      split_ifs at h with hi
      cases h
      simp [Update.placed, hi]
  | some o =>
    cases v with
    | none =>
      dsimp only at h
      split_ifs at h with hi
      cases h
      have h1 : ((i : Nat) : Int) = (l.length : Int) - 1 := by omega
      have h2 : (l.map some).getD i none = some o := by
        rw [List.getD_eq_getElem?_getD, List.getElem?_map, hi.2]
        rfl
      simp only [Update.placed, Update.removed, Option.isNone_some, Option.isNone_none, Bool.false_eq_true, if_false, if_true, List.length_map,
        h1, ne_eq, not_true, h2, same_some, Bool.false_or]
      simp
    | some v =>
      dsimp only at h
      split_ifs at h with hi
      cases h
      have h1 : ¬ l.length ≤ i := by
        obtain ⟨hlt, _⟩ := List.getElem?_eq_some_iff.1 hi
        omega
      have h2 : (l.map some).getD i none = some o := by
        rw [List.getD_eq_getElem?_getD, List.getElem?_map, hi]
        rfl
      simp only [Update.placed, Update.removed, Option.isNone_some, Bool.false_eq_true, if_false, List.length_map,
        h1, h2, same_some, Bool.false_or]
      simp

theorem apply_refused {l : List Rat} {u : Update Rat} (h : u.step l = none) : Bad (apply (l.map some, false) u) := by
  obtain ⟨i, o, v⟩ := u
  unfold Update.step at h
  unfold apply
  cases o with
  | none =>
    cases v with
    | none =>
      by_cases hi : i = l.length <;> simp [Update.placed, hi, Bad]
    | some v =>
      dsimp only at h
      split_ifs at h with hi
      simp [Update.placed, hi, Bad]
  | some o =>
    cases v with
    | none =>
      dsimp only at h
      split_ifs at h with hi
      simp only [Update.placed, Update.removed, Option.isNone_some, Option.isNone_none, Bool.false_eq_true, if_false, if_true, List.length_map]
      split_ifs with h1
      · exact Or.inl rfl
      · refine Or.inl ?_
        push Not at h1
        have hlt : i < l.length := by omega
        have hne : l[i] ≠ o := fun e => hi ⟨by omega, by rw [List.getElem?_eq_getElem hlt, e]⟩
        have h2 : (l.map some).getD i none = some l[i] := by
          rw [List.getD_eq_getElem?_getD, List.getElem?_map, List.getElem?_eq_getElem hlt]
          rfl
        rw [h2, same_some]
        simpa using fun e => hne e.symm
    | some v =>
      dsimp only at h
      split_ifs at h with hi
      simp only [Update.placed, Update.removed, Option.isNone_some, Bool.false_eq_true, if_false, List.length_map]
      split_ifs with h1
      · exact Or.inl rfl
      · refine Or.inl ?_
        have hlt : i < l.length := by omega
        have hne : l[i] ≠ o := fun e => hi (by rw [List.getElem?_eq_getElem hlt, e])
        have h2 : (l.map some).getD i none = some l[i] := by
          rw [List.getD_eq_getElem?_getD, List.getElem?_map, List.getElem?_eq_getElem hlt]
          rfl
        rw [h2, same_some]
        simpa using fun e => hne e.symm

/-- The check of the changes is the specification's. -/
theorem check_iff (us : List (Update Rat)) (l v : List Rat) :
    ((us.foldl apply (l.map some, false)).2 = false ∧ equal (us.foldl apply (l.map some, false)).1 (v.map some) = true) ↔ Replays l us v := by
  rw [equal_iff]
  induction us generalizing l with
  | nil =>
    simp only [List.foldl_nil, Replays, List.foldlM_nil, true_and]
    constructor
    · intro h
      rw [List.map_injective_iff.2 (Option.some_injective _) h]
      rfl
    · intro h
      rw [Option.some.inj h]
  | cons u us ih =>
    rw [List.foldl_cons]
    cases hs : u.step l with
    | some l' =>
      rw [apply_step hs, ih l']
      unfold Replays
      rw [List.foldlM_cons, hs]
      rfl
    | none =>
      have hb := bad_foldl us (apply_refused hs)
      constructor
      · rintro ⟨h1, h2⟩
        rcases hb with hb | hb
        · rw [h1] at hb
          cases hb
        · rw [h2, List.mem_map] at hb
          obtain ⟨_, _, e⟩ := hb
          cases e
      · intro h
        unfold Replays at h
        rw [List.foldlM_cons, hs] at h
        cases h

theorem replays_length {us : List (Update Rat)} {l v : List Rat} (h : Replays l us v) :
    (us.foldl apply (l.map some, false)).1.length = v.length := by
  have := (equal_iff _ v).1 ((check_iff us l v).2 h).2
  rw [this, List.length_map]

theorem checkRange_iff {d : Declaration} {o : Observation} (hs : o.size = o.view.length) :
    checkRange d o ↔ ∀ x ∈ o.view, d.lo ≤ x ∧ x ≤ d.hi ∧ (d.integral = true → x.den = 1) := by
  unfold checkRange
  constructor
  · intro h x hx
    have hne : o.size ≠ 0 := by
      rw [hs]
      have := List.length_pos_of_mem hx
      omega
    obtain ⟨h1, h2, h3⟩ := h hne
    refine ⟨h1 x hx, h2 x hx, fun hi => ?_⟩
    rcases h3 with h3 | h3
    · rw [hi] at h3; cases h3
    · exact h3 x hx
  · intro h _
    refine ⟨fun x hx => (h x hx).1, fun x hx => (h x hx).2.1, ?_⟩
    cases hi : d.integral with
    | false => exact Or.inl rfl
    | true => exact Or.inr fun x hx => (h x hx).2.2 hi

end Oracle

theorem productInt_aux (l : List Int) (a b : Int) (h : (2 ^ 32 : Int) ∣ a - b) :
    (2 ^ 32 : Int) ∣ l.foldl (fun a n => Int.bmod (a * n) (2 ^ 32)) a - b * l.prod := by
  induction l generalizing a b with
  | nil => simpa using h
  | cons n l ih =>
    rw [List.foldl_cons, List.prod_cons, ← mul_assoc]
    refine ih _ _ ?_
    have h1 : (2 ^ 32 : Int) ∣ a * n - b * n := by rw [← sub_mul]; exact Dvd.dvd.mul_right h n
    have h2 : (2 ^ 32 : Int) ∣ Int.bmod (a * n) (2 ^ 32) - a * n := by
      have := Int.bmod_emod (x := a * n) (m := 2 ^ 32)
      exact Int.ModEq.dvd (n := (2 ^ 32 : Int)) (by unfold Int.ModEq; push_cast at this ⊢; exact this.symm)
    have := Int.dvd_add h2 h1
    rwa [sub_add_sub_cancel] at this

/-- Products below 2³¹ are right. -/
theorem productInt_eq {l : List Int} (h0 : 0 ≤ l.prod) (h : l.prod < 2 ^ 31) : productInt l = l.prod := by
  have h1 := productInt_aux l 1 1 (by simp)
  rw [one_mul] at h1
  have hb : -(2 ^ 31 : Int) ≤ productInt l ∧ productInt l < 2 ^ 31 := by
    unfold productInt
    rcases List.eq_nil_or_concat l with rfl | ⟨l', n, rfl⟩
    · simp
    · rw [List.concat_eq_append, List.foldl_append, List.foldl_cons, List.foldl_nil]
      have h2 := Int.le_bmod (x := (List.foldl (fun a n => Int.bmod (a * n) (2 ^ 32)) 1 l') * n) (m := 2 ^ 32) (by norm_num)
      have h3 := Int.bmod_lt (x := (List.foldl (fun a n => Int.bmod (a * n) (2 ^ 32)) 1 l') * n) (m := 2 ^ 32) (by norm_num)
      norm_num at h2 h3 ⊢
      exact ⟨h2, h3⟩
  change (2 ^ 32 : Int) ∣ productInt l - l.prod at h1
  obtain ⟨k, hk⟩ := h1
  norm_num at *
  omega

end Verif
