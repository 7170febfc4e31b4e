import Verif.Model.Archive
import Mathlib.Tactic.IntervalCases

set_option linter.unusedSectionVars false
set_option linter.unusedSimpArgs false
set_option linter.unusedVariables false

/-! Helper lemmas: reading back the adjacency list. -/

namespace Verif

/-- A decimal digit. -/
def IsDigit (c : Char) : Prop := ∃ d < 10, c = digitChar d

theorem digitChar_toNat {d : Nat} (h : d < 10) : (digitChar d).toNat = 48 + d := by
  interval_cases d <;> rfl

theorem digitValue_digitChar {d : Nat} (h : d < 10) : digitValue (digitChar d) = some d := by
  unfold digitValue
  rw [digitChar_toNat h, if_pos (by omega)]
  congr 1; omega

theorem IsDigit.ne {c : Char} (h : IsDigit c) {e : Char} (he : e.toNat < 48 ∨ 57 < e.toNat) : c ≠ e := by
  obtain ⟨d, hd, rfl⟩ := h
  intro hh
  have := digitChar_toNat hd
  rw [hh] at this
  omega

theorem IsDigit.notBlank {c : Char} (h : IsDigit c) : isBlank c = false := by
  have h1 : c ≠ ' ' := h.ne (by decide)
  have h2 : c ≠ '\n' := h.ne (by decide)
  have h3 : c ≠ '\t' := h.ne (by decide)
  have h4 : c ≠ '\r' := h.ne (by decide)
  simp [isBlank, h1, h2, h3, h4]

theorem decimal_digits (n : Nat) : ∀ c ∈ decimal n, IsDigit c := by
  induction n using Nat.strongRecOn with
  | _ n ih =>
    unfold decimal
    split
    · next h => intro c hc; simp only [List.mem_singleton] at hc; exact ⟨n, h, hc⟩
    · next h =>
      intro c hc
      rcases List.mem_append.1 hc with hc | hc
      · exact ih (n / 10) (by omega) c hc
      · simp only [List.mem_singleton] at hc; exact ⟨n % 10, by omega, hc⟩

theorem decimal_ne_nil (n : Nat) : decimal n ≠ [] := by
  unfold decimal; split <;> simp

theorem parse_digits (n : Nat) : (decimal n).foldlM addDigit 0 = some n := by
  induction n using Nat.strongRecOn with
  | _ n ih =>
    unfold decimal
    split
    · next h => simp [addDigit, digitValue_digitChar h]
    · next h =>
      rw [List.foldlM_append, ih (n / 10) (by omega)]
      simp only [Option.bind_eq_bind, Option.bind_some, List.foldlM_cons, List.foldlM_nil, addDigit,
        digitValue_digitChar (show n % 10 < 10 by omega), Option.map_some, Option.pure_def]
      congr 1; omega

theorem parseNat_decimal (n : Nat) : parseNat (decimal n) = some n := by
  have h := parse_digits n
  have hne := decimal_ne_nil n
  cases hd : decimal n with
  | nil => exact absurd hd hne
  | cons c cs => rw [hd] at h; exact h

theorem dropWhile_head {l : List Char} {p : Char → Bool} (h : ∀ c ∈ l.head?, p c = false) : l.dropWhile p = l := by
  cases l with
  | nil => rfl
  | cons c l => rw [List.dropWhile_cons, if_neg (by rw [h c (by simp)]; simp)]

theorem strip_word {l : List Char} (h : ∀ c ∈ l, isBlank c = false) : strip l = l := by
  unfold strip
  rw [dropWhile_head (fun c hc => h c (List.mem_of_mem_head? hc)),
    dropWhile_head (fun c hc => h c (List.mem_reverse.1 (List.mem_of_mem_head? hc))), List.reverse_reverse]

theorem strip_line {l : List Char} (h : ∀ c ∈ l, isBlank c = false) (hne : l ≠ []) : strip (l ++ ['\n']) = l := by
  unfold strip
  rw [dropWhile_head (l := l ++ ['\n'])]
  · rw [List.reverse_append]
    simp only [List.reverse_cons, List.reverse_nil, List.nil_append, List.singleton_append]
    rw [List.dropWhile_cons, if_pos (by decide),
      dropWhile_head (fun c hc => h c (List.mem_reverse.1 (List.mem_of_mem_head? hc))), List.reverse_reverse]
  · intro c hc
    cases l with
    | nil => exact absurd rfl hne
    | cons e l => simp at hc; exact h c (by simp [hc])

theorem parseInt_of_strip {cs : List Char} {n : Nat} (h : strip cs = decimal n) : parseInt cs = some (n : Int) := by
  unfold parseInt
  rw [h]
  have hd := decimal_digits n
  split
  · next ds hs =>
    rw [hs] at hd
    exact absurd rfl ((hd '-' (by simp)).ne (e := '-') (by decide))
  · next ds hs =>
    rw [hs] at hd
    exact absurd rfl ((hd '+' (by simp)).ne (e := '+') (by decide))
  · rw [parseNat_decimal]; rfl

theorem parseInt_decimal (n : Nat) : parseInt (decimal n) = some (n : Int) :=
  parseInt_of_strip (strip_word fun c hc => (decimal_digits n c hc).notBlank)

theorem parseInt_decimal_line (n : Nat) : parseInt (decimal n ++ ['\n']) = some (n : Int) :=
  parseInt_of_strip (strip_line (fun c hc => (decimal_digits n c hc).notBlank) (decimal_ne_nil n))

theorem splitBlank_word {w : List Char} (h : ∀ c ∈ w, c ≠ ' ') : splitBlank w = [w] := by
  induction w with
  | nil => rfl
  | cons c w ih =>
    rw [splitBlank, if_neg (h c (by simp)), ih fun e he => h e (by simp [he])]

theorem splitBlank_cons {w rest : List Char} (h : ∀ c ∈ w, c ≠ ' ') :
    splitBlank (w ++ ' ' :: rest) = w :: splitBlank rest := by
  induction w with
  | nil => simp [splitBlank]
  | cons c w ih =>
    rw [List.cons_append, splitBlank, if_neg (h c (by simp)), ih fun e he => h e (by simp [he])]

theorem decimal_not_space (n : Nat) : ∀ c ∈ decimal n, c ≠ ' ' :=
  fun c hc => (decimal_digits n c hc).ne (by decide)

theorem splitBlank_numbers (id : Nat) (ps : List Nat) :
    (splitBlank (decimal id ++ ps.flatMap (fun p => ' ' :: decimal p) ++ ['\n'])).mapM parseInt =
      some ((id : Int) :: ps.map fun p : Nat => (p : Int)) := by
  induction ps generalizing id with
  | nil =>
    simp only [List.flatMap_nil, List.append_nil, List.map_nil]
    rw [splitBlank_word]
    · simp [parseInt_decimal_line]
    · intro c hc
      rcases List.mem_append.1 hc with hc | hc
      · exact decimal_not_space id c hc
      · simp only [List.mem_singleton] at hc; subst hc; decide
  | cons p ps ih =>
    have e : decimal id ++ List.flatMap (fun p => ' ' :: decimal p) (p :: ps) ++ ['\n'] =
        decimal id ++ ' ' :: (decimal p ++ ps.flatMap (fun p => ' ' :: decimal p) ++ ['\n']) := by simp
    rw [e, splitBlank_cons (decimal_not_space id), List.mapM_cons, parseInt_decimal, ih]
    simp

/-- Reading a line of the adjacency list. -/
theorem parseLine_adjLine (id : Nat) (ps : List Nat) :
    parseLine (adjLine id ps) = some ((id : Int) :: ps.map fun p : Nat => (p : Int)) := splitBlank_numbers id ps

theorem splitLines_cons {l rest : List Char} (h : ∀ c ∈ l, c ≠ '\n') :
    splitLines (l ++ '\n' :: rest) = (l ++ ['\n']) :: splitLines rest := by
  induction l with
  | nil => simp [splitLines]
  | cons c l ih =>
    rw [List.cons_append, splitLines, if_neg (h c (by simp)), ih fun e he => h e (by simp [he])]
    simp

/-- The lines of the adjacency list. -/
theorem splitLines_adj {α : Type} (id : α → Nat) (ps : α → List Nat) (l : List α) :
    splitLines (l.flatMap fun v => adjLine (id v) (ps v)) = l.map fun v => adjLine (id v) (ps v) := by
  induction l with
  | nil => rfl
  | cons v l ih =>
    have e : (v :: l).flatMap (fun v => adjLine (id v) (ps v)) =
        (decimal (id v) ++ (ps v).flatMap (fun p => ' ' :: decimal p)) ++
          '\n' :: l.flatMap fun v => adjLine (id v) (ps v) := by simp [adjLine]
    rw [e, splitLines_cons, ih]
    · rfl
    · intro c hc
      rcases List.mem_append.1 hc with hc | hc
      · exact (decimal_digits _ c hc).ne (by decide)
      · obtain ⟨p, _, hp⟩ := List.mem_flatMap.1 hc
        rcases List.mem_cons.1 hp with rfl | hp
        · decide
        · exact (decimal_digits _ c hp).ne (by decide)

end Verif
