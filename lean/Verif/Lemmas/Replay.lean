import Verif.Spec.Diff

set_option linter.unusedSectionVars false
set_option linter.unusedSimpArgs false

/-! Helper lemmas about edit scripts. -/

namespace Verif

variable {α : Type _} [DecidableEq α]

@[simp] theorem placement_index (i : Nat) (v : α) : (Update.placement i v).index = i := rfl
@[simp] theorem placement_old (i : Nat) (v : α) : (Update.placement i v).old = none := rfl
@[simp] theorem placement_value (i : Nat) (v : α) : (Update.placement i v).value = some v := rfl
@[simp] theorem removal_index (i : Nat) (v : α) : (Update.removal i v).index = i := rfl
@[simp] theorem removal_old (i : Nat) (v : α) : (Update.removal i v).old = some v := rfl
@[simp] theorem removal_value (i : Nat) (v : α) : (Update.removal i v).value = none := rfl
@[simp] theorem change_index (i : Nat) (a v : α) : (Update.change i a v).index = i := rfl
@[simp] theorem change_old (i : Nat) (a v : α) : (Update.change i a v).old = some a := rfl
@[simp] theorem change_value (i : Nat) (a v : α) : (Update.change i a v).value = some v := rfl
@[simp] theorem placement_placed (i : Nat) (v : α) : (Update.placement i v).placed = true := rfl
@[simp] theorem placement_removed (i : Nat) (v : α) : (Update.placement i v).removed = false := rfl
@[simp] theorem removal_placed (i : Nat) (v : α) : (Update.removal i v).placed = false := rfl
@[simp] theorem removal_removed (i : Nat) (v : α) : (Update.removal i v).removed = true := rfl
@[simp] theorem change_placed (i : Nat) (a v : α) : (Update.change i a v).placed = false := rfl
@[simp] theorem change_removed (i : Nat) (a v : α) : (Update.change i a v).removed = false := rfl

@[simp] theorem replays_nil {a b : List α} : Replays a [] b ↔ a = b := by
  simp [Replays]

theorem replays_cons {a b : List α} {u : Update α} {us : List (Update α)} :
    Replays a (u :: us) b ↔ ∃ m, u.step a = some m ∧ Replays m us b := by
  simp [Replays, List.foldlM_cons, Option.bind_eq_some_iff]

theorem replays_append {a b : List α} {us vs : List (Update α)} :
    Replays a (us ++ vs) b ↔ ∃ m, Replays a us m ∧ Replays m vs b := by
  simp [Replays, List.foldlM_append, Option.bind_eq_some_iff]

theorem replays_singleton {a b : List α} {u : Update α} :
    Replays a [u] b ↔ u.step a = some b := by
  simp [replays_cons]

theorem Replays.refl (a : List α) : Replays a [] a := by simp

theorem Replays.trans {a b c : List α} {us vs : List (Update α)}
    (h : Replays a us b) (h' : Replays b vs c) : Replays a (us ++ vs) c :=
  replays_append.2 ⟨b, h, h'⟩

theorem Replays.snoc {a b c : List α} {us : List (Update α)} {u : Update α}
    (h : Replays a us b) (h' : u.step b = some c) : Replays a (us ++ [u]) c :=
  h.trans (replays_singleton.2 h')

theorem Replays.cons {a b c : List α} {us : List (Update α)} {u : Update α}
    (h' : u.step a = some b) (h : Replays b us c) : Replays a (u :: us) c :=
  replays_cons.2 ⟨b, h', h⟩

theorem Replays.det {a b c : List α} {us : List (Update α)}
    (h : Replays a us b) (h' : Replays a us c) : b = c := by
  unfold Replays at h h'; rw [h] at h'; exact Option.some.inj h'

theorem step_placement {l : List α} {v : α} :
    (Update.placement l.length v).step l = some (l ++ [v]) := by
  simp [Update.step, Update.placement]

theorem step_removal {l : List α} {v : α} :
    (Update.removal l.length v).step (l ++ [v]) = some l := by
  simp [Update.step, Update.removal]

theorem step_change {l : List α} {i : Nat} {a b : α} (h : l[i]? = some a) :
    (Update.change i a b).step l = some (l.set i b) := by
  simp [Update.step, Update.change, h]

/-- The three ways in which a step can succeed. -/
theorem step_cases {l l' : List α} {u : Update α} (h : u.step l = some l') :
    (∃ v, u = Update.placement l.length v ∧ l' = l ++ [v]) ∨
    (∃ v, l = l' ++ [v] ∧ u = Update.removal l'.length v) ∨
    (∃ a b, l[u.index]? = some a ∧ u = Update.change u.index a b ∧ l' = l.set u.index b) := by
  obtain ⟨i, o, v⟩ := u
  cases o with
  | none =>
    cases v with
    | none => simp [Update.step] at h
    | some v =>
      simp [Update.step] at h
      left; exact ⟨v, by simp [Update.placement, h.1], h.2.symm⟩
  | some o =>
    cases v with
    | none =>
      simp [Update.step] at h
      obtain ⟨⟨h1, h2⟩, rfl⟩ := h
      right; left
      have hne : l ≠ [] := by intro h; simp [h] at h1
      have hl : l.dropLast ++ [o] = l := by
        conv => rhs; rw [← List.dropLast_concat_getLast hne]
        have : l.getLast hne = o := by
          rw [List.getLast_eq_getElem]
          have := List.getElem?_eq_some_iff.1 h2
          obtain ⟨hi, h3⟩ := this
          have : l.length - 1 = i := by omega
          simp [this, h3]
        rw [this]
      refine ⟨o, hl.symm, ?_⟩
      simp [Update.removal]; omega
    | some v =>
      simp [Update.step] at h
      right; right
      exact ⟨o, v, h.1, rfl, h.2.symm⟩

end Verif
