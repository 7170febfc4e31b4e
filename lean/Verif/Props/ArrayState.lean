import Verif.Lemmas.ArrayState

/-!
# C01, C02, C03: array states under mutation, commit and revert
-/

set_option linter.unusedSimpArgs false

namespace Verif

variable {α : Type _} [DecidableEq α] [Inhabited α]

open ArrayState

/-- One operation: allowed operations succeed and keep the representation, others are undefined. -/
theorem run1_refines {s : ArrayState α} {com cur : List α} (h : Rep s com cur) (op : ArrayOp α) :
    match ArrayOp.effect (com, cur) op with
    | some (com', cur') => ∃ s', s.run1 op = .ok s' ∧ Rep s' com' cur'
    | none => s.run1 op = .ub := by
  cases op with
  | assign vs => exact ⟨_, rfl, h.assign vs⟩
  | emplaceBack v => exact ⟨_, rfl, h.emplaceBack v⟩
  | exchange i j =>
    simp only [ArrayOp.effect]
    by_cases hi : i < cur.length
    · by_cases hj : j < cur.length
      · simp only [List.getElem?_eq_getElem hi, List.getElem?_eq_getElem hj]
        exact h.exchange hi hj
      · have : cur[j]? = none := List.getElem?_eq_none (by omega)
        simp only [this]
        cases h' : cur[i]? <;> simp [run1, ArrayState.exchange, h.buf, this, h']
    · have : cur[i]? = none := List.getElem?_eq_none (by omega)
      simp [this, run1, ArrayState.exchange, h.buf]
  | popBack =>
    rcases List.eq_nil_or_concat cur with rfl | ⟨l, v, rfl⟩
    · simp [ArrayOp.effect, run1, ArrayState.popBack, h.buf]
    · rw [List.concat_eq_append] at *
      have he : (l ++ [v]).isEmpty = false := by cases l <;> rfl
      simp only [ArrayOp.effect, he, Bool.false_eq_true, if_false, List.dropLast_concat]
      exact h.popBack
  | set i v =>
    simp only [ArrayOp.effect]
    by_cases hi : i < cur.length
    · simp only [hi, if_true]; exact h.set hi v
    · have : cur[i]? = none := List.getElem?_eq_none (by omega)
      simp [hi, run1, ArrayState.set, h.buf, this]
  | update us =>
    simp only [ArrayOp.effect]
    cases hu : us.foldlM Update.force cur with
    | some l => exact Rep.update us h hu
    | none => exact Rep.update_none us h hu
  | commit => exact ⟨_, rfl, h.commit⟩
  | revert => exact ⟨_, rfl, h.revert⟩

/-- **C01, C02, C03.** For every initial array and every history of operations, commits and
reverts: if the history is allowed, the state holds the current list, its update list is an exact
edit script from the committed list to the current one, and the size difference is the difference
of their lengths; if some operation of the history is out of range, the behaviour is undefined
(and in no other case). -/
theorem C02_history_refines (v : List α) (ops : List (ArrayOp α)) :
    match ops.foldlM ArrayOp.effect (v, v) with
    | some (com, cur) => ∃ s, (ArrayState.mk' v).run ops = .ok s ∧ s.buffer = cur ∧
        Replays com s.updates cur ∧ s.sizeDiff = (cur.length : Int) - com.length
    | none => (ArrayState.mk' v).run ops = .ub := by
  have key : ∀ (ops : List (ArrayOp α)) (s : ArrayState α) (com cur : List α), Rep s com cur →
      match ops.foldlM ArrayOp.effect (com, cur) with
      | some (com', cur') => ∃ s', s.run ops = .ok s' ∧ Rep s' com' cur'
      | none => s.run ops = .ub := by
    intro ops
    induction ops with
    | nil => intro s com cur h; exact ⟨s, rfl, h⟩
    | cons op ops ih =>
      intro s com cur h
      have h1 := run1_refines h op
      simp only [List.foldlM_cons, run]
      cases he : ArrayOp.effect (com, cur) op with
      | none => simp only [he] at h1; simp [h1]
      | some p =>
        obtain ⟨com', cur'⟩ := p
        simp only [he] at h1
        obtain ⟨s', hs', hr'⟩ := h1
        have := ih s' com' cur' hr'
        simpa [hs', run] using this
  have := key ops _ v v (Rep.mk'_ v)
  cases he : ops.foldlM ArrayOp.effect (v, v) with
  | none => simp only [he] at this; exact this
  | some p =>
    simp only [he] at this
    obtain ⟨s, hs, hr⟩ := this
    exact ⟨s, hs, hr.buf, hr.rep, by simp [sizeDiff, hr.buf, hr.prev]⟩

/-- The histories above are non-trivial: shrink below the committed length, regrow past it, change,
and look. -/
example : [ArrayOp.popBack, .popBack, .emplaceBack 7, .emplaceBack 8, .emplaceBack 9, .set 0 5].foldlM
    ArrayOp.effect ([1, 2, 3], [1, 2, 3]) = some ([1, 2, 3], [5, 7, 8, 9]) := by decide

/-- **C01.** Whatever allowed mutations were made since the last commit, `revert` restores exactly
the committed list and leaves no pending update. `com` is the committed list at that point of the
history. -/
theorem C01_revert_restores (v : List α) (ops : List (ArrayOp α)) {com cur : List α}
    (h : ops.foldlM ArrayOp.effect (v, v) = some (com, cur)) :
    ∃ s, (ArrayState.mk' v).run (ops ++ [.revert]) = .ok s ∧ s.buffer = com ∧ s.updates = [] ∧
      s.sizeDiff = 0 := by
  have h1 := C02_history_refines v (ops ++ [.revert])
  have h2 := C02_history_refines v ops
  simp only [List.foldlM_append, h] at h1 h2
  simp only [Option.bind_eq_bind, Option.bind_some, List.foldlM_cons, List.foldlM_nil,
    ArrayOp.effect] at h1
  obtain ⟨s, hs, hb, -, hd⟩ := h1
  obtain ⟨s', hs', -⟩ := h2
  refine ⟨s, hs, hb, ?_, by omega⟩
  unfold run at hs hs'
  rw [List.foldlM_append, hs'] at hs
  simp [run1, ArrayState.revert] at hs
  rw [← hs]

example : (ArrayState.mk' [1, 2, 3]).run ([ArrayOp.popBack, .popBack, .emplaceBack 7, .emplaceBack 8,
    .emplaceBack 9, .set 0 5] ++ [.revert]) = .ok ⟨[1, 2, 3], [], 3⟩ := by decide

/-- **C03.** Committing keeps the current contents, clears the diff and the size difference, and
becomes the point to which a later `revert` returns. -/
theorem C03_commit_fixes (v : List α) (ops ops' : List (ArrayOp α)) {com cur com' cur' : List α}
    (h : ops.foldlM ArrayOp.effect (v, v) = some (com, cur))
    (hops' : ∀ op ∈ ops', op ≠ .commit)
    (h' : ops'.foldlM ArrayOp.effect (cur, cur) = some (com', cur')) :
    (∃ s, (ArrayState.mk' v).run (ops ++ [.commit]) = .ok s ∧ s.buffer = cur ∧ s.updates = [] ∧
      s.sizeDiff = 0) ∧
    ∃ s, (ArrayState.mk' v).run (ops ++ [.commit] ++ ops' ++ [.revert]) = .ok s ∧
      s.buffer = cur ∧ s.updates = [] := by
  have hcom : com' = cur := by
    have : ∀ (l : List (ArrayOp α)) (a b : List α) (r : List α × List α), (∀ op ∈ l, op ≠ .commit) →
        l.foldlM ArrayOp.effect (a, b) = some r → r.1 = a := by
      intro l
      induction l with
      | nil => intro a b r _ h; simp at h; rw [← h]
      | cons op l ih =>
        intro a b r hl h
        simp only [List.foldlM_cons, Option.bind_eq_bind, Option.bind_eq_some_iff] at h
        obtain ⟨⟨a', b'⟩, h1, h2⟩ := h
        have ha : a' = a := by
          have hop := hl op (by simp)
          cases op with
          | commit => exact absurd rfl hop
          | exchange i j =>
            simp only [ArrayOp.effect] at h1
            split at h1 <;> simp at h1
            exact h1.1.symm
          | popBack =>
            simp only [ArrayOp.effect] at h1
            split at h1 <;> simp at h1
            exact h1.1.symm
          | set i v =>
            simp only [ArrayOp.effect] at h1
            split at h1 <;> simp at h1
            exact h1.1.symm
          | update us =>
            simp only [ArrayOp.effect, Option.map_eq_some_iff, Prod.mk.injEq] at h1
            obtain ⟨_, _, h, _⟩ := h1
            exact h.symm
          | _ => simp [ArrayOp.effect] at h1; exact h1.1.symm
        rw [ih a' b' r (fun o ho => hl o (by simp [ho])) h2, ha]
    exact this ops' cur cur _ hops' h'
  constructor
  · have h1 := C02_history_refines v (ops ++ [.commit])
    simp only [List.foldlM_append, h, Option.bind_eq_bind, Option.bind_some, List.foldlM_cons,
      List.foldlM_nil, ArrayOp.effect] at h1
    obtain ⟨s, hs, hb, _, hd⟩ := h1
    refine ⟨s, hs, hb, ?_, by omega⟩
    have h2 := C02_history_refines v ops
    simp only [h] at h2
    obtain ⟨s', hs', -⟩ := h2
    unfold run at hs hs'
    rw [List.foldlM_append, hs'] at hs
    simp [run1, ArrayState.commit] at hs
    rw [← hs]
  · have h1 := C01_revert_restores v (ops ++ [.commit] ++ ops') (com := cur) (cur := cur') (by
      simp only [List.foldlM_append, h, Option.bind_eq_bind, Option.bind_some, List.foldlM_cons,
        List.foldlM_nil, ArrayOp.effect]
      simpa [hcom] using h')
    obtain ⟨s, hs, hb, hu, _⟩ := h1
    exact ⟨s, hs, hb, hu⟩

example : (ArrayState.mk' [1, 2]).run ([ArrayOp.set 0 5] ++ [.commit] ++ [.popBack, .popBack,
    .emplaceBack 8] ++ [.revert]) = .ok ⟨[5, 2], [], 2⟩ := by decide

omit [Inhabited α] in
/-- **C02/C01/C03 for one-element states** (`ScalarNodeStateData`): whatever was set since the last
commit, the diff is an exact edit script, revert restores the committed value and commit fixes the
current one. -/
theorem C02_scalar (v0 : α) (vs : List α) :
    let s := vs.foldl ScalarState.set (ScalarState.mk' v0)
    Replays [v0] s.diff s.view ∧ s.view = [vs.getLastD v0] ∧
      s.revert = ScalarState.mk' v0 ∧ s.commit = ScalarState.mk' (vs.getLastD v0) := by
  have key : ∀ (vs : List α) (a b : α),
      vs.foldl ScalarState.set (⟨a, b⟩ : ScalarState α) = ⟨a, vs.getLastD b⟩ := by
    intro vs
    induction vs with
    | nil => intros; rfl
    | cons v vs ih =>
      intro a b
      simp only [List.foldl_cons, ScalarState.set, ih]
      rw [List.getLastD_cons]
  intro s
  have hs : s = ⟨v0, vs.getLastD v0⟩ := key vs v0 v0
  rw [hs]
  refine ⟨?_, rfl, rfl, rfl⟩
  unfold ScalarState.diff ScalarState.view
  split
  · rename_i h; simpa using h
  · rw [replays_singleton, step_change rfl]; rfl

example : ([4, 5].foldl ScalarState.set (ScalarState.mk' 1)).diff = [Update.change 0 1 5] := by decide

end Verif
