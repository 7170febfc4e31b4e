import Verif.Lemmas.ConcatenateFunction

/-!
# C79: `concatenate`

`Spec/NumpyConcatenate.lean` says what NumPy's function does.
-/

namespace Verif

theorem concatShape_cases (s : List Int) (rest : List (List Int)) (a : Nat) :
    concatShape (s :: rest) a =
      if a < s.length ∧ ∀ t ∈ rest, t.length = s.length ∧ t.eraseIdx a = s.eraseIdx a then
        .ok (s.set a ((s :: rest).map fun t => t.getD a 0).sum)
      else .throw := by
  simp only [concatShape]
  by_cases h1 : concatChain a (s :: rest) = true
  · rw [guardThrow_true h1, Res.ok_bind]
    by_cases h2 : a < s.length
    · rw [guardThrow_true h2, Res.ok_bind, if_pos ⟨h2, concatChain_spec.1 h1⟩]
    · rw [if_neg (fun h => h2 h.1)]
      simp [guardThrow, h2]
  · rw [if_neg (fun h => h1 (concatChain_spec.2 h.2))]
    simp [guardThrow, h1]

theorem concatOperands_symbols {m : Nat} : ∀ (xs : List ConcatOperand), (∀ x ∈ xs, x.model = m) →
    concatOperands m (xs.map .symbol) = .ok xs
  | [], _ => rfl
  | x :: xs, h => by
    rw [List.map_cons, concatOperands, guardThrow_true (h x List.mem_cons_self), Res.ok_bind,
      concatOperands_symbols xs fun y hy => h y (List.mem_cons_of_mem _ hy), Res.ok_bind]

theorem set_eq_insert_erase : ∀ (s : List Int) {a : Nat}, a < s.length → ∀ d, s.set a d = (s.eraseIdx a).insertIdx a d
  | [], a, h, _ => by simp at h
  | x :: s, 0, _, d => by simp
  | x :: s, a + 1, h, d => by simp [set_eq_insert_erase s (by simpa using h) d]

/-- A symbol of fixed size, with as many values as its shape says. -/
def ConcatOperand.Fixed (x : ConcatOperand) : Prop := (∀ d ∈ x.value.shape, 0 ≤ d) ∧ (x.value.data.length : Int) = shapeProd x.value.shape

theorem ConcatOperand.Fixed.static {x : ConcatOperand} (h : x.Fixed) : x.value.dynamic = false := by
  unfold Arr.dynamic dynamicShape
  split
  · rename_i d _ he
    have := h.1 d (by rw [he]; simp)
    simp
    omega
  · rfl

theorem npAxis_nonneg {n : Nat} {axis : Int} (h : 0 ≤ axis) : npAxis n axis = if axis.toNat < n then some axis.toNat else none := by
  unfold npAxis
  by_cases h1 : axis.toNat < n
  · rw [if_pos ⟨by omega, by omega⟩, if_pos h1, if_neg (by omega)]
  · rw [if_neg (by omega), if_neg h1]

/-- **C79**, partial: for array symbols of one model, of fixed sizes (empty ones too), and an axis counted from the front, `concatenate`
accepts what NumPy's function accepts, and the state of the result is what that gives.  Missing: negative axes (`C79_negative_fails`),
a single array that is not in a sequence (`C79_array_fails`), a sequence of one symbol with an axis it does not have
(`C79_unchecked_fails`), symbols of changing size (`C79_dynamic_fails`). -/
theorem C79_partial {m : Nat} {xs : List ConcatOperand} {axis : Int} (hm : ∀ x ∈ xs, x.model = m) (hf : ∀ x ∈ xs, x.Fixed)
    (h0 : 0 ≤ axis) (h1 : ∀ x, xs = [x] → axis < x.value.shape.length) :
    match npConcatenate (xs.map ConcatOperand.value) axis with
    | some v => ∃ s, pyConcatenate (.sequence (xs.map .symbol)) axis = .ok s ∧ s.value = .ok v
    | none => pyConcatenate (.sequence (xs.map .symbol)) axis = .throw := by
  match xs, hm, hf, h1 with
  | [], _, _, _ => rfl
  | [x], hm, hf, h1 =>
    have ha := h1 x rfl
    obtain ⟨hd, hw⟩ := hf x List.mem_cons_self
    have hlt : axis.toNat < x.value.shape.length := by omega
    simp only [List.map_cons, List.map_nil, npConcatenate, npAxis_nonneg h0, if_pos hlt]
    rw [if_pos (by simp)]
    refine ⟨.same x, rfl, ?_⟩
    have hset : x.value.shape.set axis.toNat ([x.value.shape.getD axis.toNat 0].sum) = x.value.shape := by
      rw [List.sum_singleton, List.getD_eq_getElem?_getD, List.getElem?_eq_getElem hlt]
      exact List.set_getElem_self hlt
    rw [hset, concatValue_single hlt hd hw]
    rfl
  | x :: y :: l, hm, hf, _ =>
    have hpy : pyConcatenate (.sequence ((x :: y :: l).map .symbol)) axis = concatConstruct (x :: y :: l) axis := by
      have := concatOperands_symbols (m := x.model) (x :: y :: l) fun z hz => by
        rw [hm z hz, hm x List.mem_cons_self]
      simp only [List.map_cons] at this ⊢
      rw [pyConcatenate, this, Res.ok_bind]
      simp
    rw [hpy]
    generalize hxs : y :: l = rest at *
    simp only [List.map_cons, npConcatenate, npAxis_nonneg h0]
    unfold concatConstruct
    rw [guardThrow_true h0, Res.ok_bind]
    simp only [List.map_cons]
    rw [concatShape_cases]
    by_cases hlt : axis.toNat < x.value.shape.length
    · rw [if_pos hlt]
      simp only
      by_cases hall : ∀ t ∈ rest.map fun z => z.value.shape, t.length = x.value.shape.length ∧
          t.eraseIdx axis.toNat = x.value.shape.eraseIdx axis.toNat
      · have hall' : ∀ t ∈ rest.map ConcatOperand.value, t.shape.length = x.value.shape.length ∧
            t.shape.eraseIdx axis.toNat = x.value.shape.eraseIdx axis.toNat := by
          intro t ht
          obtain ⟨z, hz, rfl⟩ := List.mem_map.1 ht
          exact hall _ (List.mem_map.2 ⟨z, hz, rfl⟩)
        rw [if_pos hall', if_pos ⟨hlt, hall⟩, Res.ok_bind, guardThrow_true (fun z hz => (hf z hz).static), Res.ok_bind]
        refine ⟨_, rfl, ?_⟩
        have hal : axis.toNat ≤ (x.value.shape.eraseIdx axis.toNat).length := by
          rw [List.length_eraseIdx]
          split_ifs
          omega
        have key := concatInit_nonneg (R := x.value.shape.eraseIdx axis.toNat) (a := axis.toNat)
          (xs := (x :: rest).map ConcatOperand.value) hal
          (fun d hd => (hf x List.mem_cons_self).1 d (List.mem_of_mem_eraseIdx hd))
          (fun z hz => by
            obtain ⟨w, hw, rfl⟩ := List.mem_map.1 hz
            have hwl : axis.toNat < w.value.shape.length ∧ w.value.shape.eraseIdx axis.toNat = x.value.shape.eraseIdx axis.toNat := by
              rcases List.mem_cons.1 hw with rfl | hw
              · exact ⟨hlt, rfl⟩
              · have := hall _ (List.mem_map.2 ⟨w, hw, rfl⟩)
                exact ⟨by rw [this.1]; exact hlt, this.2⟩
            rw [← hwl.2]
            exact (insert_erase axis.toNat hwl.1).symm)
          (fun z hz => by
            obtain ⟨w, hw, rfl⟩ := List.mem_map.1 hz
            unfold dimOf
            rw [List.getD_eq_getElem?_getD]
            cases hg : w.value.shape[axis.toNat]? with
            | none => simp
            | some d => exact (hf w hw).1 d (List.mem_of_getElem? hg))
          (fun z hz => by
            obtain ⟨w, hw, rfl⟩ := List.mem_map.1 hz
            exact (hf w hw).2)
        have hout : (x.value.shape.eraseIdx axis.toNat).insertIdx axis.toNat (offs axis.toNat ((x :: rest).map ConcatOperand.value)) =
            x.value.shape.set axis.toNat ((x :: rest).map fun z => z.value.shape.getD axis.toNat 0).sum := by
          have e1 : offs axis.toNat ((x :: rest).map ConcatOperand.value) =
              ((x :: rest).map fun z => z.value.shape.getD axis.toNat 0).sum := by
            rw [offs, List.map_map]
            rfl
          rw [e1]
          exact (set_eq_insert_erase _ hlt _).symm
        rw [hout] at key
        simp only [List.map_cons] at key
        simp only [ConcatSymbol.value, List.map_cons, List.map_map, Function.comp_def, key, Res.ok_bind, ArrayState.mk']
      · have hall' : ¬ ∀ t ∈ rest.map ConcatOperand.value, t.shape.length = x.value.shape.length ∧
            t.shape.eraseIdx axis.toNat = x.value.shape.eraseIdx axis.toNat := by
          intro h
          apply hall
          intro t ht
          obtain ⟨z, hz, rfl⟩ := List.mem_map.1 ht
          exact h _ (List.mem_map.2 ⟨z, hz, rfl⟩)
        rw [if_neg hall', if_neg (fun h => hall h.2)]
        rfl
    · rw [if_neg hlt, if_neg (fun h => hlt h.1)]
      rfl

/-- `concatenate((a, b, c), axis=1)` with an empty `b`. -/
example : ∃ s, pyConcatenate (.sequence [.symbol ⟨0, ⟨[2, 2], [0, 1, 2, 3]⟩⟩, .symbol ⟨0, ⟨[2, 0], []⟩⟩, .symbol ⟨0, ⟨[2, 1], [4, 5]⟩⟩]) 1 =
    .ok s ∧ s.value = .ok ⟨[2, 3], [0, 1, 4, 2, 3, 5]⟩ := by
  have := C79_partial (m := 0) (xs := [⟨0, ⟨[2, 2], [0, 1, 2, 3]⟩⟩, ⟨0, ⟨[2, 0], []⟩⟩, ⟨0, ⟨[2, 1], [4, 5]⟩⟩]) (axis := 1)
    (by simp) (by
      intro x hx
      simp only [List.mem_cons, List.not_mem_nil, or_false] at hx
      rcases hx with rfl | rfl | rfl <;> exact ⟨by decide, by decide⟩) (by decide) (by simp)
  exact this

/-- Operands of different models, or anything that is no array symbol. -/
theorem concatOperands_ok {m : Nat} : ∀ {l : List ConcatItem} {xs : List ConcatOperand}, concatOperands m l = .ok xs →
    l = xs.map .symbol ∧ ∀ x ∈ xs, x.model = m
  | [], xs, h => by
    cases h
    simp
  | .other :: l, xs, h => by cases h
  | .symbol x :: l, xs, h => by
    simp only [concatOperands, Res.bind_eq_ok, guardThrow_eq_ok] at h
    obtain ⟨_, h1, ys, h2, h3⟩ := h
    cases h3
    obtain ⟨e1, e2⟩ := concatOperands_ok h2
    refine ⟨by rw [e1, List.map_cons], fun y hy => ?_⟩
    rcases List.mem_cons.1 hy with rfl | hy
    · exact h1
    · exact e2 y hy

theorem concatOperands_total {m : Nat} : ∀ (l : List ConcatItem), concatOperands m l ≠ .ub
  | [] => by simp [concatOperands]
  | .other :: l => by simp [concatOperands]
  | .symbol x :: l => by
    intro h
    rw [concatOperands] at h
    by_cases h1 : x.model = m
    · rw [guardThrow_true h1, Res.ok_bind] at h
      cases h2 : concatOperands m l with
      | ok ys =>
        rw [h2] at h
        cases h
      | throw =>
        rw [h2] at h
        cases h
      | ub => exact concatOperands_total l h2
    · simp [guardThrow, h1] at h

theorem concatConstruct_total (xs : List ConcatOperand) (axis : Int) : concatConstruct xs axis ≠ .ub := by
  intro h
  unfold concatConstruct at h
  by_cases h0 : 0 ≤ axis
  · rw [guardThrow_true h0, Res.ok_bind] at h
    cases xs with
    | nil => cases h
    | cons x xs =>
      rw [List.map_cons, concatShape_cases] at h
      split_ifs at h with hc
      · rw [Res.ok_bind] at h
        by_cases h1 : ∀ z ∈ x :: xs, z.value.dynamic = false
        · rw [guardThrow_true h1] at h
          cases h
        · unfold guardThrow at h
          rw [if_neg h1] at h
          cases h
      · cases h
  · unfold guardThrow at h
    rw [if_neg h0] at h
    cases h

/-- **C79**: whatever it is called with, `concatenate` returns a symbol or raises an exception. -/
theorem C79_total (arg : ConcatArg) (axis : Int) : pyConcatenate arg axis ≠ .ub := by
  match arg with
  | .symbol x => simp [pyConcatenate]
  | .other => simp [pyConcatenate]
  | .sequence [] => simp [pyConcatenate]
  | .sequence (.other :: l) => simp [pyConcatenate]
  | .sequence [.symbol x] => simp [pyConcatenate]
  | .sequence (.symbol x :: y :: l) =>
    intro h
    rw [pyConcatenate] at h
    · cases h2 : concatOperands x.model (.symbol x :: y :: l) with
      | ok xs =>
        rw [h2, Res.ok_bind] at h
        exact concatConstruct_total _ _ h
      | throw =>
        rw [h2] at h
        cases h
      | ub => exact concatOperands_total _ h2
    · simp

example : pyConcatenate (.sequence [.symbol ⟨0, ⟨[1], [1]⟩⟩, .other]) 0 = .throw := rfl

/-- **C79**: the operands of a new symbol are the elements of the sequence, in their order; they are array symbols of one model. -/
theorem C79_operands {arg : ConcatArg} {axis : Int} {xs : List ConcatOperand} {a : Nat} {shape : List Int}
    (h : pyConcatenate arg axis = .ok (.join xs a shape)) :
    arg = .sequence (xs.map .symbol) ∧ 2 ≤ xs.length ∧ (∃ m, ∀ x ∈ xs, x.model = m) ∧ axis = a := by
  match arg with
  | .symbol x => cases h
  | .other => cases h
  | .sequence [] => cases h
  | .sequence (.other :: l) => cases h
  | .sequence [.symbol x] => cases h
  | .sequence (.symbol x :: y :: l) =>
    rw [pyConcatenate] at h
    · obtain ⟨ys, h1, h2⟩ := Res.bind_eq_ok.1 h
      obtain ⟨e1, e2⟩ := concatOperands_ok h1
      simp only [concatConstruct, Res.bind_eq_ok, guardThrow_eq_ok] at h2
      obtain ⟨_, h0, out, _, _, _, h3⟩ := h2
      cases h3
      refine ⟨by rw [e1], ?_, ⟨_, e2⟩, by omega⟩
      have := congrArg List.length e1
      simp only [List.length_cons, List.length_map] at this
      omega
    · simp

example : pyConcatenate (.sequence [.symbol ⟨0, ⟨[1], [1]⟩⟩, .symbol ⟨0, ⟨[2], [3, 4]⟩⟩]) 0 =
    .ok (.join [⟨0, ⟨[1], [1]⟩⟩, ⟨0, ⟨[2], [3, 4]⟩⟩] 0 [3]) := rfl

/-! ## Where C79 is false -/

/-- **C79 fails** for negative axes: they are refused for all operands, while NumPy counts them from the back. -/
theorem C79_negative_fails :
    (∀ (x y : ConcatItem) (l : List ConcatItem) (axis : Int), axis < 0 → pyConcatenate (.sequence (x :: y :: l)) axis = .throw) ∧
    npConcatenate [⟨[2, 2], [0, 1, 2, 3]⟩, ⟨[2, 1], [4, 5]⟩] (-1) = some ⟨[2, 3], [0, 1, 4, 2, 3, 5]⟩ := by
  refine ⟨fun x y l axis h => ?_, by decide +kernel⟩
  cases hr : pyConcatenate (.sequence (x :: y :: l)) axis with
  | throw => rfl
  | ub => exact absurd hr (C79_total _ _)
  | ok s =>
    cases x with
    | other => cases hr
    | symbol x =>
      rw [pyConcatenate] at hr
      · obtain ⟨ys, _, h2⟩ := Res.bind_eq_ok.1 hr
        simp only [concatConstruct, Res.bind_eq_ok, guardThrow_eq_ok] at h2
        obtain ⟨_, h0, _⟩ := h2
        omega
      · simp

/-- **C79 fails** for a single array that is not in a sequence: it is returned as it is, while NumPy joins its rows. -/
theorem C79_array_fails :
    (∀ (x : ConcatOperand) (axis : Int), pyConcatenate (.symbol x) axis = .ok (.same x)) ∧
    npConcatenateArray ⟨[2, 2], [0, 1, 2, 3]⟩ 0 = some ⟨[4], [0, 1, 2, 3]⟩ :=
  ⟨fun _ _ => rfl, by decide +kernel⟩

/-- **C79 fails** for a sequence of one symbol: it is returned whatever the axis is, while NumPy raises an exception. -/
theorem C79_unchecked_fails :
    (∀ (x : ConcatOperand) (axis : Int), pyConcatenate (.sequence [.symbol x]) axis = .ok (.same x)) ∧
    (∀ (x : ConcatOperand) (axis : Int), (x.value.shape.length : Int) ≤ axis → npConcatenate [x.value] axis = none) := by
  refine ⟨fun _ _ => rfl, fun x axis h => ?_⟩
  simp only [npConcatenate, npAxis]
  rw [if_neg (by omega)]

/-- **C79 fails** for symbols of changing size: they are refused next to any others, while NumPy joins their present values. -/
theorem C79_dynamic_fails :
    (∀ (x y : ConcatItem) (l : List ConcatItem) (axis : Int) (z : ConcatOperand), ConcatItem.symbol z ∈ x :: y :: l →
      z.value.dynamic = true → pyConcatenate (.sequence (x :: y :: l)) axis = .throw) ∧
    npConcatenate [⟨[2], [1, 2]⟩, ⟨[1], [3]⟩] 0 = some ⟨[3], [1, 2, 3]⟩ := by
  refine ⟨fun x y l axis z hz hd => ?_, by decide +kernel⟩
  cases hr : pyConcatenate (.sequence (x :: y :: l)) axis with
  | throw => rfl
  | ub => exact absurd hr (C79_total _ _)
  | ok s =>
    cases x with
    | other => cases hr
    | symbol x =>
      rw [pyConcatenate] at hr
      · obtain ⟨ys, h1, h2⟩ := Res.bind_eq_ok.1 hr
        obtain ⟨e1, _⟩ := concatOperands_ok h1
        simp only [concatConstruct, Res.bind_eq_ok, guardThrow_eq_ok] at h2
        obtain ⟨_, _, _, _, _, h3, _⟩ := h2
        rw [e1] at hz
        obtain ⟨w, hw, he⟩ := List.mem_map.1 hz
        cases he
        rw [h3 z hw] at hd
        cases hd
      · simp

end Verif
