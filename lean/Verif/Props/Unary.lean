import Verif.Model.Nodes.Unary
import Verif.Lemmas.NodeBase

set_option linter.unusedSectionVars false
set_option linter.unusedSimpArgs false
set_option linter.unusedVariables false

/-!
# C22: element-wise unary symbols
-/

namespace Verif

open ArrayState

variable {α : Type} [DecidableEq α] [Inhabited α]

theorem unary_loop (func : α → α) {fixed : Bool} (d : List (Update α)) :
    ∀ {s : ArrayState α} {com a b : List α}, RepA fixed s com (a.map func) → Replays a d b →
      (fixed = true → ∀ u ∈ d, u.isChange = true) →
      ∃ s', d.foldlM (unaryStep func) s = .ok s' ∧ RepA fixed s' com (b.map func) := by
  induction d with
  | nil => intro s com a b h hr _; simp at hr; subst hr; exact ⟨s, rfl, h⟩
  | cons u d ih =>
    intro s com a b h hr hf
    obtain ⟨m, hm, hr'⟩ := replays_cons.1 hr
    have hf' := fun hx u hu => hf hx u (List.mem_cons_of_mem _ hu)
    have hstep : ∃ s1, unaryStep func s u = .ok s1 ∧ RepA fixed s1 com (m.map func) := by
      have hb := h.rep.buf
      rcases step_cases hm with ⟨v, rfl, rfl⟩ | ⟨v, rfl, rfl⟩ | ⟨o, v, ho, hu, rfl⟩
      · cases fixed with
        | true => have := hf rfl _ List.mem_cons_self; simp [Update.isChange] at this
        | false =>
          refine ⟨s.emplaceBack (func v), by simp [unaryStep, hb], ?_⟩
          simpa using h.emplaceBack (func v)
      · cases fixed with
        | true => have := hf rfl _ List.mem_cons_self; simp [Update.isChange] at this
        | false =>
          obtain ⟨s1, e1, h1⟩ := RepA.popBack (s := s) (com := com) (cur := m.map func) (v := func v)
            (by simpa using h)
          exact ⟨s1, by simp [unaryStep, hb, e1], h1⟩
      · have hi : u.index < a.length := by
          by_contra hn
          rw [List.getElem?_eq_none (by omega)] at ho; cases ho
        obtain ⟨s1, e1, h1⟩ := h.set (i := u.index) (by simpa using hi) (func v)
        refine ⟨s1, ?_, by simpa [List.map_set] using h1⟩
        rw [hu]; simp [unaryStep, e1]
    obtain ⟨s1, e1, h1⟩ := hstep
    obtain ⟨s2, e2, h2⟩ := ih h1 hr' hf'
    exact ⟨s2, by simp only [List.foldlM_cons, e1, Res.ok_bind, e2], h2⟩

/-- A unary symbol keeps the symbol contract. -/
def unaryContract (func : α → α) (shape : List Int) :
    Contract ArrRel [] (unaryNode func shape) :=
  arrayContract (by
    intro xs h
    obtain ⟨x, rfl, _⟩ := map_shape_one h
    rfl) (by
    intro xs ins ys h _ hi
    obtain ⟨x, rfl, hx⟩ := map_shape_one h
    obtain ⟨d, y, rfl, rfl, hr⟩ := hi.one
    obtain ⟨s', e, h⟩ := unary_loop func (fixed := !dynamicShape shape) d
      (RepA.mk'_ (x.data.map func)) hr.replays (fun hf => hr.fixed (by
        simp only [Arr.dynamic, hx]; simpa using hf))
    exact ⟨s', by simpa [unaryPropagate] using e, h⟩)

/-- C22.  After every history of changes of its operand (which may grow and shrink if dynamic), the
value of a unary symbol is the function applied to every element of the operand, its reported change is
an exact edit script, and reverting restores. -/
theorem C22_unary (func : α → α) (shape : List Int) :
    Incremental ArrRel [] (unaryNode func shape)
      (fun xs => ⟨shape, (xs.headD ⟨[], []⟩).data.map func⟩)
      (fun xs => xs.map Arr.shape = [shape]) :=
  (unaryContract func shape).incremental

/-! Squares of a dynamic array that changes and shrinks, which is reverted, and then grows. -/

private def rounds : List (Round (Arr Rat) (List (Update Rat))) :=
  [⟨[(⟨[-1], [3]⟩, [Update.removal 1 2, Update.change 0 1 3])], false⟩,
    ⟨[(⟨[-1], [1, 2, -5]⟩, [Update.placement 2 (-5)])], true⟩]

example : Legal ArrRel (fun xs => xs.map Arr.shape = [[-1]]) [⟨[-1], [1, 2]⟩] rounds
    [⟨[-1], [1, 2, -5]⟩] := by decide +kernel

example : (unaryNode (fun x : Rat => x * x) [-1]).after [⟨[-1], [1, 2]⟩] rounds =
    .ok (⟨[-1], [1, 4, 25]⟩, []) := by decide +kernel

end Verif
