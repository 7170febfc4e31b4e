import Verif.Model.Catalog
import Verif.Lemmas.NodeBase

set_option linter.unusedSectionVars false
set_option linter.unusedSimpArgs false
set_option linter.unusedVariables false

/-! Helper lemmas: array symbols as nodes with one output, constants, outputs. -/

namespace Verif

theorem Dif.at_tagged (us : List (Update Rat)) : Dif.at (tagged 0 us) 0 = us := by
  simp [Dif.at, tagged, List.filter_map, Function.comp_def]

theorem Dif.at_append (d e : Dif) (i : Nat) : Dif.at (d ++ e) i = Dif.at d i ++ Dif.at e i := by
  simp [Dif.at]

theorem Dif.at_tagged_eq (i j : Nat) (us : List (Update Rat)) :
    Dif.at (tagged i us) j = if i = j then us else [] := by
  by_cases h : i = j
  · subst h; simp [Dif.at, tagged, List.filter_map, Function.comp_def]
  · simp [Dif.at, tagged, List.filter_map, Function.comp_def, h]

theorem Dif.at_zipIdx : ∀ (uss : List (List (Update Rat))) (k i : Nat),
    Dif.at ((uss.zipIdx k).flatMap fun p => tagged p.2 p.1) i = if k ≤ i then uss.getD (i - k) [] else []
  | [], k, i => by simp [Dif.at]
  | us :: uss, k, i => by
    simp only [List.zipIdx_cons, List.flatMap_cons]
    rw [Dif.at_append, Dif.at_tagged_eq, Dif.at_zipIdx uss (k + 1) i]
    by_cases h1 : k = i
    · subst h1; simp
    · by_cases h2 : k ≤ i
      · rw [if_neg h1, if_pos h2, if_pos (by omega), show i - k = (i - (k + 1)) + 1 by omega]
        simp
      · rw [if_neg h1, if_neg h2, if_neg (by omega)]; rfl

theorem Dif.at_taggedAll (uss : List (List (Update Rat))) (i : Nat) :
    Dif.at (taggedAll uss) i = uss.getD i [] := by
  have := Dif.at_zipIdx uss 0 i
  simpa [taggedAll] using this

theorem taggedAll_nil {uss : List (List (Update Rat))} (h : ∀ us ∈ uss, us = []) : taggedAll uss = [] := by
  simp only [taggedAll, List.flatMap_eq_nil_iff]
  intro p hp
  have := h p.1 (List.fst_mem_of_mem_zipIdx hp)
  simp [tagged, this]

theorem valRel_single {a b : Arr Rat} {us : List (Update Rat)} (h : ArrRel a us b) :
    ValRel [a] (tagged 0 us) [b] := by
  refine ⟨rfl, ?_⟩
  intro i x y hx hy
  match i, hx, hy with
  | 0, hx, hy =>
    simp at hx hy
    subst hx; subst hy
    rw [Dif.at_tagged]; exact h

theorem ArrRel.quiet (a : Arr Rat) : ArrRel a [] a := ⟨rfl, by simp, by simp⟩

theorem ValRel.quiet (x : Val) : ValRel x [] x := by
  refine ⟨rfl, ?_⟩
  intro i a b ha hb
  rw [ha] at hb
  cases hb
  exact ArrRel.quiet a

theorem ValRel.single {x y : Val} {d : Dif} (h : ValRel x d y) (hx : x.length = 1) :
    ArrRel (Verif.single x) (Dif.at d 0) (Verif.single y) := by
  match x, y, h, hx with
  | [a], [b], h, _ => exact h.each 0 a b rfl rfl
  | [a], [], h, _ => exact absurd h.length (by simp)
  | [a], _ :: _ :: _, h, _ => exact absurd h.length (by simp)

theorem Ins.lift {xs ys : List Val} {ins : List (Val × Dif)} (h : Ins ValRel xs ins ys)
    (hx : ∀ x ∈ xs, x.length = 1) :
    Ins ArrRel (xs.map Verif.single) (ins.map fun p => (Verif.single p.1, Dif.at p.2 0))
      (ys.map Verif.single) := by
  induction h with
  | nil => exact .nil
  | cons hr _ ih =>
    exact .cons (hr.single (hx _ List.mem_cons_self)) (ih fun x h => hx x (List.mem_cons_of_mem _ h))

/-- The contract of an array symbol in a graph. -/
@[reducible] def liftContract {N : NodeSem (Arr Rat) (List (Update Rat))} (C : Contract ArrRel [] N) :
    Contract ValRel [] (liftNode N) where
  Clean := fun s xs => C.Clean s (xs.map single)
  init := fun h => C.init h.2
  view := fun h => by simp only [C.view h]
  diff := fun h => by simp only [C.diff h]; rfl
  propagate := by
    intro s xs ins ys hc hx hy hi
    obtain ⟨s', e, hv, hd, hc', hr'⟩ := C.propagate hc hx.2 hy.2 (hi.lift fun x h => (hx.1 x h).1)
    exact ⟨s', e, by simp only [hv], valRel_single hd, hc', hr'⟩

/-- The contract of a constant. -/
@[reducible] def constantContract (a : Arr Rat) : Contract ValRel [] (constantNode a) where
  Clean := fun _ _ => True
  init := fun _ => ⟨(), rfl, trivial⟩
  view := fun _ => rfl
  diff := fun _ => rfl
  propagate := fun _ _ _ _ => ⟨_, rfl, rfl, ValRel.quiet _, ⟨_, rfl, trivial⟩, ⟨_, rfl, trivial⟩⟩

/-- The contract of one output of a symbol with several. -/
@[reducible] def outputContract (i : Nat) (shape : List Int) : Contract ValRel [] (outputNode i shape) where
  Clean := fun s xs => ∃ x a, xs = [x] ∧ x[i]? = some a ∧ s = ⟨a, a, []⟩
  init := by
    rintro xs ⟨x, rfl, hi, _⟩
    have h : x[i]? = some x[i] := by simp [hi]
    exact ⟨⟨x[i], x[i], []⟩, by simp only [h], x, x[i], rfl, h, rfl⟩
  view := by
    rintro s xs ⟨x, a, rfl, ha, rfl⟩
    simp [List.getD_eq_getElem?_getD, ha]
  diff := by
    rintro s xs ⟨x, a, rfl, ha, rfl⟩
    rfl
  propagate := by
    rintro s xs ins ys ⟨x, a, rfl, ha, rfl⟩ _ hy hi
    obtain ⟨d, y, rfl, rfl, hr⟩ := hi.one
    obtain ⟨y', hy', hiy, _⟩ := hy
    obtain rfl : y = y' := by simpa using hy'
    have hb : y[i]? = some y[i] := by simp [hiy]
    refine ⟨⟨a, y[i], Dif.at d i⟩, by simp only [hb], ?_, ?_, ⟨_, rfl, y, y[i], rfl, hb, rfl⟩,
      ⟨_, rfl, x, a, rfl, ha, rfl⟩⟩
    · simp [List.getD_eq_getElem?_getD, hb]
    · simp only [List.headD_cons, List.getD_eq_getElem?_getD, ha, hb, Option.getD_some]
      exact valRel_single (hr.each i a _ ha hb)

end Verif
