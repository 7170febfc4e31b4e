import Verif.Lemmas.Drift
import Verif.Spec.DriftArrays
import Verif.Lemmas.NodeBase

/-!
# How far rounding errors of array symbols can add up
-/

namespace Verif

open ArrayState

/-- Array symbols that stay good drift as far as goodness says. -/
theorem arrayNode_drifts {shape : List Int} {f0 : List (Arr Rat) → List Rat} {ok0 : List (Arr Rat) → Prop}
    {init : List (Arr Rat) → Res (List Rat)} {prop : ArrayState Rat → List (Arr Rat × List (Update Rat)) → Res (ArrayState Rat)}
    (Good : Nat → List (Arr Rat) → List Rat → Prop)
    {relIn : Arr Rat → List (Update Rat) → Arr Rat → Prop} {ok : List (Arr Rat) → Prop} {f : List (Arr Rat) → Arr Rat}
    {bound : Nat → Rat → Rat} {limit : Nat} (hinit : ∀ xs, ok xs → ∃ l, init xs = .ok l ∧ Good 0 xs l)
    (hprop : ∀ j xs ins ys l, ok xs → ok ys → Ins relIn xs ins ys → j + changesIn ins ≤ limit → Good j xs l →
      ∃ s l', prop (ArrayState.mk' l) ins = .ok s ∧ RepA (!dynamicShape shape) s l l' ∧ Good (j + changesIn ins) ys l')
    (hb : ∀ j xs l, ok xs → j ≤ limit → Good j xs l → Near (bound j) ⟨shape, l⟩ (f xs)) :
    DriftsEverywhere relIn (arrayNode shape f0 ok0 init prop) f ok bound limit := by
  intro xs0 h0 rounds xs hl hlim
  obtain ⟨l0, e0, g0⟩ := hinit xs0 h0
  have key : ∀ {xs rounds zs}, Legal relIn ok xs rounds zs → ∀ j l, ok xs → Good j xs l → j + allChanges rounds ≤ limit →
      ∃ l', rounds.foldlM (arrayNode shape f0 ok0 init prop).round (ArrayState.mk' l) = .ok (ArrayState.mk' l') ∧
        Good (j + committedChanges rounds) zs l' ∧ ok zs := by
    intro xs rounds zs hl
    induction hl with
    | nil =>
      intro j l ho hg _
      exact ⟨l, rfl, by simpa [committedChanges, allChanges] using hg, ho⟩
    | cons hi hy _ ih =>
      rename_i xs ys zs r rs _
      intro j l ho hg hlim
      have hc : r.changes = changesIn r.ins := rfl
      have ha : allChanges (r :: rs) = changesIn r.ins + allChanges rs := by unfold allChanges; rw [List.map_cons, List.sum_cons, hc]
      rw [ha] at hlim
      obtain ⟨s, l1, e1, hrep, g1⟩ := hprop j xs r.ins ys l ho hy hi (by omega) hg
      cases hr2 : r.accept with
      | true =>
        rw [hr2] at ih
        obtain ⟨l', e', g'⟩ := ih (j + changesIn r.ins) l1 hy g1 (by omega)
        refine ⟨l', ?_, ?_⟩
        · have e2 : (arrayNode shape f0 ok0 init prop).round (ArrayState.mk' l) r = .ok (ArrayState.mk' l1) := by
            unfold NodeSem.round
            dsimp only
            rw [e1, Res.ok_bind, hr2, ← hrep.rep.commit_eq]
            rfl
          rw [List.foldlM_cons, e2]
          exact e'
        · have : committedChanges (r :: rs) = changesIn r.ins + committedChanges rs := by
            unfold committedChanges
            rw [List.filter_cons_of_pos (by simpa using hr2)]
            unfold allChanges
            rw [List.map_cons, List.sum_cons, hc]
          rw [this, ← Nat.add_assoc]
          exact g'
      | false =>
        rw [hr2] at ih
        obtain ⟨l', e', g'⟩ := ih j l ho hg (by omega)
        refine ⟨l', ?_, ?_⟩
        · have e2 : (arrayNode shape f0 ok0 init prop).round (ArrayState.mk' l) r = .ok (ArrayState.mk' l) := by
            unfold NodeSem.round
            dsimp only
            rw [e1, Res.ok_bind, hr2, ← hrep.rep.revert_eq]
            rfl
          rw [List.foldlM_cons, e2]
          exact e'
        · have : committedChanges (r :: rs) = committedChanges rs := by
            unfold committedChanges
            rw [List.filter_cons_of_neg (by simp [hr2])]
          rw [this]
          exact g'
  have hle : committedChanges rounds ≤ allChanges rounds := by
    unfold committedChanges allChanges
    exact ((List.filter_sublist (p := fun r => r.accept) (l := rounds)).map Round.changes).sum_le_sum (by simp)
  obtain ⟨l, el, gl, ho⟩ := key hl 0 l0 h0 g0 (by omega)
  rw [Nat.zero_add] at gl
  refine ⟨ArrayState.mk' l0, ArrayState.mk' l, by simp only [e0, Res.ok_bind], el, hb _ xs l ho (by omega) gl, rfl, ?_⟩
  intro ins ys hi hoy hlim2
  obtain ⟨s, l', e', hrep, g'⟩ := hprop _ xs ins ys l ho hoy hi (by omega) gl
  have hview : (⟨shape, s.buffer⟩ : Arr Rat) = ⟨shape, l'⟩ := by rw [hrep.rep.buf]
  refine ⟨s, e', ?_, rfl, ?_, ?_⟩
  · show Near _ (⟨shape, s.buffer⟩ : Arr Rat) _
    rw [hview]
    exact hb _ ys l' hoy (by omega) g'
  · show Replays l s.updates s.buffer
    rw [hrep.rep.buf]
    exact hrep.rep.rep
  · intro hdyn
    have : dynamicShape shape = false := hdyn
    exact hrep.changes (by rw [this]; rfl)

/-- Elements that are doubles and near to given ones. -/
structure CloseTo (b : Rat) (l e : List Rat) : Prop where
  length : l.length = e.length
  near : ∀ (i : Nat) (v w : Rat), l[i]? = some v → e[i]? = some w → IsDouble v ∧ |v - w| ≤ b

theorem CloseTo.mono {b c : Rat} {l e : List Rat} (h : CloseTo b l e) (hbc : b ≤ c) : CloseTo c l e :=
  ⟨h.length, fun i v w hv hw => ⟨(h.near i v w hv hw).1, le_trans (h.near i v w hv hw).2 hbc⟩⟩

/-- One element is replaced. -/
theorem CloseTo.set {b : Rat} {l e : List Rat} (h : CloseTo b l e) (i : Nat) {v w : Rat} (hv : IsDouble v) (hvw : |v - w| ≤ b) :
    CloseTo b (l.set i v) (e.set i w) := by
  refine ⟨by simpa using h.length, fun k x y hx hy => ?_⟩
  by_cases hk : i = k
  · subst hk
    by_cases hi : i < l.length
    · rw [List.getElem?_set_self hi] at hx
      rw [List.getElem?_set_self (by rw [← h.length]; exact hi)] at hy
      cases hx; cases hy
      exact ⟨hv, hvw⟩
    · rw [List.getElem?_eq_none (by simpa using hi)] at hx
      cases hx
  · rw [List.getElem?_set_ne hk] at hx hy
    exact h.near k x y hx hy

theorem two_bound {n limit : Nat} (hlim : n + limit ≤ 2 ^ 52) : ∀ j, j ≤ limit → grow (n + j) ≤ 2 := by
  intro j hj
  have h1 : grow (n + j) ≤ 1 + ((n + j : Nat) : Rat) / 2 ^ 52 := grow_le (by omega)
  have h2 : ((n + j : Nat) : Rat) ≤ 2 ^ 52 := by exact_mod_cast (by omega : n + j ≤ 2 ^ 52)
  have h3 : ((n + j : Nat) : Rat) / 2 ^ 52 ≤ 1 := (div_le_one (by norm_num)).2 h2
  linarith

end Verif
