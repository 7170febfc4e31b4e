import Verif.Lemmas.ScriptAdvanced
import Verif.Props.Permutation

set_option linter.unusedSectionVars false
set_option linter.unusedSimpArgs false
set_option linter.unusedVariables false

/-! Helper lemmas: permutations in programs that build models. -/

namespace Verif

namespace Script

variable {P : Nat → Prop} {s : Script} {D : Nat → Prop} {adm : (Nat → Val) → Prop}

/-- `A[x, :][:, x]` for a constant square matrix. -/
theorem State.permutation (S : State False P s D adm) (hP : P s.length) {x n i : Nat} {claim : Res Claim} {z : Int} {a : Arr Rat}
    (hx : HasArr P s x [(n : Int), (n : Int)] claim (.fixed z) (some a) (fun _ => a.data)) (ha : a.shape = [(n : Int), (n : Int)])
    (hw : a.WF) {c : Claim} {size : SizeInfo} {const' : Option (Arr Rat)} {gi : (Nat → Val) → List Rat}
    (hi : IsIndex P s adm n i [(n : Int)] c size const' gi) (hn : 0 < n) (hbig : 8 * (n * n) ≤ 2 ^ 31) :
    ∃ s', s.add .permutation [x, i] = .ok (s', s.length) ∧
      NextArr False P s s' D adm [(n : Int), (n : Int)] claim (.fixed ((n : Int) * n)) none
        (fun A => (List.range (n * n)).map fun t => a.data.getD (permPos n (gi A) (gi A) t).toNat 0) := by
  have hord : ∀ A, adm A → OrderOk n [⟨[(n : Int)], gi A⟩] := by
    intro A hA
    refine ⟨_, rfl, rfl, ?_, ?_⟩
    · have := hi.has.length S hA (not_dynamic (by simp))
      simp at this
      exact_mod_cast this
    · intro v hv
      obtain ⟨h1, h2, h3⟩ := hi.values A hA v hv
      exact ⟨h1, le_trans hi.low h2, lt_of_le_of_lt h3 hi.high⟩
  have hhead : ([(n : Int), (n : Int)].headD 0).toNat = n := by simp
  refine S.make (t := .permutation) (ops := [x, i]) (qs := [(_, _), (_, _)]) (b := .permutation a) hP (.cons hx (.cons hi.has .nil))
    ?_ rfl ?_ ?_ ?_ ?_
  · show (do
      let s ← Kind.arrayShape [[(n : Int), (n : Int)]]
      let t ← Kind.arrayShape [[(n : Int)]]
      let c ← Res.ok c
      permMake true s ⟨t, c.integral, c.range.lo, c.range.hi, true⟩
      Res.ok (Built.permutation a, (⟨[s], claim, .fixed s.prod, none⟩ : Info))) = _
    rw [show Kind.arrayShape [[(n : Int), (n : Int)]] = .ok [(n : Int), (n : Int)] from rfl,
      show Kind.arrayShape [[(n : Int)]] = .ok [(n : Int)] from rfl]
    simp only [Res.ok_bind]
    rw [(C33_accepts true [(n : Int), (n : Int)] ⟨[(n : Int)], c.integral, c.range.lo, c.range.hi, true⟩).1
      ⟨rfl, by simp, by simp, hi.integral, by simp, by simp, ?_⟩]
    · simp
    · refine le_trans hi.high.le ?_
      simp only [shapeProd, mul_one]
      have : n ≤ n * n := Nat.le_mul_of_pos_left n hn
      exact_mod_cast this
  · have hex : ∀ k, (a.shape.headD 0).toNat = k → ∃ C : Settled ([] : Dif) (liftConst a (permNode a (permValue a) (OrderOk k))), True := by
      rintro _ rfl
      rw [ha, hhead]
      exact ⟨liftConstSettled a (permContract hn hbig ha hw).toSettled, trivial⟩
    obtain ⟨C, _⟩ := hex _ rfl
    exact ⟨C, fun xs _ => congrArg (fun t => [t]) ha, fun h => h.elim False.elim (by simp [Built.isPermutation])⟩
  · intro A hA
    refine ⟨[[⟨[(n : Int)], gi A⟩]], ?_, ?_, ?_⟩
    · show [[(⟨[(n : Int), (n : Int)], a.data⟩ : Arr Rat)], _] = _
      rw [← ha]
    · simp only [List.mem_singleton, forall_eq, List.length_singleton, true_and]
      exact hi.has.wf S hA
    · rw [ha, hhead]
      exact hord A hA
  · intro A hA
    show [permValue a [⟨[(n : Int)], gi A⟩]] = _
    unfold permValue
    rw [ha, permSelect_square (x := a) hn]
    rfl
  · intro A hA
    refine ⟨rfl, ?_⟩
    simp [Arr.WF, Arr.dynamic, dynamicShape]

end Script
end Verif
