import Verif.Spec.StateSize
import Verif.Lemmas.ProgramUnsliced

set_option linter.unusedSectionVars false
set_option linter.unusedSimpArgs false
set_option linter.unusedVariables false

/-! # Lemmas about the sizes of states -/

namespace Verif
namespace SizeInfo

theorem capMax_isSome {a b : Option Int} (h : a.isSome = true ∨ b.isSome = true) : (capMax a b).isSome = true := by
  cases a <;> cases b <;> simp_all [capMax]

theorem join_max {s t : SizeInfo} (h : s.max.isSome = true ∨ t.max.isSome = true) : (s.join t).max.isSome = true := by
  have := capMax_isSome h
  unfold join
  simp only
  split_ifs <;> simpa using this

theorem join_array {s t : SizeInfo} : (s.join t).array = t.array := by
  unfold join
  simp only
  split_ifs <;> rfl

/-- A known maximum stays known. -/
theorem substitute_max {info : Nat → SizeInfo} : ∀ (depth : Nat) {s t : SizeInfo}, s.substitute info depth = .ok t →
    s.max.isSome = true → t.max.isSome = true := by
  intro depth
  induction depth with
  | zero => intro s t h hm; cases h; exact hm
  | succ depth ih =>
    intro s t h hm
    unfold substitute at h
    split at h
    · cases h
    · split_ifs at h with hc
      · cases h; exact hm
      · obtain ⟨_, _, h⟩ := Res.bind_eq_ok.1 h
        exact ih h (join_max (.inl hm))

end SizeInfo

namespace Script

variable {s : Script}

theorem Sized.lt {i : Nat} (h : s.Sized i) : i < s.length := by cases h <;> assumption

/-- What is said about sizes that are known. -/
theorem Sized.says (hs : s.Made) {i : Nat} (h : s.Sized i) :
    s.Unsliced i ∧ ((s.sizes i).array = some i ∧ (∃ m, (s.sizes i).max = some m ∧ m < ssMax) ∨
      ∃ b, (s.sizes i).array = some b ∧ b < i ∧ s.Sized b) := by
  induction h with
  | @set i n lo hi hi' hb hd hlt =>
    have e : s.sizes i = .of i (some lo) (some hi) := by
      rw [(hs.kind hi' hb).2]
      unfold Kind.sizeFrom
      rw [if_pos (show dynamicShape (Kind.shape1 (s.row i).out.shapes) = true from hd)]
    refine ⟨.self hi' hb hd (by rw [e]; rfl) (fun j p h => by cases h), .inl ⟨by rw [e]; rfl, hi, by rw [e]; rfl, hlt⟩⟩
  | @list i j p P N hi hb ho hp hd hlt =>
    have hpi := hs.before hi p (by rw [ho]; simp)
    have hz := (hs.lists (lt_trans hpi hi) hp).1
    have hins := hs.ins hi
    rw [ho] at hins
    have e : s.sizes i = .of i (some 0) (some P) := by
      rw [(hs.kind hi hb).2]
      unfold Kind.sizeFrom
      rw [if_pos (show dynamicShape (Kind.shape1 (s.row i).out.shapes) = true from hd), hins]
      have hz : (s.row p).out.size = _ := hz
      show SizeInfo.of i (s.row p).out.size.min (s.row p).out.size.max = _
      rw [hz]
      rfl
    refine ⟨.self hi hb hd (by rw [e]; rfl) ?_, .inl ⟨by rw [e]; rfl, P, by rw [e]; rfl, hlt⟩⟩
    intro j' q _ hq
    rw [ho] at hq
    obtain rfl : p = q := by simpa using hq
    exact ⟨P, N, hp⟩
  | @binary i b op hi hb hd ha hs' ih =>
    have u : s.Unsliced i := .binary hi hb hd ha ih.1
    refine ⟨u, ?_⟩
    obtain ⟨c, lo, up, e, hle, _, _, hor⟩ := u.says hs
    obtain rfl : c = b := by rw [e] at ha; simpa [SizeInfo.of] using ha
    rcases Nat.lt_or_eq_of_le hle with hlt | heq
    · exact .inr ⟨c, ha, hlt, hs'⟩
    · subst heq
      exact ih.2
  | @advanced i b idx P base hi hb hd hall ha hs' ih =>
    have u : s.Unsliced i := .advanced hi hb hd hall ha ih.1
    refine ⟨u, ?_⟩
    obtain ⟨c, lo, up, e, hle, _, _, hor⟩ := u.says hs
    obtain rfl : c = b := by rw [e] at ha; simpa [SizeInfo.of] using ha
    rcases Nat.lt_or_eq_of_le hle with hlt | heq
    · exact .inr ⟨c, ha, hlt, hs'⟩
    · subst heq
      exact ih.2

/-- Following the reports finds the maximum. -/
theorem Sized.found (hs : s.Made) : ∀ (depth : Nat) {b : Nat}, s.Sized b → b < depth → ∀ {z t : SizeInfo}, z.array = some b →
    z.substitute s.sizes depth = .ok t → t.max.isSome = true := by
  intro depth
  induction depth with
  | zero => intro b _ h; omega
  | succ depth ih =>
    intro b hb hlt z t hz h
    by_cases hm : z.max.isSome = true
    · exact SizeInfo.substitute_max _ h hm
    have hn : z.max = none := by simpa using hm
    unfold SizeInfo.substitute at h
    rw [hz] at h
    simp only at h
    rcases (hb.says hs).2 with ⟨ha, m, hm', hlt'⟩ | ⟨c, ha, hc, hsc⟩
    · rw [if_neg] at h
      · obtain ⟨_, _, h⟩ := Res.bind_eq_ok.1 h
        exact SizeInfo.substitute_max _ h (SizeInfo.join_max (.inr (by rw [hm']; rfl)))
      · unfold SizeInfo.converged
        rw [decide_eq_true_eq]
        rintro ⟨_, _, _, _, h5⟩
        rw [hn, hm'] at h5
        simp only [Option.getD_none, Option.getD_some] at h5
        omega
    · rw [if_neg] at h
      · obtain ⟨_, _, h⟩ := Res.bind_eq_ok.1 h
        exact ih hsc (by omega) (by rw [SizeInfo.join_array]; exact ha) h
      · unfold SizeInfo.converged
        rw [decide_eq_true_eq]
        rintro ⟨h1, _⟩
        rw [hz, ha] at h1
        have : b = c := by simpa using h1
        omega

end Script
end Verif
