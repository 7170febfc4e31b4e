import Verif.Lemmas.Generate

set_option linter.unusedSectionVars false
set_option linter.unusedSimpArgs false
set_option linter.unusedVariables false

/-! Helper lemmas: integer decisions, constants used as indices, rows of arrays, conjunctions. -/

namespace Verif

namespace Script

variable {full : Prop} {P : Nat → Prop} {s s' s'' : Script} {A vals : Nat → Val} {D : Nat → Prop} {adm : (Nat → Val) → Prop}

/-- An array of integers. -/
theorem State.integer (S : State full P s (fun _ => False) (fun _ => True)) (hP : P s.length) (sh : List Int) (lo hi : Int)
    (h1 : lo ≤ hi) (h2 : -2000000000 ≤ lo) (h3 : hi ≤ 2000000000) (hg : GoodShape sh) (hs : dynamicShape sh = false) :
    ∃ s', s.add (.kind (.integer sh (some lo) (some hi))) [] = .ok (s', s.length) ∧
      NextArr full P s s' (· = s.length)
        (fun A => ∃ l : List Int, (l.length = sh.prod.toNat ∧ ∀ k ∈ l, lo ≤ k ∧ k ≤ hi) ∧ A s.length = [⟨sh, l.map fun k : Int => (k : Rat)⟩])
        sh (.ok ⟨⟨lo, hi⟩, true⟩) (.fixed sh.prod) none
        (fun A => (single (A s.length)).data) := by
  obtain ⟨s', e, N⟩ := S.decision (k := .integer sh (some lo) (some hi)) (out := [sh]) hP rfl (by
      show (do
        let _ ← NumNode.make sh.prod.toNat (some lo) (some hi)
        .ok [sh]) = Res.ok [sh]
      have : NumNode.make sh.prod.toNat (some lo) (some hi) = .ok ⟨sh.prod.toNat, lo, hi⟩ := by
        unfold NumNode.make
        simp only [Option.getD_some]
        rw [guardThrow_true (by omega), Res.ok_bind, guardThrow_true (by omega), Res.ok_bind]
        rfl
      rw [this, Res.ok_bind]) hs (by simpa using hg)
  have hadm : ∀ A : Nat → Val, (((Kind.integer sh (some lo) (some hi)).node [] [sh]).ok [A s.length] ↔
      ∃ l : List Int, (l.length = sh.prod.toNat ∧ ∀ k ∈ l, lo ≤ k ∧ k ≤ hi) ∧ A s.length = [⟨sh, l.map fun k : Int => (k : Rat)⟩]) := by
    intro A
    show (∃ data : List Rat, [A s.length] = [[⟨sh, data⟩]] ∧ data.length = sh.prod.toNat ∧ ∀ v ∈ data, InBounds lo hi v) ↔ _
    constructor
    · rintro ⟨data, e, h1, h2⟩
      have : ∃ l : List Int, (∀ k ∈ l, lo ≤ k ∧ k ≤ hi) ∧ data = l.map fun k : Int => (k : Rat) := by
        clear e h1
        induction data with
        | nil => exact ⟨[], by simp, rfl⟩
        | cons v data ih =>
          obtain ⟨k, rfl, hk⟩ := h2 v (by simp)
          obtain ⟨l, hl, rfl⟩ := ih fun w hw => h2 w (by simp [hw])
          exact ⟨k :: l, by simpa using ⟨hk, hl⟩, rfl⟩
      obtain ⟨l, h5, rfl⟩ := this
      exact ⟨l, ⟨by simpa using h1, h5⟩, by simpa using e⟩
    · rintro ⟨l, ⟨h1, h2⟩, e⟩
      refine ⟨l.map fun k : Int => (k : Rat), by rw [e], by simpa using h1, ?_⟩
      intro v hv
      obtain ⟨k, hk, rfl⟩ := List.mem_map.1 hv
      exact ⟨k, rfl, h2 k hk⟩
  have hsz : (Kind.integer sh (some lo) (some hi)).sizeFrom s.length [sh] [] [] = .fixed sh.prod := by
    unfold Kind.sizeFrom
    simp [Kind.shape1, hs]
  have hcl : (Kind.integer sh (some lo) (some hi)).claimFrom s.sizes [] = .ok ⟨⟨lo, hi⟩, true⟩ := rfl
  refine ⟨s', e, ?_⟩
  rw [hsz, hcl] at N
  refine (N.iff hadm).congr ?_
  rintro A ⟨l, hl, e⟩
  simp only [e]
  rfl

/-- What a constant declares. -/
theorem constant_query (data : List Rat) (q : StatQuery) : ∃ ans ca, statQuery data none q = .ok (ans, ca) ∧ StatCorrect data q ans := by
  obtain ⟨a, c, e, h, _⟩ := statQuery_spec (values := data) (c := none) (fun s hs => by cases hs) q
  exact ⟨a, c, e, h⟩

theorem constant_index {a : Arr Rat} {d : Nat} (hd : 0 < d) {l : List Nat} (ha : a.data = l.map fun k : Nat => (k : Rat)) (hl : ∀ k ∈ l, k < d) :
    ∃ c : Claim, (Kind.constant a).claim [] (.fixed 0) (.ok (.fixed 1)) [] = .ok c ∧ c.integral = true ∧ 0 ≤ c.range.lo ∧ c.range.hi < d ∧
      ∀ v ∈ a.data, v.den = 1 ∧ c.range.lo ≤ v ∧ v ≤ c.range.hi := by
  have hmem : ∀ v ∈ a.data, v.den = 1 ∧ (0 : Rat) ≤ v ∧ v < d := by
    intro v hv
    rw [ha] at hv
    obtain ⟨k, hk, rfl⟩ := List.mem_map.1 hv
    exact ⟨by simp, by positivity, by exact_mod_cast hl k hk⟩
  obtain ⟨x, c1, e1, h1⟩ := constant_query a.data .min
  obtain ⟨y, c2, e2, h2⟩ := constant_query a.data .max
  obtain ⟨z, c3, e3, h3⟩ := constant_query a.data .integral
  cases x with
  | bool b => exact h1.elim
  | num x =>
  cases y with
  | bool b => exact h2.elim
  | num y =>
  cases z with
  | num b => exact h3.elim
  | bool z =>
  refine ⟨⟨⟨x, y⟩, z⟩, by simp only [Kind.claim, e1, e2, e3], ?_, ?_, ?_, ?_⟩
  · refine h3.2 fun v hv => ⟨v.num, ?_⟩
    exact (Rat.coe_int_num_of_den_eq_one (hmem v hv).1).symm
  · show 0 ≤ x
    simp only [StatCorrect] at h1
    split_ifs at h1
    · rw [h1]
    · exact (hmem x h1.1).2.1
  · show y < d
    simp only [StatCorrect] at h2
    split_ifs at h2
    · rw [h2]; exact_mod_cast hd
    · exact (hmem y h2.1).2.2
  · intro v hv
    simp only [StatCorrect] at h1 h2
    have hne : a.data ≠ [] := List.ne_nil_of_mem hv
    rw [if_neg hne] at h1 h2
    exact ⟨(hmem v hv).1, h1.2 v hv, h2.2 v hv⟩

/-- A row of a matrix. -/
def rowOf (l : List Rat) (n j : Nat) : List Rat := (l.drop (j * n)).take n

theorem length_rowOf {l : List Rat} {m n j : Nat} (hl : l.length = m * n) (hj : j < m) : (rowOf l n j).length = n := by
  unfold rowOf
  rw [List.length_take, List.length_drop, hl]
  have : (j + 1) * n ≤ m * n := Nat.mul_le_mul_right _ hj
  have e : (j + 1) * n = j * n + n := Nat.succ_mul j n
  omega

theorem getD_rowOf {l : List Rat} {n j i : Nat} (hi : i < n) : (rowOf l n j).getD i 0 = l.getD (j * n + i) 0 := by
  unfold rowOf
  simp only [List.getD_eq_getElem?_getD, List.getElem?_take, if_pos hi, List.getElem?_drop]

theorem mem_rowOf {l : List Rat} {n j : Nat} {x : Rat} (h : x ∈ rowOf l n j) : x ∈ l :=
  List.mem_of_mem_drop (List.mem_of_mem_take h)

/-- Conjunctions. -/
theorem allValue_eq {l : List Rat} {q : Bool} (h : (∀ x ∈ l, x ≠ 0) ↔ q = true) : allValue 1 l = ofBool q := by
  unfold allValue ofBool
  by_cases hq : q = true
  · rw [if_pos ⟨one_ne_zero, h.2 hq⟩, if_pos hq]
  · rw [if_neg (fun hc => hq (h.1 hc.2)), if_neg hq]

end Script
end Verif
