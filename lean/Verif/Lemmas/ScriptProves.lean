import Verif.Lemmas.ScriptOps

set_option linter.unusedSectionVars false
set_option linter.unusedSimpArgs false
set_option linter.unusedVariables false

/-! Helper lemmas: from the steps of a program to the model it builds. -/

namespace Verif

namespace Script

open Graph

variable {full : Prop} {P : Nat → Prop} {s s' s'' : Script} {A vals : Nat → Val} {D : Nat → Prop} {adm : (Nat → Val) → Prop}

theorem Runs.weaken (h : Runs (fun _ => True) s A vals) : Runs P s A vals := fun i hi _ => h i hi trivial

/-- A number computed by the model. -/
def Computes (P : Nat → Prop) (s : Script) (i : Nat) (g : (Nat → Val) → Rat) : Prop :=
  ∃ claim size const, HasArr P s i [] claim size const fun A => [g A]

theorem Computes.value {i : Nat} {g : (Nat → Val) → Rat} (h : Computes P s i g) (S : State full P s D adm) (hA : adm A)
    (hr : Runs P s A vals) : single (vals i) = ⟨[], [g A]⟩ := by
  obtain ⟨c, z, k, h⟩ := h
  rw [h.is.value A vals ((S.admits A).2 hA) hr]
  rfl

theorem Computes.front {i : Nat} {g : (Nat → Val) → Rat} (h : Computes P s i g) (S : State full P s D adm) (hA : adm A)
    (hr : Runs P s A vals) : (single (vals i)).front = .ok (g A) := by
  obtain ⟨c, z, k, h⟩ := h
  rw [h.is.value A vals ((S.admits A).2 hA) hr]
  rfl

theorem Computes.mono {i : Nat} {g : (Nat → Val) → Rat} (h : Computes P s i g) (e : Ext P s s') : Computes P s' i g := by
  obtain ⟨c, z, k, h⟩ := h
  exact ⟨c, z, k, h.mono e⟩

theorem Computes.lt {i : Nat} {g : (Nat → Val) → Rat} (h : Computes P s i g) : i < s.length := by
  obtain ⟨c, z, k, h⟩ := h
  exact h.is.lt

/-- Constraints that are truth values. -/
theorem feasible_spec (S : State full P s D adm) (hA : adm A) (hr : Runs P s A vals) {cs : List Nat} {qs : List ((Nat → Val) → Bool)}
    (h : List.Forall₂ (fun c (q : (Nat → Val) → Bool) => Computes P s c fun A => ofBool (q A)) cs qs) :
    ∃ b, feasibleLoop vals cs = .ok b ∧ (b = true ↔ ∀ q ∈ qs, q A = true) := by
  induction h with
  | nil => exact ⟨true, rfl, by simp⟩
  | cons h _ ih =>
    obtain ⟨b, h1, h2⟩ := ih
    rename_i c q cs qs _
    unfold feasibleLoop
    rw [h.value S hA hr]
    cases hq : q A with
    | false => exact ⟨false, by simp [Arr.read, guardUB, ofBool, Res.ok_bind], by simp [hq]⟩
    | true => exact ⟨b, by simpa [Arr.read, guardUB, ofBool, Res.ok_bind] using h1, by simpa [hq] using h2⟩

/-- What is left to show of a model. -/
theorem State.proves {α : Type} {M : Generated} {p : Problem α} (S : State full P M.rows D adm) (hcomplete : Complete full P M.rows)
    {d : Nat} (hD : ∀ i, D i → i = d) (hadm : ∀ A, adm A ↔ ∃ a, p.valid a ∧ A d = p.values a d)
    {o : Nat} (ho : M.objective = some o) (hlt : o < M.rows.length)
    (henergy : ∀ a, p.valid a → ∀ vals, Runs (fun _ => True) M.rows (p.values a) vals → (single (vals o)).front = .ok (p.cost a))
    {qs : List ((Nat → Val) → Bool)}
    (hcs : List.Forall₂ (fun c (q : (Nat → Val) → Bool) => Computes P M.rows c fun A => ofBool (q A)) M.constraints qs)
    (hfeas : ∀ a, p.valid a → ((∀ q ∈ qs, q (p.values a) = true) ↔ p.feasible a)) : Proves full P M p where
  complete := hcomplete
  objective := by
    intro o' ho'
    rw [ho] at ho'
    cases ho'
    exact hlt
  constraints := by
    clear hfeas
    generalize M.constraints = cs at hcs
    induction hcs with
    | nil => intro c hc; cases hc
    | cons h _ ih =>
      intro c hc
      rcases List.mem_cons.1 hc with rfl | hc
      · exact h.lt
      · exact ih c hc
  solution := by
    intro A hA
    obtain ⟨a, h1, h2⟩ := (hadm A).1 ((S.admits A).1 hA)
    refine ⟨a, h1, fun i hi hd => ?_⟩
    obtain rfl := hD i (S.dec i hi hd)
    exact h2
  valid := fun a ha => (S.admits _).2 ((hadm _).2 ⟨a, ha, rfl⟩)
  energy := fun a ha vals hr => ⟨o, ho, henergy a ha vals hr⟩
  feasible := by
    intro a ha vals hr
    obtain ⟨b, h1, h2⟩ := feasible_spec S ((hadm _).2 ⟨a, ha, rfl⟩) hr.weaken hcs
    exact ⟨b, h1, h2.trans (hfeas a ha)⟩

/-- The same, with the accepted values described differently. -/
theorem State.iff {adm' : (Nat → Val) → Prop} (S : State full P s D adm) (h : ∀ A, adm A ↔ adm' A) : State full P s D adm' :=
  ⟨S.good, fun A => (S.admits A).trans (h A), S.dec⟩

theorem Next.iff {adm' : (Nat → Val) → Prop} {info : Info} {v : (Nat → Val) → Val} (N : Next full P s s' D adm info v)
    (h : ∀ A, adm A ↔ adm' A) : Next full P s s' D adm' info v := ⟨N.state.iff h, N.ext, N.len, N.has⟩

/-- The shape of a collection. -/
def collSh (lo hi : Nat) : List Int := if lo = hi then [(hi : Int)] else [-1]

/-- The lists a collection accepts. -/
def IsColl (n lo hi : Nat) (l : List Nat) : Prop := l.Nodup ∧ (∀ k ∈ l, k < n) ∧ lo ≤ l.length ∧ l.length ≤ hi

/-- What a collection shows. -/
def collVal (lo hi : Nat) (l : List Nat) : Val := [⟨collSh lo hi, l.map fun k : Nat => (k : Rat)⟩]

theorem map_cast_of_all {n : Nat} {data : List Rat} (h : ∀ v ∈ data, ∃ k : Nat, k < n ∧ v = k) :
    ∃ l : List Nat, (∀ k ∈ l, k < n) ∧ data = l.map fun k : Nat => (k : Rat) := by
  induction data with
  | nil => exact ⟨[], by simp, rfl⟩
  | cons v data ih =>
    obtain ⟨k, hk, rfl⟩ := h v (by simp)
    obtain ⟨l, hl, rfl⟩ := ih fun w hw => h w (by simp [hw])
    exact ⟨k :: l, by simpa using ⟨hk, hl⟩, rfl⟩

theorem nodup_cast {l : List Nat} : (l.map fun k : Nat => (k : Rat)).Nodup ↔ l.Nodup :=
  List.nodup_map_iff fun _ _ h => by exact_mod_cast h

/-- A list or a set. -/
theorem State.collection (S : State full P s (fun _ => False) (fun _ => True)) (hP : P s.length) (n lo hi : Nat) (h1 : lo ≤ hi)
    (h2 : hi ≤ n) :
    ∃ s', s.add (.kind (.collection n lo hi)) [] = .ok (s', s.length) ∧
      NextArr full P s s' (· = s.length) (fun A => ∃ l, IsColl n lo hi l ∧ A s.length = collVal lo hi l)
        (collSh lo hi) (.ok ⟨⟨0, n - 1⟩, true⟩) (if lo = hi then .fixed hi else .of s.length (some (lo : Int)) (some (hi : Int))) none
        (fun A => (single (A s.length)).data) := by
  have hmake : CollNode.make n lo hi = .ok ⟨n, lo, hi⟩ := by
    unfold CollNode.make
    rw [guardThrow_true (by omega), Res.ok_bind, guardThrow_true (by omega), Res.ok_bind, guardThrow_true (by omega), Res.ok_bind]
    simp [Res.pure_eq]
  have hsh : collShape ⟨n, lo, hi⟩ = collSh lo hi := by
    unfold collShape collSh CollNode.dynamic
    split_ifs <;> simp_all
  obtain ⟨s', e, N⟩ := S.decision (k := .collection n lo hi) (out := [collSh lo hi]) hP rfl (by
      show (do
        let c ← CollNode.make n lo hi
        .ok [collShape c]) = Res.ok [collSh lo hi]
      rw [hmake, Res.ok_bind, hsh]) trivial (by
      unfold collSh
      split_ifs <;> simp [GoodShape])
  have hadm : ∀ A : Nat → Val, (((Kind.collection n lo hi).node [] [collSh lo hi]).ok [A s.length] ↔
      ∃ l, IsColl n lo hi l ∧ A s.length = collVal lo hi l) := by
    intro A
    show (∃ data : List Rat, [A s.length] = [[⟨collShape ⟨n, lo, hi⟩, data⟩]] ∧ data.Nodup ∧
      (∀ v ∈ data, ∃ k : Nat, k < n ∧ v = k) ∧ lo ≤ data.length ∧ data.length ≤ hi) ↔ _
    rw [hsh]
    constructor
    · rintro ⟨data, e, h1, h2, h3, h4⟩
      obtain ⟨l, h5, rfl⟩ := map_cast_of_all h2
      exact ⟨l, ⟨nodup_cast.1 h1, h5, by simpa using h3, by simpa using h4⟩, by simpa [collVal] using e⟩
    · rintro ⟨l, ⟨h1, h2, h3, h4⟩, e⟩
      refine ⟨l.map fun k : Nat => (k : Rat), by rw [e]; rfl, nodup_cast.2 h1, ?_, by simpa using h3, by simpa using h4⟩
      intro v hv
      obtain ⟨k, hk, rfl⟩ := List.mem_map.1 hv
      exact ⟨k, h2 k hk, rfl⟩
  have hsz : (Kind.collection n lo hi).sizeFrom s.length [collSh lo hi] [] [] =
      (if lo = hi then .fixed hi else .of s.length (some (lo : Int)) (some (hi : Int))) := by
    unfold Kind.sizeFrom
    by_cases h : lo = hi
    · subst h
      simp [Kind.shape1, collSh, dynamicShape]
    · simp [Kind.shape1, collSh, dynamicShape, h]
  have hcl : (Kind.collection n lo hi).claimFrom s.sizes [] = .ok ⟨⟨0, n - 1⟩, true⟩ := by
    show Res.ok (⟨⟨0, ((n : Int) : Rat) - 1⟩, true⟩ : Claim) = _
    simp
  refine ⟨s', e, ?_⟩
  rw [hsz, hcl] at N
  refine (N.iff hadm).congr ?_
  rintro A ⟨l, hl, e⟩
  simp only [e]
  rfl

end Script
end Verif
