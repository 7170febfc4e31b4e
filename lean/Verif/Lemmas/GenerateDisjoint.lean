import Verif.Model.GeneratorsDisjoint
import Verif.Spec.ProblemsDisjoint
import Verif.Lemmas.ScriptSum

set_option linter.unusedSectionVars false
set_option linter.unusedSimpArgs false
set_option linter.unusedVariables false

/-! Helper lemmas: disjoint collections in programs that build models. -/

namespace Verif

open Script

variable {full : Prop} {P : Nat → Prop} {s s' : Script} {D : Nat → Prop} {adm : (Nat → Val) → Prop}

/-- The successors. -/
theorem outputs_ok (S : State full P s D adm) {x n : Nat} {sh : List Int} {claim : Claim} {size : SizeInfo}
    {const : Option (Arr Rat)} {v : (Nat → Val) → Val} (hP : ∀ i < n, P (s.length + i))
    (hx : Has P s x ⟨List.replicate n sh, .ok claim, size, const⟩ v) (hg : GoodShape sh) {g : Nat → (Nat → Val) → List Rat}
    (hv : ∀ A, adm A → ∀ i < n, (v A).getD i ⟨[], []⟩ = ⟨sh, g i A⟩) :
    ∃ s', Generators.outputs s x n = .ok (s', (List.range n).map (s.length + ·)) ∧ State full P s' D adm ∧ Ext P s s' ∧
      s'.length = s.length + n ∧
      ∀ i < n, HasArr P s' (s.length + i) sh (.ok claim)
        (if dynamicShape sh then .of (s.length + i) size.min size.max else .fixed sh.prod) none (g i) := by
  have key : ∀ k ≤ n, ∃ s', (List.range k).foldlM (Generators.output x) (s, []) = .ok (s', (List.range k).map (s.length + ·)) ∧
      State full P s' D adm ∧ Ext P s s' ∧ s'.length = s.length + k ∧
      ∀ i < k, HasArr P s' (s.length + i) sh (.ok claim)
        (if dynamicShape sh then .of (s.length + i) size.min size.max else .fixed sh.prod) none (g i) := by
    intro k
    induction k with
    | zero => intro _; exact ⟨s, rfl, S, Ext.refl, by simp, by simp⟩
    | succ k ih =>
      intro hk
      obtain ⟨s1, e1, S1, x1, l1, h1⟩ := ih (by omega)
      obtain ⟨s2, e2, N2⟩ := S1.output (by rw [l1]; exact hP k (by omega)) (hx.mono x1) k (sh := sh)
        (by rw [List.getElem?_replicate, if_pos (by omega)]) (by intro t ht; rw [List.eq_of_mem_replicate ht]; exact hg)
        (fun A hA => hv A hA k (by omega))
      refine ⟨s2, ?_, N2.state, x1.trans N2.ext, by rw [N2.len, l1]; omega, ?_⟩
      · rw [List.range_succ, List.foldlM_append, e1, Res.ok_bind, List.foldlM_cons]
        unfold Generators.output
        simp only [e2, Res.ok_bind, l1, List.foldlM_nil, List.map_append, List.map_cons, List.map_nil]
        rfl
      · intro i hi
        rcases Nat.lt_or_ge i k with h | h
        · exact (h1 i h).mono N2.ext
        · obtain rfl : i = k := by omega
          have := N2.has
          rwa [l1] at this
  exact key n le_rfl

/-- `disjoint_bit_sets`: the accepted values. -/
theorem bitPartition_iff {p N : Nat} {v : Val} :
    (∃ sets : List (List Rat), v = (sets.map fun l => ⟨[(p : Int)], l⟩) ∧ sets.length = N ∧ IsBitPartition p sets) ↔
      ∃ into : List Nat, (into.length = p ∧ ∀ k ∈ into, k < N) ∧ v = shownSets p N into := by
  constructor
  · rintro ⟨sets, rfl, rfl, h1, h2⟩
    choose! f hf1 hf2 using h2
    refine ⟨(List.range p).map f, ⟨by simp, ?_⟩, ?_⟩
    · intro k hk
      obtain ⟨e, he, rfl⟩ := List.mem_map.1 hk
      exact hf1 e (List.mem_range.1 he)
    · unfold shownSets
      refine List.ext_getElem (by simp) fun j hj hj' => ?_
      simp only [List.getElem_map, List.getElem_range]
      congr 1
      have hj : j < sets.length := by simpa using hj
      refine List.ext_getElem (by simpa using (h1 sets[j] (List.getElem_mem hj)).1) fun e he he' => ?_
      have he : e < p := by simpa using he'
      have := hf2 e he j hj
      rw [List.getElem?_eq_getElem hj] at this
      simp only [Option.bind_eq_bind, Option.bind_some] at this
      rw [List.getElem?_eq_getElem (by assumption)] at this
      simp only [List.getElem_map, List.getElem_range, Option.some.injEq] at this ⊢
      rw [this]
      have hg : ((List.range p).map f).getD e 0 = f e := by
        rw [getD_of_lt (by simpa using he)]
        simp
      rw [hg]
      exact if_congr eq_comm rfl rfl
  · rintro ⟨into, ⟨rfl, h2⟩, rfl⟩
    refine ⟨(List.range N).map fun k => (List.range into.length).map fun e => if into.getD e 0 = k then 1 else 0, ?_, by simp, ?_, ?_⟩
    · unfold shownSets
      rw [List.map_map]
      rfl
    · intro c hc
      obtain ⟨k, _, rfl⟩ := List.mem_map.1 hc
      refine ⟨by simp, fun v hv => ?_⟩
      obtain ⟨e, _, rfl⟩ := List.mem_map.1 hv
      split_ifs <;> simp
    · intro e he
      refine ⟨into.getD e 0, ?_, ?_⟩
      · rw [getD_of_lt he]
        simpa using h2 _ (List.getElem_mem he)
      · intro j hj
        have hj : j < N := by simpa using hj
        rw [List.getElem?_map, List.getElem?_range hj]
        simp only [Option.map_some, Option.bind_eq_bind, Option.bind_some]
        rw [List.getElem?_map, List.getElem?_range he]
        simp only [Option.map_some]
        congr 1
        exact if_congr eq_comm rfl rfl

/-- Disjoint bit sets as the first decision. -/
theorem Script.State.bitSets (S : State full P s (fun _ => False) (fun _ => True)) (hP : P s.length) (p N : Nat) (hN : 0 < N) :
    ∃ s', s.add (.kind (.disjointBitSets p N)) [] = .ok (s', s.length) ∧
      Next full P s s' (· = s.length) (fun A => ∃ into : List Nat, (into.length = p ∧ ∀ k ∈ into, k < N) ∧ A s.length = shownSets p N into)
        ⟨List.replicate N [(p : Int)], .ok ⟨⟨0, 1⟩, true⟩, .fixed p, none⟩ (fun A => A s.length) := by
  obtain ⟨s', e, N'⟩ := S.decision (k := .disjointBitSets p N) (out := List.replicate N [(p : Int)]) hP rfl (by
      show (do
        guardThrow (¬ (p : Int) < 0)
        guardThrow (¬ (N : Int) < 1)
        .ok (List.replicate (N : Int).toNat [(p : Int)])) = Res.ok _
      rw [guardThrow_true (by omega), Res.ok_bind, guardThrow_true (by omega), Res.ok_bind, Int.toNat_natCast]) trivial (by
      intro t ht
      rw [List.eq_of_mem_replicate ht]
      simp [GoodShape])
  refine ⟨s', e, ?_⟩
  have hsz : (Kind.disjointBitSets p N).sizeFrom s.length (List.replicate N [(p : Int)]) [] [] = .fixed p := by
    obtain ⟨N, rfl⟩ : ∃ m, N = m + 1 := ⟨N - 1, by omega⟩
    unfold Kind.sizeFrom
    simp [Kind.shape1, List.replicate_succ, dynamicShape]
  have hcl : (Kind.disjointBitSets p N).claimFrom s.sizes [] = .ok ⟨⟨0, 1⟩, true⟩ := rfl
  rw [hsz, hcl] at N'
  refine N'.iff fun A => ?_
  rw [← bitPartition_iff]
  show (∃ sets : List (List Rat), [A s.length] = [sets.map fun l => ⟨[((p : Int).toNat : Int)], l⟩] ∧ sets.length = (N : Int).toNat ∧
    IsBitPartition (p : Int).toNat sets) ↔ _
  simp only [Int.toNat_natCast, List.cons.injEq, and_true]

end Verif
