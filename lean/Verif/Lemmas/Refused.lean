import Verif.Model.Refused
import Verif.Props.Graph

/-!
# Lemmas about refused sorts
-/

namespace Verif
namespace Graph

/-- Indices are -1, -2 or numbers, and there are enough numbers left. -/
structure RunInv (V : List Nat) (s : SortRun) : Prop where
  state : ∀ v ∈ V, s.idx v = -1 ∨ s.idx v = -2 ∨ 0 ≤ s.idx v
  room : (pending V s.idx : Int) ≤ s.count + 1

/-- What does not change in the course of sorting. -/
structure Later (V : List Nat) (s t : SortRun) : Prop where
  inv : RunInv V t
  white : white V t.idx ≤ white V s.idx
  open_ : ∀ c, s.idx c = -2 → t.idx c = -2
  done : ∀ v, 0 ≤ s.idx v → t.idx v = s.idx v
  outside : ∀ v, v ∉ V → t.idx v = s.idx v
  stuck : t.raised = true → ∃ c ∈ V, t.idx c = -2

theorem Later.refl {V : List Nat} {s : SortRun} (h : RunInv V s) (hr : s.raised = false) : Later V s s :=
  ⟨h, le_rfl, fun _ h => h, fun _ _ => rfl, fun _ _ => rfl, fun h => by simp [hr] at h⟩

theorem Later.trans {V : List Nat} {a b c : SortRun} (h : Later V a b) (k : Later V b c) : Later V a c :=
  ⟨k.inv, k.white.trans h.white, fun v hv => k.open_ v (h.open_ v hv),
    fun v hv => (k.done v (by rw [h.done v hv]; exact hv)).trans (h.done v hv),
    fun v hv => (k.outside v hv).trans (h.outside v hv), k.stuck⟩

theorem foldOn_spec {V : List Nat} {f : SortRun → Nat → Res SortRun} {k : Nat}
    (hf : ∀ s n, n ∈ V → RunInv V s → s.raised = false → Graph.white V s.idx < k → ∃ t, f s n = .ok t ∧ Later V s t) :
    ∀ (l : List Nat) (s : SortRun), (∀ n ∈ l, n ∈ V) → RunInv V s → (s.raised = true → ∃ c ∈ V, s.idx c = -2) →
      Graph.white V s.idx < k →
      ∃ t, l.foldlM (fun s m => if s.raised then .ok s else f s m) s = .ok t ∧ Later V s t := by
  intro l
  induction l with
  | nil =>
    intro s _ hi hr _
    exact ⟨s, rfl, ⟨hi, le_rfl, fun _ h => h, fun _ _ => rfl, fun _ _ => rfl, hr⟩⟩
  | cons n l ih =>
    intro s hl hi hr hw
    rw [List.foldlM_cons]
    cases hs : s.raised with
    | true =>
      simp only [if_true]
      exact ih s (fun m hm => hl m (by simp [hm])) hi hr hw
    | false =>
      simp only [Bool.false_eq_true, if_false]
      obtain ⟨t, ht, hlt⟩ := hf s n (hl n (by simp)) hi hs hw
      obtain ⟨u, hu, hlu⟩ := ih t (fun m hm => hl m (by simp [hm])) hlt.inv hlt.stuck (lt_of_le_of_lt hlt.white hw)
      exact ⟨u, by rw [ht]; exact hu, hlt.trans hlu⟩

theorem visitOn_spec {succs : Nat → List Nat} {V : List Nat} (hV : V.Nodup) (hcl : ∀ v ∈ V, ∀ m ∈ succs v, m ∈ V) :
    ∀ (fuel : Nat) (s : SortRun) (n : Nat), n ∈ V → RunInv V s → s.raised = false → Graph.white V s.idx < fuel →
      ∃ t, visitOn succs fuel s n = .ok t ∧ Later V s t := by
  intro fuel
  induction fuel with
  | zero => intro s n _ _ _ h; omega
  | succ fuel ih =>
    intro s n hn hi hr hw
    rw [visitOn]
    by_cases h0 : 0 ≤ s.idx n
    · rw [if_pos h0]
      exact ⟨s, rfl, Later.refl hi hr⟩
    rw [if_neg h0]
    by_cases h2 : s.idx n = -2
    · rw [if_pos h2]
      exact ⟨_, rfl, ⟨⟨hi.state, hi.room⟩, le_rfl, fun _ h => h, fun _ _ => rfl, fun _ _ => rfl, fun _ => ⟨n, hn, h2⟩⟩⟩
    rw [if_neg h2]
    have h1 : s.idx n = -1 := by
      rcases hi.state n hn with h | h | h
      · exact h
      · exact absurd h h2
      · exact absurd h h0
    have hpend : pending V (upd s.idx n (-2)) = pending V s.idx := by
      unfold pending cnt
      apply List.countP_congr
      intro v _
      by_cases hv : v = n
      · subst hv; simp [h1]
      · rw [upd_ne _ _ hv]
    have hwhite : Graph.white V (upd s.idx n (-2)) + 1 = Graph.white V s.idx := by
      unfold Graph.white
      apply cnt_upd hV hn
      · simp [h1]
      · simp
      · intro m hm; rw [upd_ne _ _ hm]
    obtain ⟨t, ht, hl⟩ := foldOn_spec (V := V) (k := fuel) (f := visitOn succs fuel)
      (fun s m hm hi hr hw => ih s m hm hi hr hw) (succs n).reverse { s with idx := upd s.idx n (-2) }
      (fun m hm => hcl n hn m (List.mem_reverse.1 hm))
      ⟨fun v hv => by
        by_cases hvn : v = n
        · subst hvn; simp
        · simp only [upd_ne _ _ hvn]; exact hi.state v hv, by simp only [hpend]; exact hi.room⟩
      (fun h => by simp [hr] at h) (by simp only; omega)
    rw [ht, Res.ok_bind]
    have hw' : Graph.white V t.idx ≤ Graph.white V s.idx := by
      have := hl.white
      simp only at this
      omega
    have hgray : t.idx n = -2 := hl.open_ n (by simp)
    cases htr : t.raised with
    | true =>
      simp only [if_true]
      refine ⟨t, rfl, ⟨hl.inv, hw', fun c hc => ?_, fun v hv => ?_, fun v hv => ?_, hl.stuck⟩⟩
      · refine hl.open_ c ?_
        by_cases hcn : c = n
        · subst hcn; simp
        · simpa only [upd_ne _ _ hcn] using hc
      · have hvn : v ≠ n := by rintro rfl; exact h0 hv
        rw [hl.done v (by simpa only [upd_ne _ _ hvn] using hv)]
        simp only [upd_ne _ _ hvn]
      · have hvn : v ≠ n := by rintro rfl; exact hv hn
        rw [hl.outside v hv]
        simp only [upd_ne _ _ hvn]
    | false =>
      simp only [Bool.false_eq_true, if_false]
      have hone : pending V (upd t.idx n t.count) + 1 = pending V t.idx ∧ 0 ≤ t.count := by
        have hpos : 0 < pending V t.idx := by
          unfold pending cnt
          exact List.countP_pos_iff.2 ⟨n, hn, by simp [hgray]⟩
        have hroom := hl.inv.room
        have hc : 0 ≤ t.count := by omega
        refine ⟨?_, hc⟩
        unfold pending
        apply cnt_upd hV hn
        · simp [hgray]
        · simpa using hc
        · intro m hm; rw [upd_ne _ _ hm]
      refine ⟨_, rfl, ⟨⟨fun v hv => ?_, ?_⟩, ?_, fun c hc => ?_, fun v hv => ?_, fun v hv => ?_, fun h => by simp at h⟩⟩
      · by_cases hvn : v = n
        · subst hvn; simp [hone.2]
        · simp only [upd_ne _ _ hvn]; exact hl.inv.state v hv
      · have := hl.inv.room
        simp only
        omega
      · refine le_trans (cnt_mono _ _ fun v hv hvw => ?_) hw'
        by_cases hvn : v = n
        · subst hvn
          simp only [upd_same, decide_eq_true_eq] at hvw
          omega
        · simpa only [upd_ne _ _ hvn] using hvw
      · have hcn : c ≠ n := by rintro rfl; exact h2 hc
        simp only [upd_ne _ _ hcn]
        exact hl.open_ c (by simpa only [upd_ne _ _ hcn] using hc)
      · have hvn : v ≠ n := by rintro rfl; exact h0 hv
        simp only [upd_ne _ _ hvn]
        rw [hl.done v (by simpa only [upd_ne _ _ hvn] using hv)]
        simp only [upd_ne _ _ hvn]
      · have hvn : v ≠ n := by rintro rfl; exact hv hn
        simp only [upd_ne _ _ hvn]
        rw [hl.outside v hv]
        simp only [upd_ne _ _ hvn]

/-- `visitOn` is `visit` and what it leaves behind. -/
def Agrees (r : Res ((Nat → Int) × Int)) (q : Res SortRun) : Prop :=
  match r with
  | .ok s => q = .ok ⟨s.1, s.2, false⟩
  | .throw => ∃ t, q = .ok t ∧ t.raised = true
  | .ub => q = .ub

theorem fold_raised {f : SortRun → Nat → Res SortRun} : ∀ (l : List Nat) {t : SortRun}, t.raised = true →
    l.foldlM (fun s m => if s.raised then .ok s else f s m) t = .ok t := by
  intro l
  induction l with
  | nil => intro t _; rfl
  | cons n l ih => intro t ht; rw [List.foldlM_cons]; simp only [ht, if_true]; exact ih ht

theorem fold_agrees {f : (Nat → Int) × Int → Nat → Res ((Nat → Int) × Int)} {h : SortRun → Nat → Res SortRun}
    (hf : ∀ (s : (Nat → Int) × Int) n, Agrees (f s n) (h ⟨s.1, s.2, false⟩ n)) :
    ∀ (l : List Nat) (s : (Nat → Int) × Int),
      Agrees (l.foldlM f s) (l.foldlM (fun s m => if s.raised then .ok s else h s m) ⟨s.1, s.2, false⟩) := by
  intro l
  induction l with
  | nil => intro s; rfl
  | cons n l ih =>
    intro s
    rw [List.foldlM_cons, List.foldlM_cons]
    simp only [Bool.false_eq_true, if_false]
    have hn := hf s n
    cases hfn : f s n with
    | ok s' =>
      rw [hfn] at hn
      simp only [Agrees] at hn
      rw [hn]
      exact ih s'
    | throw =>
      rw [hfn] at hn
      obtain ⟨t, ht, htr⟩ := hn
      rw [ht]
      exact ⟨t, fold_raised l htr, htr⟩
    | ub =>
      rw [hfn] at hn
      simp only [Agrees] at hn
      rw [hn]
      rfl

theorem visit_agrees (succs : Nat → List Nat) : ∀ (fuel : Nat) (s : (Nat → Int) × Int) (n : Nat),
    Agrees (visit succs fuel s n) (visitOn succs fuel ⟨s.1, s.2, false⟩ n) := by
  intro fuel
  induction fuel with
  | zero => intro s n; rfl
  | succ fuel ih =>
    intro s n
    rw [visit, visitOn]
    by_cases h0 : 0 ≤ s.1 n
    · rw [if_pos h0, if_pos h0]; rfl
    rw [if_neg h0, if_neg h0]
    by_cases h2 : s.1 n = -2
    · rw [if_pos h2, if_pos h2]; exact ⟨_, rfl, rfl⟩
    rw [if_neg h2, if_neg h2]
    have := fold_agrees (f := visit succs fuel) (h := visitOn succs fuel) ih (succs n).reverse (upd s.1 n (-2), s.2)
    simp only at this
    cases hf : (succs n).reverse.foldlM (visit succs fuel) (upd s.1 n (-2), s.2) with
    | ok s' =>
      rw [hf] at this
      simp only [Agrees] at this
      rw [this]
      rfl
    | throw =>
      rw [hf] at this
      obtain ⟨t, ht, htr⟩ := this
      rw [ht]
      refine ⟨t, ?_, htr⟩
      simp [htr]
    | ub =>
      rw [hf] at this
      simp only [Agrees] at this
      rw [this]
      rfl

end Graph
end Verif
