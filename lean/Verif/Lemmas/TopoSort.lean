import Verif.Model.Graph
import Verif.Spec.Graph
import Mathlib.Data.List.Nodup

set_option linter.unusedSectionVars false
set_option linter.unusedSimpArgs false
set_option linter.unusedVariables false

/-!
# Depth-first topological sorting: invariants
-/

namespace Verif
namespace Graph

open Relation

variable (succs : Nat → List Nat) (V : List Nat) (nd : Nat) (dec : Nat → Prop)

/-- Number of nodes satisfying a test. -/
def cnt (V : List Nat) (p : Nat → Bool) : Nat := V.countP p

theorem cnt_upd {V : List Nat} (hV : V.Nodup) {n : Nat} (hn : n ∈ V) (p q : Nat → Bool)
    (hp : p n = true) (hq : q n = false) (h : ∀ m, m ≠ n → q m = p m) :
    cnt V q + 1 = cnt V p := by
  induction V with
  | nil => simp at hn
  | cons a V ih =>
    obtain ⟨ha, hV⟩ := List.nodup_cons.1 hV
    simp only [cnt, List.countP_cons] at *
    rcases List.mem_cons.1 hn with rfl | hn'
    · have : V.countP q = V.countP p := by
        apply List.countP_congr
        intro x hx
        rw [h x (by rintro rfl; exact ha hx)]
      simp [hp, hq, this]
    · have hne : a ≠ n := by rintro rfl; exact ha hn'
      have := ih hV hn'
      rw [h a hne]
      omega

theorem cnt_mono {V : List Nat} (p q : Nat → Bool) (h : ∀ v ∈ V, q v = true → p v = true) :
    cnt V q ≤ cnt V p := List.countP_mono_left h

/-- Not yet numbered nodes. -/
def pending (V : List Nat) (idx : Nat → Int) : Nat := cnt V fun v => decide (idx v < 0)
/-- Nodes not yet visited. -/
def white (V : List Nat) (idx : Nat → Int) : Nat := cnt V fun v => decide (idx v = -1)

structure Inv (idx : Nat → Int) (count : Int) : Prop where
  state : ∀ v ∈ V, idx v = -1 ∨ idx v = -2 ∨ 0 ≤ idx v
  decOk : ∀ v ∈ V, dec v → 0 ≤ idx v
  cntEq : count = (nd : Int) - 1 + pending V idx
  upper : count < V.length
  range : ∀ v ∈ V, ¬ dec v → 0 ≤ idx v → count < idx v ∧ idx v < V.length
  inj : ∀ v ∈ V, ∀ w ∈ V, ¬ dec v → ¬ dec w → 0 ≤ idx v → idx v = idx w → v = w
  edge : ∀ v ∈ V, ¬ dec v → 0 ≤ idx v → ∀ w ∈ succs v, idx v < idx w

/-- How a visit changes the numbering. -/
structure Ext (idx idx' : Nat → Int) : Prop where
  done : ∀ v ∈ V, 0 ≤ idx v → idx' v = idx v
  gray : ∀ v ∈ V, idx v = -2 ↔ idx' v = -2
  wht : ∀ v ∈ V, idx' v = -1 → idx v = -1

variable {succs V nd dec}

theorem Ext.refl (idx : Nat → Int) : Ext V idx idx := ⟨fun _ _ _ => rfl, fun _ _ => Iff.rfl, fun _ _ h => h⟩

theorem Ext.trans {a b c : Nat → Int} (h : Ext V a b) (h' : Ext V b c) : Ext V a c where
  done v hv h0 := by rw [h'.done v hv (by rw [h.done v hv h0]; exact h0), h.done v hv h0]
  gray v hv := (h.gray v hv).trans (h'.gray v hv)
  wht v hv h0 := h.wht v hv (h'.wht v hv h0)

theorem Ext.white_le {a b : Nat → Int} (h : Ext V a b) : white V b ≤ white V a :=
  cnt_mono _ _ fun v hv hb => by
    have := h.wht v hv (by simpa using hb)
    simpa using this

/-- Specification of one visit. -/
def VisitOk (succs : Nat → List Nat) (V : List Nat) (nd : Nat) (dec : Nat → Prop)
    (idx : Nat → Int) (targets : List Nat) (r : Res ((Nat → Int) × Int)) : Prop :=
  (∃ s', r = .ok s' ∧ Inv succs V nd dec s'.1 s'.2 ∧ Ext V idx s'.1 ∧ ∀ m ∈ targets, 0 ≤ s'.1 m) ∨
  (r = .throw ∧ HasCycle succs V)

theorem fold_spec {f : (Nat → Int) × Int → Nat → Res ((Nat → Int) × Int)} {k : Nat}
    {P : Nat → Prop}
    (hf : ∀ s n, Inv succs V nd dec s.1 s.2 → n ∈ V → P n → white V s.1 < k →
      (∀ w ∈ V, s.1 w = -2 → ReachesPlus succs w n) → VisitOk succs V nd dec s.1 [n] (f s n)) :
    ∀ (l : List Nat) (s : (Nat → Int) × Int), Inv succs V nd dec s.1 s.2 →
      (∀ n ∈ l, n ∈ V ∧ P n) → white V s.1 < k →
      (∀ n ∈ l, ∀ w ∈ V, s.1 w = -2 → ReachesPlus succs w n) →
      VisitOk succs V nd dec s.1 l (l.foldlM f s)
  | [], s, hI, _, _, _ => .inl ⟨s, rfl, hI, Ext.refl _, by simp⟩
  | n :: l, s, hI, hl, hw, hg => by
    have hn := hl n List.mem_cons_self
    rw [List.foldlM_cons]
    rcases hf s n hI hn.1 hn.2 hw (hg n List.mem_cons_self) with ⟨s1, h1, hI1, hE1, hd1⟩ | ⟨h1, hc⟩
    · rw [h1, Res.ok_bind]
      have := fold_spec hf l s1 hI1 (fun m hm => hl m (List.mem_cons_of_mem _ hm))
        (Nat.lt_of_le_of_lt hE1.white_le hw) (fun m hm w hwV hw2 =>
          hg m (List.mem_cons_of_mem _ hm) w hwV ((hE1.gray w hwV).2 hw2))
      rcases this with ⟨s2, h2, hI2, hE2, hd2⟩ | h2
      · refine .inl ⟨s2, h2, hI2, hE1.trans hE2, ?_⟩
        intro m hm
        rcases List.mem_cons.1 hm with rfl | hm
        · have h0 := hd1 m (by simp)
          rw [hE2.done m hn.1 h0]; exact h0
        · exact hd2 m hm
      · exact .inr h2
    · exact .inr ⟨by rw [h1]; rfl, hc⟩

/-- Marking a white node gray. -/
theorem Inv.markGray {idx : Nat → Int} {count : Int} (h : Inv succs V nd dec idx count)
    (hV : V.Nodup) {n : Nat} (hn : n ∈ V) (hw : idx n = -1)
    (hno : ∀ v ∈ V, ¬ dec v → 0 ≤ idx v → n ∉ succs v) :
    Inv succs V nd dec (upd idx n (-2)) count where
  state v hv := by
    by_cases he : v = n
    · subst he; simp
    · rw [upd_ne _ _ he]; exact h.state v hv
  decOk v hv hd := by
    by_cases he : v = n
    · subst he; have := h.decOk v hv hd; omega
    · rw [upd_ne _ _ he]; exact h.decOk v hv hd
  upper := h.upper
  cntEq := by
    rw [h.cntEq]
    congr 2
    unfold pending cnt
    apply List.countP_congr
    intro v hv
    by_cases he : v = n
    · subst he; simp [hw]
    · rw [upd_ne _ _ he]
  range v hv hd h0 := by
    by_cases he : v = n
    · subst he; simp at h0
    · rw [upd_ne _ _ he] at h0 ⊢; exact h.range v hv hd h0
  inj v hv w hw' hd hd' h0 heq := by
    by_cases he : v = n
    · subst he; simp at h0
    · rw [upd_ne _ _ he] at h0 heq
      by_cases he' : w = n
      · subst he'; simp at heq; omega
      · rw [upd_ne _ _ he'] at heq; exact h.inj v hv w hw' hd hd' h0 heq
  edge v hv hd h0 w hw' := by
    by_cases he : v = n
    · subst he; simp at h0
    · rw [upd_ne _ _ he] at h0 ⊢
      by_cases he' : w = n
      · subst he'; exact absurd hw' (hno v hv hd h0)
      · rw [upd_ne _ _ he']; exact h.edge v hv hd h0 w hw'

/-- Numbering a gray node whose successors are numbered. -/
theorem Inv.finish {idx : Nat → Int} {count : Int} (h : Inv succs V nd dec idx count)
    (hV : V.Nodup) {n : Nat} (hn : n ∈ V) (hg : idx n = -2) (hnd : ∀ m ∈ succs n, m ∈ V ∧ ¬ dec m)
    (hs : ∀ m ∈ succs n, 0 ≤ idx m) :
    Inv succs V nd dec (upd idx n count) (count - 1) ∧ 0 ≤ count := by
  have hp : pending V (upd idx n count) + 1 = pending V idx ∧ 0 ≤ count := by
    have hc := h.cntEq
    have hpos : 0 < pending V idx := by
      unfold pending cnt
      rw [List.countP_pos_iff]
      exact ⟨n, hn, by simp [hg]⟩
    have h0 : 0 ≤ count := by omega
    refine ⟨cnt_upd hV hn _ _ (by simp [hg]) (by simp; omega) ?_, h0⟩
    intro m hm
    rw [upd_ne _ _ hm]
  have hup := h.upper
  have hc0 := hp.2
  refine ⟨?_, hc0⟩
  have hne : ∀ v ∈ V, ¬ dec v → 0 ≤ idx v → v ≠ n := by rintro v _ _ h0 rfl; omega
  exact {
    state := fun v hv => by
      by_cases he : v = n
      · subst he; simp; omega
      · rw [upd_ne _ _ he]; exact h.state v hv
    decOk := fun v hv hd => by
      by_cases he : v = n
      · subst he; simp; omega
      · rw [upd_ne _ _ he]; exact h.decOk v hv hd
    cntEq := by have := h.cntEq; have := hp.1; omega
    upper := by have := h.upper; omega
    range := fun v hv hd h0 => by
      by_cases he : v = n
      · subst he; simp; omega
      · rw [upd_ne _ _ he] at h0 ⊢
        have := h.range v hv hd h0; omega
    inj := fun v hv w hw hd hd' h0 heq => by
      by_cases he : v = n
      · subst he
        by_cases he' : w = v
        · exact he'.symm
        · rw [upd_same, upd_ne _ _ he'] at heq
          have := h.range w hw hd' (by omega); omega
      · rw [upd_ne _ _ he] at h0 heq
        by_cases he' : w = n
        · subst he'
          rw [upd_same] at heq
          have := h.range v hv hd h0; omega
        · rw [upd_ne _ _ he'] at heq; exact h.inj v hv w hw hd hd' h0 heq
    edge := fun v hv hd h0 w hw => by
      by_cases he : v = n
      · subst he
        have hw' := hnd w hw
        have hwn : w ≠ v := hne w hw'.1 hw'.2 (hs w hw)
        rw [upd_same, upd_ne _ _ hwn]
        exact (h.range w hw'.1 hw'.2 (hs w hw)).1
      · rw [upd_ne _ _ he] at h0 ⊢
        have hlt' := h.edge v hv hd h0 w hw
        have hwn : w ≠ n := by rintro rfl; omega
        rw [upd_ne _ _ hwn]; exact hlt' }

theorem visit_spec (hV : V.Nodup) (hcl : ∀ v ∈ V, ∀ m ∈ succs v, m ∈ V ∧ ¬ dec m) :
    ∀ (fuel : Nat) (s : (Nat → Int) × Int) (n : Nat), Inv succs V nd dec s.1 s.2 → n ∈ V →
      white V s.1 < fuel → (∀ w ∈ V, s.1 w = -2 → ReachesPlus succs w n) →
      VisitOk succs V nd dec s.1 [n] (visit succs fuel s n)
  | 0, s, n, _, _, hw, _ => absurd hw (by omega)
  | fuel + 1, s, n, hI, hn, hw, hg => by
    unfold visit
    by_cases h0 : 0 ≤ s.1 n
    · rw [if_pos h0]
      exact .inl ⟨s, rfl, hI, Ext.refl _, by simpa using h0⟩
    rw [if_neg h0]
    by_cases h2 : s.1 n = -2
    · rw [if_pos h2]
      exact .inr ⟨rfl, n, hn, hg n hn h2⟩
    rw [if_neg h2]
    have hw1 : s.1 n = -1 := by rcases hI.state n hn with h | h | h <;> omega
    have hno : ∀ v ∈ V, ¬ dec v → 0 ≤ s.1 v → n ∉ succs v := by
      intro v hv hd hv0 hm
      have := hI.edge v hv hd hv0 n hm
      omega
    have hI1 := hI.markGray hV hn hw1 hno
    have hwhite : white V (upd s.1 n (-2)) < fuel := by
      have : white V (upd s.1 n (-2)) + 1 = white V s.1 := by
        refine cnt_upd hV hn _ _ (by simp [hw1]) (by simp) ?_
        intro m hm
        rw [upd_ne _ _ hm]
      omega
    have hnd := hcl n hn
    have hgray : ∀ w ∈ V, upd s.1 n (-2) w = -2 → ∀ m ∈ succs n, ReachesPlus succs w m := by
      intro w hwV hw2 m hm
      by_cases he : w = n
      · subst he; exact TransGen.single hm
      · rw [upd_ne _ _ he] at hw2
        exact TransGen.tail (hg w hwV hw2) hm
    have hfold := fold_spec (P := fun m => m ∈ succs n)
      (fun s m hI hm _ hw hg => visit_spec hV hcl fuel s m hI hm hw hg)
      (succs n).reverse (upd s.1 n (-2), s.2) hI1
      (fun m hm => ⟨(hnd m (List.mem_reverse.1 hm)).1, List.mem_reverse.1 hm⟩) hwhite
      (fun m hm w hwV hw2 => hgray w hwV hw2 m (List.mem_reverse.1 hm))
    rcases hfold with ⟨s', h1, hI', hE, hd⟩ | ⟨h1, hc⟩
    · rw [h1, Res.ok_bind]
      have hg' : s'.1 n = -2 := (hE.gray n hn).1 (by simp)
      obtain ⟨hI2, hc0⟩ := hI'.finish hV hn hg' hnd (fun m hm => hd m (by simpa using hm))
      refine .inl ⟨_, rfl, hI2, ?_, by simpa using hc0⟩
      refine ⟨fun v hv hv0 => ?_, fun v hv => ?_, fun v hv hv1 => ?_⟩
      · have hne : v ≠ n := by rintro rfl; omega
        simp only
        rw [upd_ne _ _ hne]
        have := hE.done v hv (by simp only; rw [upd_ne _ _ hne]; exact hv0)
        rw [this]; simp only; rw [upd_ne _ _ hne]
      · by_cases he : v = n
        · subst he; simp only [upd_same]; constructor <;> intro h <;> omega
        · simp only
          rw [upd_ne _ _ he]
          have := hE.gray v hv
          simp only at this
          rwa [upd_ne _ _ he] at this
      · by_cases he : v = n
        · subst he; exact hw1
        · simp only at hv1
          rw [upd_ne _ _ he] at hv1
          have := hE.wht v hv hv1
          simp only at this
          rwa [upd_ne _ _ he] at this
    · rw [h1]
      exact .inr ⟨rfl, hc⟩

/-- The whole sort. -/
theorem sortIdx_spec (hV : V.Nodup) (hcl : ∀ v ∈ V, ∀ m ∈ succs v, m ∈ V ∧ ¬ dec m)
    {idx : Nat → Int} (hdec : ∀ v ∈ V, dec v → 0 ≤ idx v) (hwhite : ∀ v ∈ V, ¬ dec v → idx v = -1)
    (hnum : nd + cnt V (fun v => decide (idx v = -1)) = V.length) :
    (∃ idx', sortIdx succs V nd idx = .ok idx' ∧ Inv succs V nd dec idx' ((nd : Int) - 1) ∧
      (∀ v ∈ V, 0 ≤ idx' v) ∧ (∀ v ∈ V, 0 ≤ idx v → idx' v = idx v)) ∨
    (sortIdx succs V nd idx = .throw ∧ HasCycle succs V) := by
  have hpend : pending V idx = cnt V (fun v => decide (idx v = -1)) := by
    unfold pending cnt
    apply List.countP_congr
    intro v hv
    by_cases hd : dec v
    · have := hdec v hv hd; simp; omega
    · simp [hwhite v hv hd]
  have hI : Inv succs V nd dec idx ((V.length : Int) - 1) := by
    have hneg : ∀ v ∈ V, ¬ dec v → ¬ 0 ≤ idx v := fun v hv hd => by rw [hwhite v hv hd]; omega
    exact {
      state := fun v hv => by
        by_cases hd : dec v
        · exact .inr (.inr (hdec v hv hd))
        · exact .inl (hwhite v hv hd)
      decOk := hdec
      cntEq := by omega
      upper := by omega
      range := fun v hv hd h => absurd h (hneg v hv hd)
      inj := fun v hv w _ hd _ h => absurd h (hneg v hv hd)
      edge := fun v hv hd h => absurd h (hneg v hv hd) }
  have hnogray : ∀ w ∈ V, idx w ≠ -2 := by
    intro w hw
    by_cases hd : dec w
    · have := hdec w hw hd; omega
    · rw [hwhite w hw hd]; omega
  have hw : white V idx < V.length + 1 := by
    have : white V idx ≤ V.length := List.countP_le_length
    omega
  have := fold_spec (P := fun _ => True)
    (fun s n hI hn _ hw hg => visit_spec hV hcl (V.length + 1) s n hI hn hw hg)
    V.reverse (idx, (V.length : Int) - 1) hI (fun n hn => ⟨List.mem_reverse.1 hn, trivial⟩) hw
    (fun n _ w hwV hw2 => absurd hw2 (hnogray w hwV))
  unfold sortIdx
  rcases this with ⟨s', h1, hI', hE, hd⟩ | ⟨h1, hc⟩
  · left
    rw [h1, Res.ok_bind]
    have hall : ∀ v ∈ V, 0 ≤ s'.1 v := fun v hv => hd v (by simpa using hv)
    have hp0 : pending V s'.1 = 0 := by
      unfold pending cnt
      rw [List.countP_eq_zero]
      intro v hv
      simpa using hall v hv
    have hc : s'.2 = (nd : Int) - 1 := by rw [hI'.cntEq, hp0]; simp
    rw [guardUB_true hc, Res.ok_bind]
    exact ⟨s'.1, rfl, hc ▸ hI', hall, fun v hv h => hE.done v hv h⟩
  · right
    rw [h1]
    exact ⟨rfl, hc⟩

end Graph
end Verif
