import Verif.Lemmas.ArchiveClaims
import Verif.Lemmas.ProgramMade

set_option linter.unusedSimpArgs false
set_option linter.unusedVariables false

/-! Helper lemmas: constructors do not depend on the numbers of the symbols. -/

namespace Verif

/-- The symbols with `P` have other numbers, and the same sizes. -/
structure Renames (P : Nat → Prop) (f : Nat → Nat) (sizes' sizes : Nat → SizeInfo) : Prop where
  inj : ∀ i, P i → ∀ j, P j → f i = f j → i = j
  size : ∀ i, P i → (sizes' i).rename f = sizes (f i)
  closed : ∀ i, P i → ∀ a, (sizes' i).array = some a → P a
  down : ∀ i, P i → ∀ a, (sizes' i).array = some a → a ≤ i
  down' : ∀ i, P i → ∀ a, (sizes (f i)).array = some a → a ≤ f i

namespace Renames

variable {P : Nat → Prop} {f : Nat → Nat} {sizes' sizes : Nat → SizeInfo}

theorem substitute (h : Renames P f sizes' sizes) (depth : Nat) {s : SizeInfo} (hs : ∀ a, s.array = some a → P a) :
    (s.rename f).substitute sizes depth = (s.substitute sizes' depth >>= fun t => .ok (t.rename f)) := by
  rw [SizeInfo.substitute_rename h.inj h.size h.closed depth hs]
  cases s.substitute sizes' depth <;> rfl

theorem beq (h : Renames P f sizes' sizes) {a b : SizeInfo} (ha : ∀ i, a.array = some i → P i) (hb : ∀ i, b.array = some i → P i) :
    (a.rename f).beq (b.rename f) = a.beq b := by
  unfold SizeInfo.beq SizeInfo.rename
  have : (a.array.map f = b.array.map f) ↔ a.array = b.array := by
    constructor
    · intro e
      cases ea : a.array with
      | none =>
        cases eb : b.array with
        | none => rfl
        | some j => rw [ea, eb] at e; cases e
      | some i =>
        cases eb : b.array with
        | none => rw [ea, eb] at e; cases e
        | some j =>
          rw [ea, eb] at e
          simp only [Option.map_some, Option.some.injEq] at e
          rw [h.inj i (ha i ea) j (hb j eb) e]
    · intro e; rw [e]
  simp only [this]

end Renames

theorem substitute_one {info : Nat → SizeInfo} {s t : SizeInfo} {a : Nat} (ha : s.array = some a) (h : s.substitute info 1 = .ok t) :
    t.array = (info a).array := by
  unfold SizeInfo.substitute at h
  rw [ha] at h
  dsimp only at h
  split_ifs at h with hc
  · obtain rfl := Res.ok.inj h
    unfold SizeInfo.converged at hc
    exact (of_decide_eq_true hc).1
  · obtain ⟨_, _, h⟩ := Res.bind_eq_ok.1 h
    simp only [SizeInfo.substitute, Res.ok.injEq] at h
    subst h
    unfold SizeInfo.join
    dsimp only
    split <;> rfl

/-- How long the loop of `array_shape_equal` can go on from an array. -/
def loopBound (l : Nat) (s : SizeInfo) : Nat := if s.array = some l then 0 else l

namespace Renames

variable {P : Nat → Prop} {f : Nat → Nat} {sizes' sizes : Nat → SizeInfo}

/-- One side of the loop: the next array. -/
theorem next (h : Renames P f sizes' sizes) {l a : Nat} {s t : SizeInfo} (ha : s.array = some a) (hP : P a) (hne : a ≠ l) (hle : a ≤ l)
    (hle' : f a ≤ f l) (hne' : f a ≠ f l) (e : s.substitute sizes' 1 = .ok t) :
    (∀ b, t.array = some b → P b) ∧ (∀ b, t.array = some b → b ≤ a) ∧ (∀ b, t.array = some b → f b ≤ f a) ∧
      loopBound a t < l ∧ loopBound (f a) (t.rename f) < f l := by
  have ht := substitute_one ha e
  refine ⟨fun b hb => h.closed a hP b (by rw [← ht]; exact hb), fun b hb => h.down a hP b (by rw [← ht]; exact hb), fun b hb => ?_, ?_, ?_⟩
  · apply h.down' a hP
    rw [← h.size a hP]
    show (sizes' a).array.map f = _
    rw [← ht, hb]; rfl
  · unfold loopBound; split_ifs <;> omega
  · unfold loopBound; split_ifs <;> omega

theorem shapeEqualLoop (h : Renames P f sizes' sizes) : ∀ (fuel' fuel : Nat) {l r : Nat} {ls rs : SizeInfo}, P l → P r →
    (∀ a, ls.array = some a → P a ∧ a ≤ l ∧ f a ≤ f l) → (∀ a, rs.array = some a → P a ∧ a ≤ r ∧ f a ≤ f r) →
    loopBound l ls < fuel' → loopBound r rs < fuel' → loopBound (f l) (ls.rename f) < fuel → loopBound (f r) (rs.rename f) < fuel →
    Verif.shapeEqualLoop sizes fuel (f l) (ls.rename f) (f r) (rs.rename f) = Verif.shapeEqualLoop sizes' fuel' l ls r rs := by
  intro fuel'
  induction fuel' with
  | zero => intro fuel l r ls rs _ _ _ _ h1; omega
  | succ n ih =>
    intro fuel l r ls rs hPl hPr hl hr h1 h2 h3 h4
    cases fuel with
    | zero => omega
    | succ m =>
      have hfl : ∀ a, ls.array = some a → (f a = f l ↔ a = l) := fun a ha =>
        ⟨fun e => h.inj a (hl a ha).1 l hPl e, fun e => by rw [e]⟩
      have hfr : ∀ a, rs.array = some a → (f a = f r ↔ a = r) := fun a ha =>
        ⟨fun e => h.inj a (hr a ha).1 r hPr e, fun e => by rw [e]⟩
      unfold Verif.shapeEqualLoop
      rw [h.beq (fun a ha => (hl a ha).1) (fun a ha => (hr a ha).1)]
      by_cases hb : ls.beq rs = true
      · rw [if_pos hb, if_pos hb]
      · rw [if_neg hb, if_neg hb]
        have ela : (ls.rename f).array = ls.array.map f := rfl
        have era : (rs.rename f).array = rs.array.map f := rfl
        rw [ela, era]
        cases hla : ls.array with
        | none => rfl
        | some la =>
          cases hra : rs.array with
          | none => rfl
          | some ra =>
            simp only [Option.map_some]
            have nl : ∀ t, la ≠ l → ls.substitute sizes' 1 = .ok t → _ := fun t hne e =>
              h.next hla (hl la hla).1 hne (hl la hla).2.1 (hl la hla).2.2 (fun e => hne ((hfl la hla).1 e)) e
            have nr : ∀ t, ra ≠ r → rs.substitute sizes' 1 = .ok t → _ := fun t hne e =>
              h.next hra (hr ra hra).1 hne (hr ra hra).2.1 (hr ra hra).2.2 (fun e => hne ((hfr ra hra).1 e)) e
            have bl : la ≠ l → l < n + 1 ∧ f l < m + 1 := fun hne => by
              have c1 : ¬ ls.array = some l := by rw [hla]; simpa using hne
              have c2 : ¬ (ls.rename f).array = some (f l) := by rw [ela, hla]; simpa using fun e => hne ((hfl la hla).1 e)
              simp only [loopBound, if_neg c1] at h1
              simp only [loopBound, if_neg c2] at h3
              exact ⟨h1, h3⟩
            have br : ra ≠ r → r < n + 1 ∧ f r < m + 1 := fun hne => by
              have c1 : ¬ rs.array = some r := by rw [hra]; simpa using hne
              have c2 : ¬ (rs.rename f).array = some (f r) := by rw [era, hra]; simpa using fun e => hne ((hfr ra hra).1 e)
              simp only [loopBound, if_neg c1] at h2
              simp only [loopBound, if_neg c2] at h4
              exact ⟨h2, h4⟩
            have zl : la = l → loopBound l ls = 0 ∧ loopBound (f l) (ls.rename f) = 0 := fun e => by
              subst e
              simp [loopBound, hla, ela]
            have zr : ra = r → loopBound r rs = 0 ∧ loopBound (f r) (rs.rename f) = 0 := fun e => by
              subst e
              simp [loopBound, hra, era]
            simp only [ne_eq, hfl la hla, hfr ra hra]
            rw [h.substitute 1 (fun a ha => (hl a ha).1), h.substitute 1 (fun a ha => (hr a ha).1)]
            by_cases cl : la = l
            · by_cases cr : ra = r
              · simp [cl, cr]
              · simp only [cl, cr, not_true, not_false_eq_true, and_true, true_and, if_false, if_true]
                rcases e : rs.substitute sizes' 1 with t | _ | _
                · obtain ⟨q1, q2, q3, q4, q5⟩ := nr t cr e
                  obtain ⟨b1, b2⟩ := br cr
                  obtain ⟨z1, z2⟩ := zl cl
                  simp only [Res.ok_bind]
                  exact ih m hPl (hr ra hra).1 hl (fun a ha => ⟨q1 a ha, q2 a ha, q3 a ha⟩) (by omega) (by omega) (by omega) (by omega)
                · rfl
                · rfl
            · by_cases cr : ra = r
              · simp only [cl, cr, not_true, not_false_eq_true, and_false, true_and, if_false, if_true]
                rcases e : ls.substitute sizes' 1 with t | _ | _
                · obtain ⟨q1, q2, q3, q4, q5⟩ := nl t cl e
                  obtain ⟨b1, b2⟩ := bl cl
                  obtain ⟨z1, z2⟩ := zr cr
                  simp only [Res.ok_bind]
                  exact ih m (hl la hla).1 hPr (fun a ha => ⟨q1 a ha, q2 a ha, q3 a ha⟩) hr (by omega) (by omega) (by omega) (by omega)
                · rfl
                · rfl
              · simp only [cl, cr, not_false_eq_true, and_self, if_true]
                rcases e : ls.substitute sizes' 1 with t | _ | _
                · rcases e' : rs.substitute sizes' 1 with t' | _ | _
                  · obtain ⟨q1, q2, q3, q4, q5⟩ := nl t cl e
                    obtain ⟨b1, b2⟩ := bl cl
                    obtain ⟨p1, p2, p3, p4, p5⟩ := nr t' cr e'
                    obtain ⟨c1, c2⟩ := br cr
                    simp only [Res.ok_bind]
                    exact ih m (hl la hla).1 (hr ra hra).1 (fun a ha => ⟨q1 a ha, q2 a ha, q3 a ha⟩)
                      (fun a ha => ⟨p1 a ha, p2 a ha, p3 a ha⟩) (by omega) (by omega) (by omega) (by omega)
                  · rfl
                  · rfl
                · rfl
                · rfl

theorem shapeEqual (h : Renames P f sizes' sizes) {fuel' fuel l r : Nat} (hl : P l) (hr : P r) (h1 : l < fuel') (h2 : r < fuel')
    (h3 : f l < fuel) (h4 : f r < fuel) : Verif.shapeEqual sizes fuel (f l) (f r) = Verif.shapeEqual sizes' fuel' l r := by
  unfold Verif.shapeEqual
  have hA : ∀ i, P i → ∀ a, (sizes' i).array = some a → P a ∧ a ≤ i ∧ f a ≤ f i := fun i hi a ha =>
    ⟨h.closed i hi a ha, h.down i hi a ha, h.down' i hi _ (by rw [← h.size i hi]; show (sizes' i).array.map f = _; rw [ha]; rfl)⟩
  rw [← h.size l hl, ← h.size r hr, h.beq (h.closed l hl) (h.closed r hr)]
  have e : ∀ t : SizeInfo, ((t.rename f).array = none) = (t.array = none) := fun t => by
    show (t.array.map f = none) = _
    simp
  rw [h.shapeEqualLoop fuel' fuel hl hr (hA l hl) (hA r hr)
    (by unfold loopBound; split_ifs <;> omega) (by unfold loopBound; split_ifs <;> omega)
    (by unfold loopBound; split_ifs <;> omega) (by unfold loopBound; split_ifs <;> omega)]
  simp only [e]

/-- What the constructor of `x[arrays]` asks of the index arrays. -/
theorem indexers (h : Renames P f sizes' sizes) {fuel' fuel : Nat} : ∀ {slots : List Bool} {first' : Option Nat}
    {is' is : List (Nat × Info)}, (∀ i, first' = some i → P i ∧ i < fuel' ∧ f i < fuel) →
    List.Forall₂ (fun a b => b.1 = f a.1 ∧ (P a.1 ∧ a.1 < fuel' ∧ f a.1 < fuel) ∧ a.2.shapes = b.2.shapes ∧ a.2.claim = b.2.claim) is' is →
    Verif.indexers sizes fuel (first'.map f) slots is = Verif.indexers sizes' fuel' first' slots is' := by
  intro slots
  induction slots with
  | nil =>
    intro first' is' is hf hi
    cases hi with
    | nil => rfl
    | cons _ _ => rfl
  | cons b slots ih =>
    intro first' is' is hf hi
    cases b with
    | false =>
      simp only [Verif.indexers]
      rw [ih hf hi]
    | true =>
      cases hi with
      | nil => rfl
      | @cons p q is' is hpq hi =>
        obtain ⟨i', info'⟩ := p
        obtain ⟨i, info⟩ := q
        obtain ⟨rfl, hP, hs, hc⟩ := hpq
        simp only at hP hs hc ⊢
        have hg : (first'.map f).getD (f i') = f (first'.getD i') := by cases first' <;> rfl
        have hq : P (first'.getD i') ∧ first'.getD i' < fuel' ∧ f (first'.getD i') < fuel := by
          cases first' with
          | none => exact hP
          | some j => exact hf j rfl
        have he : Verif.shapeEqual sizes fuel (f (first'.getD i')) (f i') = Verif.shapeEqual sizes' fuel' (first'.getD i') i' :=
          h.shapeEqual hq.1 hP.1 hq.2.1 hP.2.1 hq.2.2 hP.2.2
        have hih := ih (first' := some (first'.getD i')) (fun j hj => by cases hj; exact hq) hi
        simp only [Verif.indexers, hg, hs, hc, he]
        rw [← hih]
        rfl

end Renames

end Verif
