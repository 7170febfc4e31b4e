import Verif.Lemmas.ArchiveChecked

set_option linter.unusedSectionVars false
set_option linter.unusedSimpArgs false
set_option linter.unusedVariables false

/-!
# Loading any file is a history of constructions
-/

namespace Verif

open Graph PyModel

namespace Draft

variable {decl : Symbols → Graph → Nat → Claim}

/-- A model that could have been built by a user without in-place additions. -/
def Buildable (decl : Symbols → Graph → Nat → Claim) (d : Draft) : Prop :=
  ∃ bops, Draft.new.run decl bops = .ok d ∧ Draft.NaryAccepted decl Draft.new bops ∧
    ∀ op ∈ bops, ∀ n p, op ≠ .addOperand n p

theorem buildable_new : Buildable decl Draft.new := ⟨[], rfl, trivial, by simp⟩

theorem run_snoc {op : BuildOp} (ops : List BuildOp) : ∀ {d0 d d' : Draft}, d0.run decl ops = .ok d →
    d.perform decl op = (d', .ok ()) → d0.run decl (ops ++ [op]) = .ok d' := by
  induction ops with
  | nil =>
    intro d0 d d' hr hp
    simp only [Draft.run, Res.ok.injEq] at hr
    subst hr
    simp only [List.nil_append, Draft.run, hp]
  | cons o ops ih =>
    intro d0 d d' hr hp
    simp only [Draft.run, List.cons_append] at hr ⊢
    generalize hq : d0.perform decl o = r at hr ⊢
    obtain ⟨d1, res⟩ := r
    cases res with
    | ok u => exact ih hr hp
    | ub => simp at hr
    | throw =>
      simp only at hr ⊢
      split at hr
      · simp at hr
      · simp at hr
      · exact ih hr hp

theorem accepted_snoc {op : BuildOp} (ops : List BuildOp) : ∀ {d0 d : Draft}, d0.run decl ops = .ok d →
    Draft.NaryAccepted decl d0 ops → (d.perform decl op).2 ≠ .throw → Draft.NaryAccepted decl d0 (ops ++ [op]) := by
  induction ops with
  | nil =>
    intro d0 d hr hn hp
    simp only [Draft.run, Res.ok.injEq] at hr
    subst hr
    exact ⟨fun _ _ _ _ => hp, trivial⟩
  | cons o ops ih =>
    intro d0 d hr hn hp
    refine ⟨hn.1, ?_⟩
    simp only [Draft.run] at hr
    have hn2 := hn.2
    generalize hq : d0.perform decl o = r at hr hn2 ⊢
    obtain ⟨d1, res⟩ := r
    cases res with
    | ok u => exact ih hr hn2 hp
    | ub => simp at hr
    | throw =>
      simp only at hr
      split at hr
      · simp at hr
      · simp at hr
      · exact ih hr hn2 hp

theorem Buildable.perform {d d' : Draft} (h : d.Buildable decl) {op : BuildOp} (hop : ∀ n p, op ≠ .addOperand n p)
    (hp : d.perform decl op = (d', .ok ())) : d'.Buildable decl := by
  obtain ⟨bops, h1, h2, h3⟩ := h
  refine ⟨bops ++ [op], run_snoc bops h1 hp, accepted_snoc bops h1 h2 (by rw [hp]; simp), ?_⟩
  intro o ho
  rcases List.mem_append.1 ho with ho | ho
  · exact h3 o ho
  · simp only [List.mem_singleton] at ho
    subst ho; exact hop

theorem must_ok {d d' : Draft} {op : BuildOp} (h : d.must decl op = .ok d') : d.perform decl op = (d', .ok ()) := by
  unfold must at h
  split at h
  · rename_i d1 u e
    simp only [Res.ok.injEq] at h
    subst h; exact e
  · simp at h
  · simp at h

theorem construct_ok {d d' : Draft} {k : Kind} {preds : List Nat} (h : d.construct decl k preds = .ok d') :
    ∃ a, d.perform decl (.construct a k preds) = (d', .ok ()) := by
  unfold construct at h
  obtain ⟨_, _, h⟩ := Res.bind_eq_ok.1 h
  refine ⟨d.m.g.nodes.length, ?_⟩
  split at h
  · rename_i d1 u e
    simp only [Res.ok.injEq] at h
    subst h; exact e
  · simp at h
  · simp at h

theorem Buildable.construct {d d' : Draft} (hb : d.Buildable decl) {k : Kind} {preds : List Nat}
    (h : d.construct decl k preds = .ok d') : d'.Buildable decl := by
  obtain ⟨a, ha⟩ := construct_ok h
  exact hb.perform (by simp) ha

theorem Buildable.loadPart {d d' : Draft} (hb : d.Buildable decl) {cls : ClassName} {i : Int} {preds : List Nat}
    (h : d.loadPart decl cls i preds = .ok d') : d'.Buildable decl := by
  unfold Draft.loadPart at h
  obtain ⟨_, _, h⟩ := Res.bind_eq_ok.1 h
  obtain ⟨_, _, h⟩ := Res.bind_eq_ok.1 h
  obtain ⟨_, _, h⟩ := Res.bind_eq_ok.1 h
  obtain ⟨_, _, h⟩ := Res.bind_eq_ok.1 h
  split_ifs at h
  · exact hb.construct h
  · simp only [Res.ok.injEq] at h; exact h ▸ hb

theorem Buildable.loadSymbol {d d' : Draft} (hb : d.Buildable decl) {cls : ClassName} {pay : Payload}
    {preds : List Nat} (h : d.loadSymbol decl cls pay preds = .ok d') : d'.Buildable decl ∧ cls ≠ .unknown := by
  unfold Draft.loadSymbol at h
  split at h
  · exact ⟨hb.loadPart h, by simp⟩
  · exact ⟨hb.loadPart h, by simp⟩
  · obtain ⟨k, hk, h⟩ := Res.bind_eq_ok.1 h
    refine ⟨hb.construct h, ?_⟩
    rintro rfl
    simp [loadKind] at hk

theorem operands_fit {d : Draft} {i : Int} {ids : List Int} : ∀ {preds : List Nat},
    ids.mapM (d.loadOperand i) = .ok preds → ∀ p ∈ ids, 0 ≤ p ∧ p < i := by
  induction ids with
  | nil => simp
  | cons p ids ih =>
    intro preds h3
    rw [List.mapM_cons] at h3
    obtain ⟨x, hx, h3⟩ := Res.bind_eq_ok.1 h3
    obtain ⟨y, hy, _⟩ := Res.bind_eq_ok.1 h3
    intro q hq
    rcases List.mem_cons.1 hq with rfl | hq
    · unfold loadOperand at hx
      obtain ⟨_, hx, _⟩ := Res.bind_eq_ok.1 hx
      exact guardThrow_eq_ok.1 hx
    · exact ih hy q hq

/-- A line that is accepted. -/
theorem Buildable.loadLine {d d' : Draft} (hb : d.Buildable decl) {payload : Nat → Payload}
    {l : (ClassName × List Char) × Nat} (h : d.loadLine decl payload l = .ok d') :
    d'.Buildable decl ∧ l.1.1 ≠ .unknown ∧
      ∃ ids, parseLine l.1.2 = some ((l.2 : Int) :: ids) ∧ ∀ p ∈ ids, 0 ≤ p ∧ p < l.2 := by
  unfold Draft.loadLine at h
  obtain ⟨ids, h1, h⟩ := Res.bind_eq_ok.1 h
  obtain ⟨_, h2, h⟩ := Res.bind_eq_ok.1 h
  obtain ⟨preds, h3, h⟩ := Res.bind_eq_ok.1 h
  obtain ⟨h4, h5⟩ := hb.loadSymbol h
  refine ⟨h4, h5, ?_⟩
  have h2 := guardThrow_eq_ok.1 h2
  have h1 : parseLine l.1.2 = some ids := by
    cases hp : parseLine l.1.2 with
    | none => rw [hp] at h1; simp [orThrow] at h1
    | some x => rw [hp] at h1; simpa [orThrow] using h1
  cases ids with
  | nil => simp at h2
  | cons i ids =>
    simp only [List.headD_cons] at h2
    subst h2
    refine ⟨ids, h1, ?_⟩
    simp only [List.headD_cons, List.tail_cons] at h3
    exact operands_fit h3

theorem Buildable.loadLines {payload : Nat → Payload} (ls : List ((ClassName × List Char) × Nat)) :
    ∀ {d d' : Draft}, d.Buildable decl → ls.foldlM (Draft.loadLine decl payload) d = .ok d' →
    d'.Buildable decl ∧ ∀ l ∈ ls, l.1.1 ≠ .unknown ∧
      ∃ ids, parseLine l.1.2 = some ((l.2 : Int) :: ids) ∧ ∀ p ∈ ids, 0 ≤ p ∧ p < l.2 := by
  induction ls with
  | nil =>
    intro d d' hb h
    have h : (Res.ok d : Res Draft) = .ok d' := h
    simp only [Res.ok.injEq] at h
    exact ⟨h ▸ hb, by simp⟩
  | cons l ls ih =>
    intro d d' hb h
    rw [List.foldlM_cons] at h
    obtain ⟨d1, h1, h⟩ := Res.bind_eq_ok.1 h
    obtain ⟨b1, hl⟩ := hb.loadLine h1
    obtain ⟨b2, hls⟩ := ih b1 h
    refine ⟨b2, fun x hx => ?_⟩
    rcases List.mem_cons.1 hx with rfl | hx
    · exact hl
    · exact hls x hx

theorem Buildable.loadObjective {d d' : Draft} (hb : d.Buildable decl) {o : Option Int}
    (h : d.loadObjective decl o = .ok d') : d'.Buildable decl := by
  cases o with
  | none => simp only [Draft.loadObjective, Res.ok.injEq] at h; exact h ▸ hb
  | some i =>
    simp only [Draft.loadObjective] at h
    obtain ⟨_, _, h⟩ := Res.bind_eq_ok.1 h
    obtain ⟨_, _, h⟩ := Res.bind_eq_ok.1 h
    obtain ⟨_, _, h⟩ := Res.bind_eq_ok.1 h
    exact hb.perform (by simp) (must_ok h)

theorem Buildable.loadConstraints (cs : List Int) : ∀ {d d' : Draft}, d.Buildable decl →
    cs.foldlM (Draft.loadConstraint decl) d = .ok d' → d'.Buildable decl := by
  induction cs with
  | nil =>
    intro d d' hb h
    have h : (Res.ok d : Res Draft) = .ok d' := h
    simp only [Res.ok.injEq] at h
    exact h ▸ hb
  | cons c cs ih =>
    intro d d' hb h
    rw [List.foldlM_cons] at h
    obtain ⟨d1, h1, h⟩ := Res.bind_eq_ok.1 h
    refine ih ?_ h
    unfold Draft.loadConstraint at h1
    obtain ⟨_, _, h1⟩ := Res.bind_eq_ok.1 h1
    obtain ⟨_, _, h1⟩ := Res.bind_eq_ok.1 h1
    exact hb.perform (by simp) (must_ok h1)

theorem loaded_buildable {a : Archive} {check : Bool} {l : Loaded} (h : a.load decl check = .ok l) :
    l.d.Buildable decl ∧ (∀ x ∈ (a.types.zip (splitLines a.adj)).zipIdx, x.1.1 ≠ .unknown ∧
      ∃ ids, parseLine x.1.2 = some ((x.2 : Int) :: ids) ∧ ∀ p ∈ ids, 0 ≤ p ∧ p < x.2) ∧
      (check = true → l.d.headerData false l.numStates = .ok a.header) := by
  unfold Archive.load at h
  obtain ⟨_, _, h⟩ := Res.bind_eq_ok.1 h
  obtain ⟨d1, h1, h⟩ := Res.bind_eq_ok.1 h
  obtain ⟨d2, h2, h⟩ := Res.bind_eq_ok.1 h
  obtain ⟨d3, h3, h⟩ := Res.bind_eq_ok.1 h
  obtain ⟨_, _, h⟩ := Res.bind_eq_ok.1 h
  obtain ⟨st, _, h⟩ := Res.bind_eq_ok.1 h
  obtain ⟨b1, hl⟩ := Buildable.loadLines _ buildable_new h1
  have b3 := Buildable.loadConstraints _ (b1.loadObjective h2) h3
  cases check with
  | false =>
    rw [if_neg (by simp)] at h
    simp only [Res.ok.injEq] at h
    subst h
    exact ⟨b3, hl, by simp⟩
  | true =>
    rw [if_pos rfl] at h
    obtain ⟨hd, hh, h⟩ := Res.bind_eq_ok.1 h
    obtain ⟨_, hg, h⟩ := Res.bind_eq_ok.1 h
    simp only [Res.ok.injEq] at h
    subst h
    have hg := guardThrow_eq_ok.1 hg
    exact ⟨b3, hl, fun _ => hg ▸ hh⟩

/-- A model without in-place additions can always be sorted. -/
theorem Sequential.sorts {g : Graph} (h : Sequential g) (w : g.WF) (hs : g.sorted = false) :
    ∃ g', g.topologicalSort = .ok g' := by
  rcases w.sort_spec hs with ⟨g', e, _⟩ | ⟨_, v, hv, hc⟩
  · exact ⟨g', e⟩
  · exfalso
    have hstep : ∀ a ∈ g.nodes, ∀ b ∈ g.succsOf a, g.nodes.idxOf a < g.nodes.idxOf b := fun a ha b hb =>
      have hbn := w.succMem a ha b hb
      h.rank w hbn ((w.mem_link ha hbn).1 hb)
    have key : ∀ a b, ReachesPlus g.succsOf a b → a ∈ g.nodes → b ∈ g.nodes ∧ g.nodes.idxOf a < g.nodes.idxOf b := by
      intro a b hab
      induction hab with
      | single hb => intro ha; exact ⟨w.succMem _ ha _ hb, hstep _ ha _ hb⟩
      | tail _ hb ih =>
        intro ha
        obtain ⟨h1, h2⟩ := ih ha
        exact ⟨w.succMem _ h1 _ hb, lt_trans h2 (hstep _ h1 _ hb)⟩
    exact absurd (key v v hc hv).2 (lt_irrefl _)

end Draft
end Verif
