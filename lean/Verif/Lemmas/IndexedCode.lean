import Verif.Model.IndexedCode
import Verif.Lemmas.GetitemNow
import Verif.Lemmas.ExpressionStatements
import Verif.Props.Getitem

/-! Helper lemmas: code with indexing builds a program. -/

namespace Verif

open MixedIndex Script

/-- `r` has been made from `s` by further steps. -/
structure Script.Grows (s r : Script) : Prop where
  pre : s <+: r
  steps : ∀ steps, Script.run steps = .ok s → ∃ more, Script.run (steps ++ more) = .ok r

namespace Script.Grows

theorem refl (s : Script) : s.Grows s := ⟨List.prefix_refl _, fun steps h => ⟨[], by rw [List.append_nil]; exact h⟩⟩

theorem trans {s r q : Script} (h : s.Grows r) (h' : r.Grows q) : s.Grows q := by
  refine ⟨h.pre.trans h'.pre, fun steps hs => ?_⟩
  obtain ⟨m1, h1⟩ := h.steps steps hs
  obtain ⟨m2, h2⟩ := h'.steps _ h1
  exact ⟨m1 ++ m2, by rw [← List.append_assoc]; exact h2⟩

theorem add {s : Script} {u : Term} {ops : List Nat} {r : Script × Nat} (h : s.add u ops = .ok r) : s.Grows r.1 := by
  obtain ⟨s', j⟩ := r
  refine ⟨(add_made h (List.prefix_refl _)).2.1, fun steps hs => ⟨[(u, ops)], ?_⟩⟩
  unfold Script.run at hs ⊢
  rw [List.foldlM_append, hs, Res.ok_bind]
  simp only [List.foldlM_cons, List.foldlM_nil, h, Res.ok_bind]
  rfl

theorem getitem {s : Script} {x : Nat} {idx : List PyIndex} {r : Script × Nat} (h : s.getitem x idx = .ok r) : s.Grows r.1 := by
  obtain ⟨s', j⟩ := r
  refine ⟨?_, fun steps hs => ?_⟩
  · unfold Script.getitem at h
    split at h
    · exact (add h).pre
    · unfold Script.getitemArray Script.basicIndexing Script.advancedIndexing at h
      dsimp only at h
      split at h
      · obtain ⟨_, _, h⟩ := Res.bind_eq_ok.1 h
        exact (add h).pre
      · split at h
        · exact (add h).pre
        · obtain ⟨r, _, h⟩ := Res.bind_eq_ok.1 h
          obtain ⟨b, hb, h⟩ := Res.bind_eq_ok.1 h
          obtain ⟨_, _, hb⟩ := Res.bind_eq_ok.1 hb
          exact (add hb).pre.trans (add h).pre
  · obtain ⟨_, more, _, h⟩ := C58_steps hs h
    exact ⟨more, h⟩

end Script.Grows

namespace Code

theorem lookup_eq {s : Code} {x a : Nat} (h : s.lookup x = .ok a) : s.names x = some a := by
  unfold lookup at h
  cases hx : s.names x with
  | none => rw [hx] at h; cases h
  | some b =>
    rw [hx] at h
    rw [Res.ok.inj h]

theorem lookups_eq {s : Code} : ∀ {xs as : List Nat}, xs.mapM s.lookup = .ok as → List.Forall₂ (fun x a => s.names x = some a) xs as
  | [], as, h => by
    rw [← Res.ok.inj h]
    exact .nil
  | x :: xs, as, h => by
    rw [List.mapM_cons] at h
    simp only [Res.bind_eq_ok] at h
    obtain ⟨a, ha, as', has, h⟩ := h
    rw [← Res.ok.inj h]
    exact .cons (lookup_eq ha) (lookups_eq has)

theorem index_eq {s : Code} : ∀ {idx is : List PyIndex}, idx.mapM s.index = .ok is →
    is.map PyIndex.mixed = idx.map PyIndex.mixed ∧
      List.Forall₂ (fun x a => s.names x = some a) (PyIndex.symbols idx) (PyIndex.symbols is)
  | [], is, h => by
    rw [← Res.ok.inj h]
    exact ⟨rfl, .nil⟩
  | i :: idx, is, h => by
    rw [List.mapM_cons] at h
    simp only [Res.bind_eq_ok] at h
    obtain ⟨i', hi, is', his, h⟩ := h
    rw [← Res.ok.inj h]
    obtain ⟨e, f⟩ := index_eq his
    cases i with
    | symbol x =>
      simp only [index, Res.bind_eq_ok] at hi
      obtain ⟨a, ha, hi⟩ := hi
      rw [← Res.ok.inj hi]
      exact ⟨by rw [List.map_cons, List.map_cons, e]; rfl, .cons (lookup_eq ha) f⟩
    | int n =>
      rw [← Res.ok.inj hi]
      exact ⟨by rw [List.map_cons, List.map_cons, e], f⟩
    | slice a b c =>
      rw [← Res.ok.inj hi]
      exact ⟨by rw [List.map_cons, List.map_cons, e], f⟩
    | other =>
      rw [← Res.ok.inj hi]
      exact ⟨by rw [List.map_cons, List.map_cons, e], f⟩

theorem call_grows {s : Code} {c : PyCall} {r : Script × Nat} (h : s.call c = .ok r) : s.M.rows.Grows r.1 := by
  cases c <;> simp only [call, Res.bind_eq_ok] at h
  case constant => exact .add h
  case decision => obtain ⟨_, _, h⟩ := h; exact .add h
  case name => obtain ⟨_, _, h⟩ := h; rw [← Res.ok.inj h]; exact .refl _
  case unary => obtain ⟨_, _, h⟩ := h; exact .add h
  case binary => obtain ⟨_, _, _, _, h⟩ := h; exact .add h
  case nary => obtain ⟨_, _, h⟩ := h; exact .add h
  case power =>
    obtain ⟨_, _, h⟩ := h
    split_ifs at h
    · rw [← Res.ok.inj h]; exact .refl _
    · exact .add h
    · simp only [Res.bind_eq_ok] at h
      obtain ⟨_, _, _, _, h⟩ := h
      exact .add h
  case reduce => obtain ⟨_, _, h⟩ := h; exact .add h
  case sumAxis => obtain ⟨_, _, _, _, h⟩ := h; exact .add h
  case reshape => obtain ⟨_, _, h⟩ := h; exact .add h
  case where_ => obtain ⟨_, _, _, _, _, _, h⟩ := h; exact .add h

theorem outputs_grows {main : Nat} : ∀ {vs : List Nat} {i : Nat} {r q : Script × (Nat → Option Nat)},
    outputs main i vs r = .ok q → r.1.Grows q.1
  | [], i, r, q, h => by rw [← Res.ok.inj h]; exact .refl _
  | v :: vs, i, r, q, h => by
    simp only [outputs, Res.bind_eq_ok] at h
    obtain ⟨p, hp, h⟩ := h
    exact (Script.Grows.add hp).trans (outputs_grows h)

/-- Objective and constraints passed their checks, and the symbols can be made by a program. -/
structure Checked (M : Generated) : Prop where
  steps : ∃ steps, Script.run steps = .ok M.rows
  objective : ∀ o ∈ M.objective, o < M.rows.length ∧ sizeOne (M.rows.row o).out.shape = true
  constraints : ∀ c ∈ M.constraints, c < M.rows.length ∧ sizeOne (M.rows.row c).out.shape = true ∧
    ∃ cl, (M.rows.row c).out.claim = .ok cl ∧ cl.logical = true

theorem Checked.grow {M : Generated} (h : Checked M) {r : Script} (hr : M.rows.Grows r) : Checked { M with rows := r } := by
  obtain ⟨steps, hs⟩ := h.steps
  obtain ⟨more, hm⟩ := hr.steps steps hs
  refine ⟨⟨_, hm⟩, fun o ho => ?_, fun c hc => ?_⟩
  · obtain ⟨h1, h2⟩ := h.objective o ho
    exact ⟨lt_of_lt_of_le h1 hr.pre.length_le, by rw [row_prefix hr.pre h1]; exact h2⟩
  · obtain ⟨h1, h2⟩ := h.constraints c hc
    exact ⟨lt_of_lt_of_le h1 hr.pre.length_le, by rw [row_prefix hr.pre h1]; exact h2⟩

theorem Checked.program {M : Generated} (h : Checked M) : ∃ p : Program, p.run = .ok M := by
  obtain ⟨steps, hs⟩ := h.steps
  refine ⟨⟨steps, M.objective, M.constraints⟩, ?_⟩
  have key : ∀ (cs cs' : List Nat), (∀ c ∈ cs, c < M.rows.length ∧ sizeOne (M.rows.row c).out.shape = true ∧
      ∃ cl, (M.rows.row c).out.claim = .ok cl ∧ cl.logical = true) →
      cs.foldlM Generated.addConstraint ⟨M.rows, M.objective, cs'⟩ = .ok ⟨M.rows, M.objective, cs' ++ cs⟩ := by
    intro cs
    induction cs with
    | nil => intro cs' _; rw [List.append_nil]; rfl
    | cons c cs ih =>
      intro cs' hc
      obtain ⟨h1, h2, cl, h3, h4⟩ := hc c (by simp)
      have e : Generated.addConstraint ⟨M.rows, M.objective, cs'⟩ c = .ok ⟨M.rows, M.objective, cs' ++ [c]⟩ := by
        unfold Generated.addConstraint
        rw [guardUB_true h1, Res.ok_bind, h3, Res.ok_bind, guardThrow_true h4, Res.ok_bind, guardThrow_true h2, Res.ok_bind]
      rw [List.foldlM_cons, e, Res.ok_bind, ih _ fun c hc' => hc c (by simp [hc']), List.append_assoc]
      rfl
  have ho : M.rows.withObjective M.objective = .ok ⟨M.rows, M.objective, []⟩ := by
    cases hm : M.objective with
    | none => rfl
    | some o =>
      obtain ⟨h1, h2⟩ := h.objective o (by rw [hm]; rfl)
      show Generated.minimize ⟨M.rows, none, []⟩ o = _
      unfold Generated.minimize
      rw [guardUB_true h1, Res.ok_bind, guardThrow_true h2, Res.ok_bind]
  unfold Program.run
  dsimp only
  rw [hs, Res.ok_bind, ho, Res.ok_bind, key _ _ h.constraints]
  rfl

theorem minimize_eq {M M' : Generated} {a : Nat} (h : M.minimize a = .ok M') :
    M' = { M with objective := some a } ∧ a < M.rows.length ∧ sizeOne (M.rows.row a).out.shape = true := by
  unfold Generated.minimize at h
  simp only [Res.bind_eq_ok] at h
  obtain ⟨_, h1, _, h2, h⟩ := h
  exact ⟨(Res.ok.inj h).symm, guardUB_eq_ok.1 h1, guardThrow_eq_ok.1 h2⟩

theorem addConstraint_eq {M M' : Generated} {a : Nat} (h : M.addConstraint a = .ok M') :
    M' = { M with constraints := M.constraints ++ [a] } ∧ a < M.rows.length ∧ sizeOne (M.rows.row a).out.shape = true ∧
      ∃ cl, (M.rows.row a).out.claim = .ok cl ∧ cl.logical = true := by
  unfold Generated.addConstraint at h
  simp only [Res.bind_eq_ok] at h
  obtain ⟨_, h1, cl, h2, _, h3, _, h4, h⟩ := h
  exact ⟨(Res.ok.inj h).symm, guardUB_eq_ok.1 h1, guardThrow_eq_ok.1 h4, cl, h2, guardThrow_eq_ok.1 h3⟩

theorem disjoint_eq {s s' : Code} {k : Kind} {vs : List Nat} (h : s.disjoint k vs = .ok s') :
    ∃ r q, s.M.rows.add (.kind k) [] = .ok r ∧ outputs r.2 0 vs (r.1, s.names) = .ok q ∧
      s' = ⟨{ s.M with rows := q.1 }, q.2, s.made ++ [r.2]⟩ := by
  simp only [disjoint, Res.bind_eq_ok] at h
  obtain ⟨r, hr, q, hq, h⟩ := h
  exact ⟨r, q, hr, hq, (Res.ok.inj h).symm⟩

/-- A statement adds symbols, or changes objective or constraints. -/
theorem step_grows {s s' : Code} {p : CodeStmt} (h : s.step p = .ok s') :
    s.M.rows.Grows s'.M.rows ∧ (∃ a, s'.made = s.made ++ [a]) ∧ (Checked s.M → Checked s'.M) := by
  have bound : ∀ {v : Nat} {r : Script × Nat}, s.M.rows.Grows r.1 → s.M.rows.Grows (s.bind v r).M.rows ∧
      (∃ a, (s.bind v r).made = s.made ++ [a]) ∧ (Checked s.M → Checked (s.bind v r).M) :=
    fun hr => ⟨hr, ⟨_, rfl⟩, fun hc => hc.grow hr⟩
  have parts : ∀ {k : Kind} {vs : List Nat}, s.disjoint k vs = .ok s' → s.M.rows.Grows s'.M.rows ∧
      (∃ a, s'.made = s.made ++ [a]) ∧ (Checked s.M → Checked s'.M) := by
    intro k vs h
    obtain ⟨r, q, hr, hq, rfl⟩ := disjoint_eq h
    have hg := (Script.Grows.add hr).trans (outputs_grows hq)
    exact ⟨hg, ⟨_, rfl⟩, fun hc => hc.grow hg⟩
  cases p <;> simp only [step, inplace, Res.bind_eq_ok] at h
  case assign =>
    obtain ⟨r, hr, h⟩ := h
    rw [← Res.ok.inj h]
    exact bound (call_grows hr)
  case getitem =>
    obtain ⟨_, _, _, _, r, hr, h⟩ := h
    rw [← Res.ok.inj h]
    exact bound (.getitem hr)
  case size =>
    obtain ⟨_, _, _, _, r, hr, h⟩ := h
    rw [← Res.ok.inj h]
    exact bound (.add hr)
  case disjointLists => exact parts h
  case disjointBitSets => exact parts h
  case iadd =>
    obtain ⟨_, _, _, _, _, _, r, hr, h⟩ := h
    rw [← Res.ok.inj h]
    exact bound (.add hr)
  case imul =>
    obtain ⟨_, _, _, _, _, _, r, hr, h⟩ := h
    rw [← Res.ok.inj h]
    exact bound (.add hr)
  case minimize =>
    obtain ⟨a, _, M, hM, h⟩ := h
    rw [← Res.ok.inj h]
    obtain ⟨rfl, h1, h2⟩ := minimize_eq hM
    refine ⟨.refl _, ⟨_, rfl⟩, fun hc => ⟨hc.steps, fun o ho => ?_, hc.constraints⟩⟩
    rw [Option.mem_def] at ho
    rw [← Option.some.inj ho]
    exact ⟨h1, h2⟩
  case constraint =>
    obtain ⟨a, _, M, hM, h⟩ := h
    rw [← Res.ok.inj h]
    obtain ⟨rfl, h1, h2⟩ := addConstraint_eq hM
    refine ⟨.refl _, ⟨_, rfl⟩, fun hc => ⟨hc.steps, hc.objective, fun c hcm => ?_⟩⟩
    rcases List.mem_append.1 hcm with hcm | hcm
    · exact hc.constraints c hcm
    · rw [List.mem_singleton.1 hcm]
      exact ⟨h1, h2⟩

theorem run_grows : ∀ {ps : List CodeStmt} {s s' : Code}, s.run ps = .ok s' →
    s.M.rows.Grows s'.M.rows ∧ s.made <+: s'.made ∧ s'.made.length = s.made.length + ps.length ∧ (Checked s.M → Checked s'.M)
  | [], s, s', h => by
    rw [← Res.ok.inj h]
    exact ⟨.refl _, List.prefix_refl _, rfl, id⟩
  | p :: ps, s, s', h => by
    simp only [run, Res.bind_eq_ok] at h
    obtain ⟨s1, h1, h⟩ := h
    obtain ⟨k1, ⟨a, k2⟩, k3⟩ := step_grows h1
    obtain ⟨g1, g2, g3, g4⟩ := run_grows h
    refine ⟨k1.trans g1, ?_, ?_, fun hc => g4 (k3 hc)⟩
    · refine List.IsPrefix.trans ?_ g2
      rw [k2]
      exact List.prefix_append _ _
    · rw [g3, k2]
      simp
      omega

end Code
end Verif
