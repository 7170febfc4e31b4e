import Verif.Lemmas.ExpressionStatements

set_option linter.unusedSimpArgs false
set_option linter.unusedVariables false

/-!
# C62: Python code with symbols computes what NumPy computes
-/

namespace Verif

open Graph PyModel

namespace Py.Follows

variable {s : Py} {N : Names} {ps : List PyStmt} {decl : Symbols → Graph → Nat → Claim}

/-- The model is told which symbols are objective and constraints. -/
theorem told (h : s.Follows N ps) {op : ModelOp} {m : PyModel} (hst : s.d.m.step op = .ok m) {v a : Nat}
    (hop : op = .minimize a ∨ op = .addConstraint a) (ha : s.names v = some a) {p : PyStmt}
    (hn : ∀ given w b, w.env v = some b → p.numpy given w =
      some (if op = .minimize a then { w with objective := some b } else { w with constraints := w.constraints ++ [b] })) :
    (({ s with d := { s.d with m := m } } : Py)).Follows (N.use [v]) (ps ++ [p]) := by
  have hlen : (ps ++ [p]).length = ps.length + 1 := by simp
  have key : m.g.nodes = s.d.m.g.nodes ∧ m.g.mem = s.d.m.g.mem ∧
      m.g.objective = (if op = .minimize a then some a else s.d.m.g.objective) ∧
      m.g.constraints = (if op = .minimize a then s.d.m.g.constraints else s.d.m.g.constraints ++ [a]) := by
    rcases hop with rfl | rfl
    · simp only [PyModel.step, setObjective, Res.bind_eq_ok, Res.ok.injEq] at hst
      obtain ⟨g, ⟨_, _, _, _, rfl⟩, rfl⟩ := hst
      exact ⟨rfl, rfl, by rw [if_pos rfl], by rw [if_pos rfl]⟩
    · simp only [PyModel.step, Graph.addConstraint, Res.bind_eq_ok, Res.ok.injEq] at hst
      obtain ⟨g, ⟨_, _, _, _, _, _, rfl⟩, rfl⟩ := hst
      exact ⟨rfl, rfl, by rw [if_neg (by simp)], by rw [if_neg (by simp)]⟩
  obtain ⟨hnodes, hmem, hobj, hcon⟩ := key
  have hmade : Draft.Made { s.d with m := m } := h.made.onModel (op := op) (by unfold Draft.onModel; rw [hst]) (by
    rcases hop with rfl | rfl
    · exact .inl ⟨a, rfl⟩
    · exact .inr (.inl ⟨a, rfl⟩))
  refine ⟨hmade, ?_, ?_, ?_, ?_, h.sums, h.products, ?_⟩
  · intro u hu
    rw [hlen]
    have := h.below u (hnodes ▸ hu)
    omega
  · intro x b hx
    show b ∈ m.g.nodes
    rw [hnodes]
    exact h.named x b hx
  · intro u hu
    exact h.arrays u (hnodes ▸ hu)
  · intro u b hf hu
    simp only [Names.use, Bool.and_eq_true, Bool.not_eq_true', decide_eq_false_iff_not, List.mem_singleton] at hf
    obtain ⟨h1, h2, h3, h4⟩ := h.fresh u b hf.1 hu
    have hne : b ≠ a := fun e => hf.2 (h2 v (e ▸ ha)).symm
    show (∀ u ∈ m.g.nodes, b ∉ (m.g.mem u).preds) ∧ _ ∧ b ∉ m.g.objective ∧ b ∉ m.g.constraints
    rw [hnodes, hmem, hobj, hcon]
    refine ⟨h1, h2, ?_, ?_⟩
    · split_ifs
      · exact fun e => hne (Option.some.inj e).symm
      · exact h3
    · split_ifs
      · exact h4
      · simp [h4, hne]
  · intro vals choice hv hc
    have hv' : s.d.Holds vals := by
      intro u hu
      have g := hv u (by show u ∈ m.g.nodes; rw [hnodes]; exact hu)
      have e : s.d.S.inShapes m.g u = s.d.S.inShapes s.d.m.g u := by unfold Symbols.inShapes; rw [hmem]
      have g3 := g.regular
      have g4 := g.plain
      have g5 := g.value
      simp only [Symbols.sem] at g3 g4 g5
      rw [e] at g3 g4 g5
      rw [hmem] at g5
      exact ⟨g.shapes, g.good, g3, g.given, g4, g5⟩
    obtain ⟨w, hw, sh⟩ := h.value vals choice hv' fun u hu hk => hc u (by show u ∈ m.g.nodes; rw [hnodes]; exact hu) hk
    have hb := sh.get ha
    refine ⟨_, by rw [numpyRun_append, hw]; exact hn _ w _ hb, ?_, ?_, ?_⟩
    · intro u
      split_ifs <;> exact sh.env u
    · show _ = m.g.objective.map _
      rw [hobj]
      split_ifs
      · rfl
      · exact sh.objective
    · show _ = m.g.constraints.map _
      rw [hcon]
      split_ifs
      · exact sh.constraints
      · show w.constraints ++ _ = _
        rw [sh.constraints, List.map_append]
        rfl

theorem _root_.Verif.Py.tell_ok {op : BuildOp} {s' : Py} (h : s.tell decl op = .ok s') :
    s.d.perform decl op = (s'.d, .ok ()) ∧ s'.names = s.names := by
  unfold Py.tell at h
  split at h
  · rename_i d u hd
    injection h with h
    rw [hd, ← h]
    exact ⟨rfl, rfl⟩
  · cases h
  · cases h

theorem _root_.Verif.Draft.onModel_ok {d d' : Draft} {op : ModelOp} (h : d.onModel op = (d', .ok ())) :
    ∃ m, d.m.step op = .ok m ∧ d' = { d with m := m } := by
  unfold Draft.onModel at h
  cases hst : d.m.step op with
  | throw => rw [hst] at h; simp at h
  | ub => rw [hst] at h; simp at h
  | ok m =>
    rw [hst] at h
    simp only [Prod.mk.injEq, and_true] at h
    exact ⟨m, rfl, h.symm⟩

theorem statement (h : s.Follows N ps) {p : PyStmt} {s' : Py} {N' : Names} (he : s.step decl ps.length p = .ok s')
    (hN : N.step p = some N') : s'.Follows N' (ps ++ [p]) := by
  cases p with
  | assign v c =>
    simp only [Py.step, Res.bind_eq_ok, Res.ok.injEq] at he
    obtain ⟨r, he, rfl⟩ := he
    exact h.call he hN
  | iadd v x =>
    simp only [Py.step, Res.bind_eq_ok, Res.ok.injEq] at he
    obtain ⟨a, hv, b, hx, r, he, rfl⟩ := he
    have hv := Py.lookup_ok hv
    have hx := Py.lookup_ok hx
    have he := Py.ended_ok he
    unfold Draft.iadd at he
    have numpy : ∀ given (w : NumPy) c c' z, w.env v = some c → w.env x = some c' → numpyZip NaryOp.add.numpy c c' = some z →
        (PyStmt.iadd v x).numpy given w = some { w with env := fun u => if u = v then some z else w.env u } := by
      intro given w c c' z h1 h2 h3
      have : (PyCall.binary .add v x).numpy given w.env = some z := by
        show (w.env v).bind _ = _
        rw [h1]
        show (w.env x).bind _ = _
        rw [h2]
        exact h3
      show ((PyCall.binary .add v x).numpy given w.env).bind _ = _
      rw [this]
      rfl
    by_cases hk : s.d.S.kind a = .nary .add
    · have hs := (h.sums v a hv).1 hk
      simp only [Names.step, hs, if_true] at hN
      split_ifs at hN with hc
      injection hN with hN
      subst hN
      rw [hk] at he
      obtain ⟨he, hr⟩ := Draft.andThen_ok he
      have := h.extend hv hx hc.1 hc.2 hk (Draft.extended_add h.made he) numpy
      rw [← hr] at this
      exact this
    · have hs : N.sum v = false := by
        cases hs : N.sum v with
        | false => rfl
        | true => exact absurd ((h.sums v a hv).2 hs) hk
      simp only [Names.step, hs, Bool.false_eq_true, if_false, Option.some.injEq] at hN
      subst hN
      have he : Draft.andThen (s.d.perform decl (.construct ps.length (.nary .add) [a, b])) ps.length = (r.1, .ok r.2) := by
        rw [← he]
        split
        · rename_i hk'
          exact absurd hk' hk
        · rfl
      obtain ⟨he, hr⟩ := Draft.andThen_ok he
      have hg := Draft.grown_construct h.made rfl (fun _ => by simp) he
      have : r = (r.1, ps.length) := by rw [← hr]
      rw [this]
      refine h.grow hg (by simp [hv, hx]) (by simp) (by simp) fun vals given w h1 h2 h3 h4 => ?_
      refine numpy _ w _ _ _ (h3.get hv) (h3.get hx) ?_
      obtain ⟨out, hm, _, _, _, _, hval⟩ := hg.value h1 rfl
      have sa := h.shown h2 (h.named v a hv)
      have sb := h.shown h2 (h.named x b hx)
      generalize single (vals a) = X at sa
      generalize single (vals b) = Y at sb
      have e1 : [a, b].map s.d.S.shapes = [X, Y].map fun z => [z.shape] := by
        simp only [List.map_cons, List.map_nil, sa.shape, sb.shape]
      have e2 : [a, b].map vals = [X, Y].map fun z => [z] := by
        simp only [List.map_cons, List.map_nil, sa.value, sb.value]
      rw [e1] at hm hval
      rw [e2] at hval
      obtain ⟨hz, _⟩ := nary_call (ys := [Y]) (by
        intro z hz
        simp only [List.mem_cons, List.not_mem_nil, or_false] at hz
        rcases hz with rfl | rfl
        · exact sa.fine
        · exact sb.fine) hm
      rw [hval, ← hz]
      simp only [List.map_cons, List.map_nil, List.foldlM_cons, List.foldlM_nil]
      cases numpyZip NaryOp.add.numpy X.present Y.present <;> rfl
  | imul v x =>
    simp only [Py.step, Res.bind_eq_ok, Res.ok.injEq] at he
    obtain ⟨a, hv, b, hx, r, he, rfl⟩ := he
    have hv := Py.lookup_ok hv
    have hx := Py.lookup_ok hx
    have he := Py.ended_ok he
    unfold Draft.imul at he
    have numpy : ∀ given (w : NumPy) c c' z, w.env v = some c → w.env x = some c' → numpyZip NaryOp.multiply.numpy c c' = some z →
        (PyStmt.imul v x).numpy given w = some { w with env := fun u => if u = v then some z else w.env u } := by
      intro given w c c' z h1 h2 h3
      have : (PyCall.binary .multiply v x).numpy given w.env = some z := by
        show (w.env v).bind _ = _
        rw [h1]
        show (w.env x).bind _ = _
        rw [h2]
        exact h3
      show ((PyCall.binary .multiply v x).numpy given w.env).bind _ = _
      rw [this]
      rfl
    by_cases hk : s.d.S.kind a = .nary .multiply
    · have hs := (h.products v a hv).1 hk
      simp only [Names.step, hs, if_true] at hN
      split_ifs at hN with hc
      injection hN with hN
      subst hN
      rw [hk] at he
      obtain ⟨he, hr⟩ := Draft.andThen_ok he
      have := h.extend hv hx hc.1 hc.2 hk (Draft.extended_add h.made he) numpy
      rw [← hr] at this
      exact this
    · have hs : N.product v = false := by
        cases hs : N.product v with
        | false => rfl
        | true => exact absurd ((h.products v a hv).2 hs) hk
      simp only [Names.step, hs, Bool.false_eq_true, if_false, Option.some.injEq] at hN
      subst hN
      have he : Draft.andThen (s.d.perform decl (.construct ps.length (.nary .multiply) [a, b])) ps.length = (r.1, .ok r.2) := by
        rw [← he]
        split
        · rename_i hk'
          exact absurd hk' hk
        · rfl
      obtain ⟨he, hr⟩ := Draft.andThen_ok he
      have hg := Draft.grown_construct h.made rfl (fun _ => by simp) he
      have : r = (r.1, ps.length) := by rw [← hr]
      rw [this]
      refine h.grow hg (by simp [hv, hx]) (by simp) (by simp) fun vals given w h1 h2 h3 h4 => ?_
      refine numpy _ w _ _ _ (h3.get hv) (h3.get hx) ?_
      obtain ⟨out, hm, _, _, _, _, hval⟩ := hg.value h1 rfl
      have sa := h.shown h2 (h.named v a hv)
      have sb := h.shown h2 (h.named x b hx)
      generalize single (vals a) = X at sa
      generalize single (vals b) = Y at sb
      have e1 : [a, b].map s.d.S.shapes = [X, Y].map fun z => [z.shape] := by
        simp only [List.map_cons, List.map_nil, sa.shape, sb.shape]
      have e2 : [a, b].map vals = [X, Y].map fun z => [z] := by
        simp only [List.map_cons, List.map_nil, sa.value, sb.value]
      rw [e1] at hm hval
      rw [e2] at hval
      obtain ⟨hz, _⟩ := nary_call (ys := [Y]) (by
        intro z hz
        simp only [List.mem_cons, List.not_mem_nil, or_false] at hz
        rcases hz with rfl | rfl
        · exact sa.fine
        · exact sb.fine) hm
      rw [hval, ← hz]
      simp only [List.map_cons, List.map_nil, List.foldlM_cons, List.foldlM_nil]
      cases numpyZip NaryOp.multiply.numpy X.present Y.present <;> rfl
  | minimize v =>
    simp only [Names.step, Option.some.injEq] at hN
    subst hN
    simp only [Py.step, Res.bind_eq_ok] at he
    obtain ⟨a, hv, he⟩ := he
    have hv := Py.lookup_ok hv
    obtain ⟨he, hnm⟩ := Py.tell_ok he
    simp only [Draft.perform] at he
    split_ifs at he
    · obtain ⟨m, hst, hd⟩ := Draft.onModel_ok he
      have := h.told hst (.inl rfl) hv (p := .minimize v) fun given w b hb => by
        show (w.env v).bind _ = _
        rw [hb, if_pos rfl]
        rfl
      rw [← hd, ← hnm] at this
      exact this
    · simp at he
  | constraint v =>
    simp only [Names.step, Option.some.injEq] at hN
    subst hN
    simp only [Py.step, Res.bind_eq_ok] at he
    obtain ⟨a, hv, he⟩ := he
    have hv := Py.lookup_ok hv
    obtain ⟨he, hnm⟩ := Py.tell_ok he
    simp only [Draft.perform] at he
    split_ifs at he
    · obtain ⟨m, hst, hd⟩ := Draft.onModel_ok he
      have := h.told hst (.inr rfl) hv (p := .constraint v) fun given w b hb => by
        show (w.env v).bind _ = _
        rw [hb, if_neg (by simp)]
        rfl
      rw [← hd, ← hnm] at this
      exact this
    · simp at he

end Py.Follows

theorem follows_run {decl : Symbols → Graph → Nat → Claim} (ps : List PyStmt) : ∀ {s : Py} {N : Names}, Py.run decl 0 .start ps = .ok s →
    ps.foldlM Names.step Names.start = some N → s.Follows N ps := by
  induction ps using List.reverseRecOn with
  | nil =>
    intro s N hs hN
    injection hs with hs
    injection hN with hN
    rw [← hs, ← hN]
    exact follows_start
  | append_singleton ps p ih =>
    intro s N hs hN
    rw [Py.run_append] at hs
    obtain ⟨s1, h1, hs⟩ := Res.bind_eq_ok.1 hs
    rw [List.foldlM_append] at hN
    cases h2 : ps.foldlM Names.step Names.start with
    | none => rw [h2] at hN; cases hN
    | some N1 =>
      rw [h2] at hN
      rw [Nat.zero_add] at hs
      refine (ih h1 h2).statement hs ?_
      have hN : (N1.step p).bind some = some N := hN
      simpa using hN

/-- C62.  Python code with symbols — operators, functions, methods, `+=` and `*=`, names for the same symbol, an objective and
constraints — that does not extend a sum or product in place after it has been used (`Careful`): if it runs to the end without an
exception and the model is locked, then every initial state can be made, and after any history of proposals, every name stands for a
symbol that shows exactly the array which the same code computes with NumPy arrays for the decisions' present values; so do the
objective and the constraints.

Partial: slices and indices, more than one axis, and decisions with several outputs are not among the statements; the exceptions of
C23 and C26 (`Regular`) and of `where` (`PlainWhere`) are excluded; numbers are exact. -/
theorem C62_expressions_partial {decl : Symbols → Graph → Nat → Claim} {ps : List PyStmt} {s : Py}
    (h : Py.program decl ps = .ok s) (hc : Careful ps) (hreg : s.d.Regular) (hpw : s.d.PlainWhere)
    {A : Nat → Val} (hA : s.d.S.Admissible s.d.m.g A) :
    (∃ f, initAll s.d.m.g (s.d.S.sem s.d.m.g) A PState.empty = .ok f ∧ ∀ v ∈ s.d.m.g.nodes, (f.cell v).isSome) ∧
    ∀ {st : St (s.d.S.sem s.d.m.g)}, s.d.S.Started s.d.m.g A st →
    ∀ moves : List (Proposal (s.d.S.sem s.d.m.g) (List Move)), (∀ p ∈ moves, p.Legal s.d.m.g) →
    ∀ {r : St (s.d.S.sem s.d.m.g) × (Int → Bool)},
      history s.d.m.g [] (s.d.S.sem s.d.m.g) (s.d.S.act s.d.m.g) (st, fun _ => false) moves = .ok r →
    ∃ w, numpyRun (fun t => (single (s.d.S.shown s.d.m.g r.1 t)).present) 0 .start ps = some w ∧
      (∀ v, w.env v = (s.names v).map fun a => (single (s.d.S.shown s.d.m.g r.1 a)).present) ∧
      w.objective = s.d.m.g.objective.map (fun a => (single (s.d.S.shown s.d.m.g r.1 a)).present) ∧
      w.constraints = s.d.m.g.constraints.map fun a => (single (s.d.S.shown s.d.m.g r.1 a)).present := by
  simp only [Py.program, Res.bind_eq_ok] at h
  obtain ⟨s1, h1, h2⟩ := h
  obtain ⟨N, hN⟩ := hc
  have hf := follows_run ps h1 hN
  obtain ⟨hl, hnames⟩ := Py.tell_ok h2
  have hmade : s.d.Made := hf.made.perform hl
  obtain ⟨m, hst, hd⟩ := Draft.onModel_ok (show s1.d.onModel .lock = (s.d, .ok ()) from hl)
  have hS : s.d.S = s1.d.S := by rw [hd]
  have hm : s.d.m = m := by rw [hd]
  obtain ⟨k1, _, k3⟩ := step_keeps hf.made.inv hst (.inr (.inr (.inr (.inl rfl))))
  rw [← hm] at k1 k3
  have told : s.d.m.g.objective = s1.d.m.g.objective ∧ s.d.m.g.constraints = s1.d.m.g.constraints ∧ s.d.m.g.sorted = true := by
    rw [hm]
    simp only [step, Res.bind_eq_ok, Res.ok.injEq] at hst
    obtain ⟨g, hg, rfl⟩ := hst
    unfold topologicalSort at hg
    split_ifs at hg with hsort
    · injection hg with hg
      exact ⟨by rw [← hg], by rw [← hg], by rw [← hg]; exact hsort⟩
    · simp only [Res.bind_eq_ok, Res.ok.injEq] at hg
      obtain ⟨_, _, rfl⟩ := hg
      exact ⟨rfl, rfl, rfl⟩
  have hlocked : s.d.m.isLocked = true := by
    obtain ⟨mops, hr⟩ := hmade.reached
    exact (C18_lock_count hr).1.2 ((C18_lock_count hr).2.1 told.2.2)
  obtain ⟨mops, hr, hdep, hAs⟩ := hmade.assembled hlocked hreg
  refine ⟨C40_initialises hr hdep hAs hA, fun {st} hstart moves hmoves {r} he => ?_⟩
  obtain ⟨hev, _, _⟩ := C40_incremental_eq_fresh_partial hr hdep hAs hA hstart moves hmoves he
  generalize s.d.S.shown s.d.m.g r.1 = vals at hev ⊢
  have hold : s1.d.Holds vals := by
    intro v hv
    have hv' := k3 (by simp) v hv
    have hpv := (k1 v hv').2
    have hin : s.d.S.inShapes s.d.m.g v = s1.d.S.inShapes s1.d.m.g v := by
      unfold Symbols.inShapes
      rw [hpv, hS]
    have hval := hev.value v hv'
    have hsh := (hAs.typing hmade.inv.wf).1 v hv' _ (hev.accepted v hv')
    rw [← hval] at hsh
    have hgood := hAs.good v hv'
    have hrg := hreg v hv'
    have hpl := hpw v hv'
    rw [hin, hS] at hrg hpl
    rw [hS] at hgood
    refine ⟨?_, hgood, hrg.1, hrg.2, hpl, fun hk => ?_⟩
    · have hsh : HasShapes (s.d.S.shapes v) (vals v) := hsh
      rwa [hS] at hsh
    · have hdec : v ∉ s.d.m.g.decisions := by
        rw [hmade.decisions v hv', hS, hk]
        simp
      simp only [operands, if_neg hdec] at hval
      unfold Symbols.sem at hval
      rw [hin, hS, hpv] at hval
      exact hval
  obtain ⟨w, hw, sh⟩ := hf.value vals (fun t => (single (vals t)).present) hold fun v _ _ => rfl
  refine ⟨w, hw, ?_, ?_, ?_⟩
  · rw [hnames]; exact sh.env
  · rw [told.1]; exact sh.objective
  · rw [told.2.1]; exact sh.constraints

/-- What the symbol with the name `v` shows in the state that is initialised with the values `A` of the decisions. -/
def Py.initially (s : Py) (A : Nat → Val) (v : Nat) : Option (Arr Rat) :=
  match s.names v, initAll s.d.m.g (s.d.S.sem s.d.m.g) A PState.empty with
  | some a, .ok f => (f.cell a).map fun c => (single ((s.d.S.sem s.d.m.g a).view c)).present
  | _, _ => none

namespace ExpressionExample

open BuildExample (decl)

/-- ```
x = model.integer(3, lower_bound=0, upper_bound=10)
y = model.list(3)
c = model.constant([1, 2, 3])
z = x * y
z += c
z += x
s = z.sum()
p = s ** 3
q = where(y, x, z)
b = s <= p
model.minimize(p)
model.add_constraint(b)
``` -/
def code : List PyStmt :=
  [.assign 0 (.decision (.integer [3] (some 0) (some 10))), .assign 1 (.decision (.collection 3 3 3)),
    .assign 2 (.constant ⟨[3], [1, 2, 3]⟩), .assign 3 (.binary .multiply 0 1), .iadd 3 2, .iadd 3 0,
    .assign 4 (.reduce .sum 3), .assign 5 (.power 4 3), .assign 6 (.where_ 1 0 3), .assign 7 (.binary .lessEqual 4 5),
    .minimize 5, .constraint 7]

def after : Py := match Py.program decl code with
  | .ok s => s
  | _ => .start

theorem runs : Py.program decl code = .ok after := rfl

theorem careful : Careful code := ⟨_, rfl⟩

/-- Not vacuous: the hypotheses of `C62_expressions_partial` hold of this code; `z += x` extends the symbol of `z += c` in place. -/
example : Py.program decl code = .ok after ∧ Careful code ∧ after.d.Regular ∧ after.d.PlainWhere ∧
    after.d.m.g.nodes = [0, 1, 2, 3, 4, 6, 7, 8, 9] ∧ (after.d.m.g.mem 4).preds = [3, 2, 0] ∧
    after.d.m.g.objective = some 7 ∧ after.d.m.g.constraints = [9] := by
  have hnodes : after.d.m.g.nodes = [0, 1, 2, 3, 4, 6, 7, 8, 9] := by decide +kernel
  refine ⟨runs, careful, ?_, ?_, hnodes, by decide +kernel, by decide +kernel, by decide +kernel⟩
  · intro v hv
    rw [hnodes] at hv
    simp only [List.mem_cons, List.not_mem_nil, or_false] at hv
    rcases hv with rfl | rfl | rfl | rfl | rfl | rfl | rfl | rfl | rfl
    · exact ⟨rfl, by show ∀ n ∈ [(3 : Int)], 0 ≤ n; decide⟩
    · exact ⟨trivial, trivial⟩
    · exact ⟨rfl, by show ∀ n ∈ [(3 : Int)], 0 ≤ n; decide⟩
    · exact ⟨⟨fun h => (by cases h), fun h => (by cases h)⟩, trivial⟩
    · exact ⟨trivial, trivial⟩
    · exact ⟨trivial, trivial⟩
    · exact ⟨trivial, trivial⟩
    · exact ⟨trivial, trivial⟩
    · exact ⟨⟨fun h => (by cases h), fun h => (by cases h)⟩, trivial⟩
  · intro v hv
    rw [hnodes] at hv
    simp only [List.mem_cons, List.not_mem_nil, or_false] at hv
    rcases hv with rfl | rfl | rfl | rfl | rfl | rfl | rfl | rfl | rfl
    · trivial
    · trivial
    · trivial
    · trivial
    · trivial
    · trivial
    · trivial
    · exact ⟨by decide +kernel, fun h => absurd h (by decide +kernel)⟩
    · trivial

/-- The values of two decisions. -/
def values (x y : Arr Rat) : Nat → Val
  | 0 => [x]
  | 1 => [y]
  | _ => []

/-- For `x = [4, 5, 6]` and `y = [2, 0, 1]`, the symbols show what NumPy computes. -/
example : (∃ w, numpyRun (fun t => (single (values ⟨[3], [4, 5, 6]⟩ ⟨[3], [2, 0, 1]⟩ t)).present) 0 .start code = some w ∧
      w.env 6 = some ⟨[3], [4, 7, 6]⟩) ∧
    after.initially (values ⟨[3], [4, 5, 6]⟩ ⟨[3], [2, 0, 1]⟩) 6 = some ⟨[3], [4, 7, 6]⟩ :=
  ⟨⟨_, rfl, by decide +kernel⟩, by decide +kernel⟩

/-- `x = model.integer(1); y = model.integer(1); v = x; v += y; m = -v; v += y` -/
def extended : List PyStmt :=
  [.assign 0 (.decision (.integer [1] none none)), .assign 1 (.decision (.integer [1] none none)), .assign 2 (.name 0), .iadd 2 1,
    .assign 3 (.unary .negative 2), .iadd 2 1]

def extendedAfter : Py := match Py.program decl extended with
  | .ok s => s
  | _ => .start

/-- `x = model.integer(1); y = model.integer(1); v = add(x, y, x); v += v` -/
def doubled : List PyStmt :=
  [.assign 0 (.decision (.integer [1] none none)), .assign 1 (.decision (.integer [1] none none)), .assign 2 (.nary .add 0 1 0 []),
    .iadd 2 2]

/-- `x = model.integer(3); c = model.integer((1, 1)); v = where(c, x, x)` -/
def chosen : List PyStmt :=
  [.assign 0 (.decision (.integer [3] none none)), .assign 1 (.decision (.integer [1, 1] none none)), .assign 2 (.where_ 1 0 0)]

def chosenAfter : Py := match Py.program decl chosen with
  | .ok s => s
  | _ => .start

/-- `x = model.set(3); y = model.set(3); c = model.constant(1); v = where(c, x, y)` -/
def open_ : List PyStmt :=
  [.assign 0 (.decision (.collection 3 0 3)), .assign 1 (.decision (.collection 3 0 3)), .assign 2 (.constant ⟨[], [1]⟩),
    .assign 3 (.where_ 2 0 1)]

def openAfter : Py := match Py.program decl open_ with
  | .ok s => s
  | _ => .start

end ExpressionExample

open ExpressionExample BuildExample in
/-- C62 fails if a sum is extended after it has been used: after `v = x; v += y; m = -v; v += y`, the symbol `m` shows `-(x + 2y)`,
with NumPy it is `-(x + y)`. -/
theorem C62_extended_fails :
    ∃ (decl : Symbols → Graph → Nat → Claim) (ps : List PyStmt) (s : Py) (A : Nat → Val) (w : NumPy),
      Py.program decl ps = .ok s ∧ s.d.Regular ∧ s.d.PlainWhere ∧ s.d.S.Admissible s.d.m.g A ∧
      numpyRun (fun t => (single (A t)).present) 0 .start ps = some w ∧
      s.initially A 3 = some ⟨[1], [-19]⟩ ∧ w.env 3 = some ⟨[1], [-12]⟩ := by
  have hnodes : extendedAfter.d.m.g.nodes = [0, 1, 3, 4] := by decide +kernel
  have hdec : extendedAfter.d.m.g.decisions = [0, 1] := by decide +kernel
  have each : ∀ {P : Nat → Prop}, P 0 → P 1 → P 3 → P 4 → ∀ v ∈ extendedAfter.d.m.g.nodes, P v := by
    intro P h0 h1 h3 h4 v hv
    rw [hnodes] at hv
    simp only [List.mem_cons, List.not_mem_nil, or_false] at hv
    rcases hv with rfl | rfl | rfl | rfl <;> assumption
  refine ⟨decl, extended, extendedAfter, values ⟨[1], [5]⟩ ⟨[1], [7]⟩, _, rfl, ?_, ?_, ?_, rfl, by decide +kernel,
    by decide +kernel⟩
  · exact each ⟨rfl, by show ∀ n ∈ [(1 : Int)], 0 ≤ n; decide⟩ ⟨rfl, by show ∀ n ∈ [(1 : Int)], 0 ≤ n; decide⟩ ⟨trivial, trivial⟩
      ⟨trivial, trivial⟩
  · exact each trivial trivial trivial trivial
  · intro v hv
    rw [hdec] at hv
    simp only [List.mem_cons, List.not_mem_nil, or_false] at hv
    rcases hv with rfl | rfl
    · exact ⟨[5], rfl, rfl, fun v hv => isValid_iff.1 ((by decide +kernel : ∀ v ∈ ([5] : List Rat), (Kind.numNode [1] none none).isValid v = true) v hv)⟩
    · exact ⟨[7], rfl, rfl, fun v hv => isValid_iff.1 ((by decide +kernel : ∀ v ∈ ([7] : List Rat), (Kind.numNode [1] none none).isValid v = true) v hv)⟩

open ExpressionExample BuildExample in
/-- C62 fails for `v += v` if `v` is a sum: the sum becomes its own operand, and the model cannot be locked.  With NumPy it is
doubled. -/
theorem C62_doubled_fails :
    ∃ (decl : Symbols → Graph → Nat → Claim) (ps : List PyStmt) (s : Py) (w : NumPy),
      Py.run decl 0 .start ps = .ok s ∧ Py.program decl ps = .throw ∧
      numpyRun (fun t => (single (values ⟨[1], [5]⟩ ⟨[1], [7]⟩ t)).present) 0 .start ps = some w ∧
      w.env 2 = some ⟨[1], [34]⟩ :=
  ⟨decl, doubled, _, _, rfl, rfl, rfl, by decide +kernel⟩

open ExpressionExample BuildExample in
/-- C62 fails for `where` with a condition of one element and more dimensions than the arrays: the symbol has the shape of the
arrays, but NumPy's result has more dimensions. -/
theorem C62_where_fails :
    ∃ (decl : Symbols → Graph → Nat → Claim) (ps : List PyStmt) (s : Py) (A : Nat → Val) (w : NumPy),
      Py.program decl ps = .ok s ∧ Careful ps ∧ s.d.S.Admissible s.d.m.g A ∧
      numpyRun (fun t => (single (A t)).present) 0 .start ps = some w ∧
      s.initially A 2 = some ⟨[3], [7, 8, 9]⟩ ∧ w.env 2 = some ⟨[1, 3], [7, 8, 9]⟩ := by
  have hdec : chosenAfter.d.m.g.decisions = [0, 1] := by decide +kernel
  refine ⟨decl, chosen, chosenAfter, values ⟨[3], [7, 8, 9]⟩ ⟨[1, 1], [1]⟩, _, rfl, ⟨_, rfl⟩, ?_, rfl, by decide +kernel,
    by decide +kernel⟩
  intro v hv
  rw [hdec] at hv
  simp only [List.mem_cons, List.not_mem_nil, or_false] at hv
  rcases hv with rfl | rfl
  · exact ⟨[7, 8, 9], rfl, rfl, fun v hv => isValid_iff.1 ((by decide +kernel : ∀ v ∈ ([7, 8, 9] : List Rat), (Kind.numNode [3] none none).isValid v = true) v hv)⟩
  · exact ⟨[1], rfl, rfl, fun v hv => isValid_iff.1 ((by decide +kernel : ∀ v ∈ ([1] : List Rat), (Kind.numNode [1, 1] none none).isValid v = true) v hv)⟩

open ExpressionExample BuildExample in
/-- C62 fails for `where` with arrays of varying size: the symbol shows one of them even if the other one has another size, for which
NumPy raises an exception. -/
theorem C62_where_varying_fails :
    ∃ (decl : Symbols → Graph → Nat → Claim) (ps : List PyStmt) (s : Py) (A : Nat → Val),
      Py.program decl ps = .ok s ∧ Careful ps ∧ s.d.S.Admissible s.d.m.g A ∧
      numpyRun (fun t => (single (A t)).present) 0 .start ps = none ∧
      s.initially A 3 = some ⟨[2], [2, 0]⟩ := by
  have hdec : openAfter.d.m.g.decisions = [0, 1] := by decide +kernel
  refine ⟨decl, open_, openAfter, values ⟨[-1], [2, 0]⟩ ⟨[-1], []⟩, rfl, ⟨_, rfl⟩, ?_, rfl, by decide +kernel⟩
  intro v hv
  rw [hdec] at hv
  simp only [List.mem_cons, List.not_mem_nil, or_false] at hv
  rcases hv with rfl | rfl
  · exact ⟨[2, 0], rfl, by decide +kernel, fun v hv => (by
      simp only [List.mem_cons, List.not_mem_nil, or_false] at hv
      rcases hv with rfl | rfl
      · exact ⟨2, by decide +kernel, rfl⟩
      · exact ⟨0, by decide +kernel, rfl⟩), by decide +kernel, by decide +kernel⟩
  · exact ⟨[], rfl, by decide +kernel, fun v hv => (by cases hv), by decide +kernel, by decide +kernel⟩

end Verif
