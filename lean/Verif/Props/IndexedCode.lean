import Verif.Lemmas.IndexedValues

/-!
# C73: Python code with indexing computes what NumPy computes
-/

namespace Verif

open MixedIndex Script

/-- Code that raises no exception builds a program in the sense of C40: what has been proved of programs holds for code. -/
theorem C73_program {ps : List CodeStmt} {S : Code} (h : Code.start.run ps = .ok S) : ∃ p : Program, p.run = .ok S.M := by
  refine Code.Checked.program ((Code.run_grows h).2.2.2 ⟨⟨[], rfl⟩, ?_, ?_⟩)
  · simp [Code.start]
  · simp [Code.start]

/-- C73: what the names, the objective and the constraints show, now or after any history of proposals, is what the same code computes with
NumPy arrays from the arrays that the decisions then show.
Missing: the programs that are not supported (see `Script.Supported`), `where` with scalars of varying size (`PlainWhere`), and
integers that are separated from index arrays by slices (`PlainLayout`, false by `C73_layout_fails`); sums and products that are extended in
place (see C62). -/
theorem C73_partial {ps : List CodeStmt} {S : Code} (hS : Code.start.run ps = .ok S) {T : Nat → Prop} (h : S.M.rows.Supported T)
    (hw : S.M.rows.PlainWhere) (hl : PlainLayout ps) {m : PyModel} (hm : PyModel.new.run S.M.ops = .ok m) {vals : Nat → Val}
    (hv : S.M.Visible m vals) :
    ∃ w, codeNumpy (fun t => (vals (S.made.getD t 0)).map Arr.present) 0 ⟨fun _ => none, none, []⟩ ps = some w ∧
      (∀ v, w.env v = (S.names v).map fun a => (single (vals a)).present) ∧
      w.objective = S.M.objective.map (fun a => (single (vals a)).present) ∧
      w.constraints = S.M.constraints.map (fun a => (single (vals a)).present) := by
  obtain ⟨p, hp⟩ := C73_program hS
  obtain ⟨hmade, _, hf, _⟩ := Ready.facts hp h hm hv
  have hshapes := C40_program_shapes_partial hp h hm hv
  have W : S.M.rows.World vals := ⟨hmade, hf, fun i hi => (hshapes i hi).1, fun i hi => program_fine hp h hm hv hi, h.regular, hw,
    fun i hi => (hmade.static h.regular i hi).good, fun hg hs hl => getitem_now hp h hm hv hg hs hl⟩
  have h0 : Code.start.Shows S.M.rows vals ⟨fun _ => none, none, []⟩ := ⟨fun _ => rfl, rfl, rfl, by simp [Code.start]⟩
  obtain ⟨w, h1, h2⟩ := Code.run_value W h0 hS (List.prefix_refl _) hl
  exact ⟨w, h1, h2.env, h2.objective, h2.constraints⟩

/-- The decision that a statement asks for, if any. -/
def CodeStmt.asked : CodeStmt → Option Kind
  | .assign _ (.decision k) => some k
  | .disjointLists vs n => some (.disjointLists n vs.length)
  | .disjointBitSets vs n => some (.disjointBitSets n vs.length)
  | _ => none

theorem Code.step_asked {s s' : Code} {p : CodeStmt} {k : Kind} (h : s.step p = .ok s') (hk : p.asked = some k) {t : Script}
    (ht : s'.M.rows <+: t) : ∃ a, s'.made = s.made ++ [a] ∧ a < t.length ∧ (t.row a).built = .kind k := by
  have parts : ∀ {k : Kind} {vs : List Nat}, s.disjoint k vs = .ok s' →
      ∃ a, s'.made = s.made ++ [a] ∧ a < t.length ∧ (t.row a).built = .kind k := by
    intro k vs h
    obtain ⟨r, q, hr, hq, rfl⟩ := disjoint_eq h
    obtain ⟨h1, _, h3, _⟩ := add_made (s' := r.1) (j := r.2) hr ((outputs_grows hq).pre.trans ht)
    exact ⟨r.2, rfl, h1, h3.2⟩
  cases p with
  | assign v c =>
    cases c with
    | decision k' =>
      cases hk
      simp only [step, call, Res.bind_eq_ok] at h
      obtain ⟨r, ⟨_, _, hr⟩, h⟩ := h
      cases h
      obtain ⟨h1, _, h3, _⟩ := add_made (s' := r.1) (j := r.2) hr ht
      exact ⟨r.2, rfl, h1, h3.2⟩
    | _ => cases hk
  | disjointLists vs n => cases hk; exact parts h
  | disjointBitSets vs n => cases hk; exact parts h
  | _ => cases hk

theorem Code.run_asked : ∀ {ps : List CodeStmt} {s s' : Code}, s.run ps = .ok s' → ∀ {i : Nat} {p : CodeStmt} {k : Kind},
    ps[i]? = some p → p.asked = some k → s'.made.getD (s.made.length + i) 0 < s'.M.rows.length ∧
      (s'.M.rows.row (s'.made.getD (s.made.length + i) 0)).built = .kind k
  | [], _, _, _, i, p, k, hi, _ => by simp at hi
  | q :: ps, s, s', h, i, p, k, hi, hk => by
    simp only [run, Res.bind_eq_ok] at h
    obtain ⟨s1, h1, h⟩ := h
    obtain ⟨g1, g2, _, _⟩ := run_grows h
    cases i with
    | zero =>
      simp only [List.getElem?_cons_zero, Option.some.injEq] at hi
      subst hi
      obtain ⟨a, ha, hlt, hb⟩ := step_asked h1 hk g1.pre
      obtain ⟨l, hl⟩ := g2
      have : s'.made.getD (s.made.length + 0) 0 = a := by rw [← hl, ha]; simp
      rw [this]
      exact ⟨hlt, hb⟩
    | succ i =>
      obtain ⟨_, ⟨a, ha⟩, _⟩ := step_grows h1
      have := run_asked h (i := i) (by simpa using hi) hk
      rw [ha, List.length_append, List.length_singleton] at this
      rwa [show s.made.length + (i + 1) = s.made.length + 1 + i by omega]

/-- C73: the decisions that the code is compared for are those it asks for: after code without an exception, the symbol made by each
statement `x = model.integer(…)`, `model.list(…)`, `model.disjoint_lists(…)` and so on is a decision of this class with these arguments. -/
theorem C73_decisions {ps : List CodeStmt} {S : Code} (hS : Code.start.run ps = .ok S) {i : Nat} {p : CodeStmt} {k : Kind}
    (hi : ps[i]? = some p) (hk : p.asked = some k) :
    S.made.getD i 0 < S.M.rows.length ∧ (S.M.rows.row (S.made.getD i 0)).built = .kind k := by
  have := Code.run_asked hS hi hk
  rwa [show Code.start.made.length + i = i by simp [Code.start]] at this

/-! ## Examples -/

namespace IndexedCodeExample

open ProgramExample GetitemExample

/-- Run the code and test the result. -/
def ran (ps : List CodeStmt) (test : Code → Bool) : Bool :=
  match Code.start.run ps with
  | .ok S => test S
  | _ => false

theorem of_ran {ps : List CodeStmt} {test : Code → Bool} (h : ran ps test = true) : ∃ S, Code.start.run ps = .ok S ∧ test S = true := by
  unfold ran at h
  split at h
  · rename_i S hS
    exact ⟨S, hS, h⟩
  · cases h

/-- The model is supported, its only decision is symbol 0. -/
def sound (M : Generated) : Bool :=
  match PyModel.new.run M.ops with
  | .ok m => decide (m.g.decisions = [0]) && checks M
  | _ => false

theorem code_seen {ps : List CodeStmt} {S : Code} (h : Code.start.run ps = .ok S) (hf : sound S.M = true) :
    ∃ m vals, S.M.rows.Supported (fun _ => True) ∧ PyModel.new.run S.M.ops = .ok m ∧ S.M.Visible m vals ∧
      ∀ i < S.M.rows.length, vals i = (evaluated S.M.rows chosen S.M.rows.length).getD i [] := by
  obtain ⟨p, hp⟩ := C73_program h
  unfold sound at hf
  split at hf
  · rename_i m hm
    simp only [Bool.and_eq_true, decide_eq_true_eq] at hf
    obtain ⟨vals, hv, hev⟩ := visible hp hm hf.2 hf.1
    refine ⟨m, vals, supported hp hf.2, hm, hv, fun i hi => ?_⟩
    rw [hev, List.getD_eq_getElem?_getD, List.getElem?_map, List.getElem?_range hi]
    rfl
  · cases hf

/-- `x = model.set(3)`, `A = model.constant([[0, 1, 2], [3, 4, 5]])`, `y = A[-1, x]`, `s = y.sum()`, `n = x.size()`,
`two = model.constant(2)`, `c = n <= two`, `z = x[1:]`, `model.minimize(s)`, `model.add_constraint(c)`. -/
def code : List CodeStmt :=
  [.assign 0 (.decision (.collection 3 0 3)), .assign 1 (.constant ⟨[2, 3], [0, 1, 2, 3, 4, 5]⟩), .getitem 2 1 [.int (-1), .symbol 0],
    .assign 3 (.reduce .sum 2), .size 4 0, .assign 5 (.constant ⟨[], [2]⟩), .assign 6 (.binary .lessEqual 4 5),
    .getitem 7 0 [.slice (some 1) none none], .minimize 3, .constraint 6]

/-- There is no `where`. -/
def whereless (s : Script) : Bool :=
  s.all fun r => match r.built with
    | .kind .where_ => false
    | _ => true

theorem plain_of_whereless {s : Script} (h : whereless s = true) : s.PlainWhere := by
  intro i hi k hk
  have hr : (s.row i) ∈ s := by
    unfold Script.row
    rw [List.getD_eq_getElem?_getD, List.getElem?_eq_getElem hi]
    exact List.getElem_mem hi
  have := List.all_eq_true.1 h _ hr
  rw [hk] at this
  cases k <;> trivial

/-- What a name shows. -/
def value (S : Code) (v : Nat) : Option Val := (S.names v).map fun a => (evaluated S.M.rows chosen S.M.rows.length).getD a []

/-- The hypotheses of `C73_partial` are met; when the set is {0, 2}, `y` shows 3, 5, the objective 8, the constraint 1 and `z` 2. -/
example : ∃ S m vals, Code.start.run code = .ok S ∧ S.M.rows.Supported (fun _ => True) ∧ S.M.rows.PlainWhere ∧ PlainLayout code ∧
    PyModel.new.run S.M.ops = .ok m ∧ S.M.Visible m vals ∧ (S.names 2).map vals = some [⟨[-1], [3, 5]⟩] ∧
    S.M.objective.map vals = some [⟨[], [8]⟩] ∧ S.M.constraints.map vals = [[⟨[], [1]⟩]] ∧ (S.names 7).map vals = some [⟨[-1], [2]⟩] := by
  obtain ⟨S, h1, h2⟩ := of_ran (ps := code) (test := fun S => sound S.M && whereless S.M.rows &&
    decide ((∀ a ∈ S.names 2, a < S.M.rows.length) ∧ (∀ a ∈ S.names 7, a < S.M.rows.length) ∧ value S 2 = some [⟨[-1], [3, 5]⟩] ∧
      value S 7 = some [⟨[-1], [2]⟩] ∧ S.M.objective = S.names 3 ∧ S.M.constraints.map some = [S.names 6] ∧
      (∀ a ∈ S.names 3, a < S.M.rows.length) ∧ (∀ a ∈ S.names 6, a < S.M.rows.length) ∧ value S 3 = some [⟨[], [8]⟩] ∧
      value S 6 = some [⟨[], [1]⟩])) (by decide +kernel)
  simp only [Bool.and_eq_true, decide_eq_true_eq] at h2
  obtain ⟨⟨hs, hw⟩, l2, l7, e2, e7, ho, hc, l3, l6, e3, e6⟩ := h2
  obtain ⟨m, vals, k1, k2, k3, k4⟩ := code_seen h1 hs
  have key : ∀ {v : Nat} {x : Val}, (∀ a ∈ S.names v, a < S.M.rows.length) → value S v = some x → (S.names v).map vals = some x := by
    intro v x hl he
    unfold value at he
    cases hn : S.names v with
    | none => rw [hn] at he; cases he
    | some a =>
      rw [hn] at he
      rw [Option.map_some, k4 a (hl a hn)]
      exact he
  refine ⟨S, m, vals, h1, k1, plain_of_whereless hw, ?_, k2, k3, key l2 e2, by rw [ho]; exact key l3 e3, ?_, key l7 e7⟩
  · intro v x idx hm hne
    simp only [code, List.mem_cons, CodeStmt.getitem.injEq, reduceCtorEq, false_or, List.not_mem_nil, or_false] at hm
    rcases hm with ⟨rfl, rfl, rfl⟩ | ⟨rfl, rfl, rfl⟩
    · decide
    · exact absurd rfl hne
  · have h6 := key l6 e6
    cases hcs : S.M.constraints with
    | nil => rw [hcs] at hc; cases hc
    | cons c cs =>
      rw [hcs] at hc
      obtain ⟨hc1, hc2⟩ := List.cons.inj hc
      rw [← hc1, Option.map_some] at h6
      rw [List.map_eq_nil_iff.1 hc2, List.map_cons, List.map_nil, Option.some.inj h6]

/-- The same code with NumPy arrays. -/
example : (codeNumpy (fun _ => [⟨[2], [0, 2]⟩]) 0 ⟨fun _ => none, none, []⟩ code).map (fun w => (w.env 2, w.objective, w.constraints, w.env 7)) =
    some (some ⟨[2], [3, 5]⟩, some ⟨[], [8]⟩, [⟨[], [1]⟩], some ⟨[1], [2]⟩) := by decide +kernel

/-- `main, (u, v) = model.disjoint_lists(4, 2)`, `w = u.size()`, `A = model.constant([5, 6, 7, 8])`, `y = A[v]`. -/
def lists : List CodeStmt :=
  [.disjointLists [0, 1] 4, .size 2 0, .assign 3 (.constant ⟨[4], [5, 6, 7, 8]⟩), .getitem 4 3 [.symbol 1]]

/-- Code with disjoint lists, and what it computes when they are 3, 0 and 2. -/
example : ran lists (fun _ => true) = true ∧
    (codeNumpy (fun _ => [⟨[2], [3, 0]⟩, ⟨[1], [2]⟩]) 0 ⟨fun _ => none, none, []⟩ lists).map (fun w => (w.env 0, w.env 2, w.env 4)) =
      some (some ⟨[2], [3, 0]⟩, some ⟨[], [2]⟩, some ⟨[1], [7]⟩) := by decide +kernel

/-- `a = model.constant(1)`, `main, (u, v) = model.disjoint_bit_sets(4, 2)`: the second statement makes the sets. -/
example : ran [.assign 5 (.constant ⟨[], [1]⟩), .disjointBitSets [0, 1] 4] (fun _ => true) = true ∧
    (CodeStmt.disjointBitSets [0, 1] 4).asked = some (.disjointBitSets 4 2) := ⟨by decide +kernel, rfl⟩

/-- `x = model.set(3)`, `A` an array with three dimensions, `i` an index array, `y = A[1, :, i]`. -/
def cubes : List CodeStmt :=
  [.assign 0 (.decision (.collection 3 0 3)), .assign 1 (.constant ⟨[2, 2, 2], [0, 1, 2, 3, 4, 5, 6, 7]⟩),
    .assign 2 (.constant ⟨[3], [1, 0, 0]⟩), .getitem 3 1 [.int 1, .all, .symbol 2]]

end IndexedCodeExample

open IndexedCodeExample ProgramExample in
/-- C73 is false when a slice separates an integer from the index arrays: after `y = A[1, :, i]` the symbol `y` is the transpose of what NumPy
gives. -/
theorem C73_layout_fails : ∃ ps S m vals w, Code.start.run ps = .ok S ∧ S.M.rows.Supported (fun _ => True) ∧ S.M.rows.PlainWhere ∧
    PyModel.new.run S.M.ops = .ok m ∧ S.M.Visible m vals ∧
    codeNumpy (fun t => (vals (S.made.getD t 0)).map Arr.present) 0 ⟨fun _ => none, none, []⟩ ps = some w ∧
    ∃ v, w.env v = some ⟨[3, 2], [5, 7, 4, 6, 4, 6]⟩ ∧
      (S.names v).map (fun a => (single (vals a)).present) = some ⟨[2, 3], [5, 4, 4, 7, 6, 6]⟩ := by
  obtain ⟨S, h1, h2⟩ := of_ran (ps := cubes) (test := fun S => sound S.M && whereless S.M.rows &&
    decide ((∀ a ∈ S.names 3, a < S.M.rows.length) ∧ value S 3 = some [⟨[2, 3], [5, 4, 4, 7, 6, 6]⟩])) (by decide +kernel)
  simp only [Bool.and_eq_true, decide_eq_true_eq] at h2
  obtain ⟨⟨hs, hw⟩, l3, e3⟩ := h2
  obtain ⟨m, vals, k1, k2, k3, k4⟩ := code_seen h1 hs
  refine ⟨cubes, S, m, vals, _, h1, k1, plain_of_whereless hw, k2, k3, rfl, 3, congrArg some (by decide +kernel :
    numpyIndex [2, 2, 2] [0, 1, 2, 3, 4, 5, 6, 7] [.at 1, .all, .array] [⟨[3], [1, 0, 0]⟩] = ⟨[3, 2], [5, 7, 4, 6, 4, 6]⟩), ?_⟩
  unfold value at e3
  cases hn : S.names 3 with
  | none => rw [hn] at e3; cases e3
  | some a =>
    rw [hn] at e3
    have e3 : (evaluated S.M.rows chosen S.M.rows.length).getD a [] = [⟨[2, 3], [5, 4, 4, 7, 6, 6]⟩] := Option.some.inj e3
    rw [Option.map_some, k4 a (l3 a hn), e3]
    decide +kernel

end Verif
