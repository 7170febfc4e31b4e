import Verif.Lemmas.ProgramFileWhole
import Verif.Props.Programs

set_option linter.unusedSimpArgs false
set_option linter.unusedVariables false

/-!
# C69: saved programs with indexing load as the same programs
-/

namespace Verif

open Graph PyModel Draft Script

/-- C69: take any program that makes symbols of the catalog and indexing symbols (slices, arrays indexed by arrays, permutations) with
the Python classes.  The locked model can be saved, the file can be loaded, and the loaded model is the same (`Generated.Same`): it has
the same symbols with the same operands, shapes, ranges, sizes, the same moves of decisions and the same values for the same values of
operands; its decisions come in the same order; objective and constraints are the same.  `(M.draft m).at_ i` is the symbol that has
number `i` in the file.

Missing: slices that select nothing (`C69_empty_fails`); in-place additions of operands, which C41 has for the catalog.  States: `C69_states_partial`. -/
theorem C69_round_trip_partial {p : Program} {M : Generated} (hp : p.run = .ok M) {isList : Nat → Bool} (hpy : M.FromPython isList)
    {m : PyModel} (hm : PyModel.new.run M.ops = .ok m) :
    ∃ F L, M.save m isList = .ok F ∧ F.load = .ok L ∧ Generated.Same (M.draft m).at_ L M := by
  obtain ⟨hS, ho, hc⟩ := Source.of_run hp hm hpy.1
  obtain ⟨_, h1, h2⟩ := Program.run_inv hp
  obtain ⟨h3, h4⟩ := Program.run_targets hp
  obtain ⟨F, L, e1, e2, _, e3⟩ := hS.round_trip ho hc (fun o hoo => ⟨h1 o hoo, h3 o hoo, hpy.2.1 o hoo⟩)
    (fun c hcc => ⟨h2 c hcc, h4 c hcc, hpy.2.2 c hcc⟩)
  exact ⟨F, L, e1, e2, e3⟩

/-- The loaded model can be locked and used: its decisions accept the same values, and from them all symbols get the same values, as
long as the values of operands are among those that the symbols are made for. -/
theorem C69_values_partial {p : Program} {M : Generated} (hp : p.run = .ok M) {isList : Nat → Bool} (hpy : M.FromPython isList)
    {m : PyModel} (hm : PyModel.new.run M.ops = .ok m) {F : ProgramFile} (hF : M.save m isList = .ok F) {L : Generated} (hL : F.load = .ok L) :
    (∃ m', PyModel.new.run L.ops = .ok m' ∧ m'.g.objective = L.objective ∧ m'.g.constraints = L.constraints ∧
      m'.g.decisions.map (M.draft m).at_ = m.g.decisions) ∧
    ∀ A vals, (M.rows.Chosen A ↔ L.rows.Chosen fun i => A ((M.draft m).at_ i)) ∧
      (M.rows.Follows A vals → (∀ v < M.rows.length, (M.rows.row v).decision = false → (M.rows.row v).node.ok ((M.rows.row v).ops.map vals)) →
        L.rows.Follows (fun i => A ((M.draft m).at_ i)) fun i => vals ((M.draft m).at_ i)) := by
  obtain ⟨hS, ho, hc⟩ := Source.of_run hp hm hpy.1
  obtain ⟨_, h1, h2⟩ := Program.run_inv hp
  obtain ⟨h3, h4⟩ := Program.run_targets hp
  obtain ⟨F', L', e1, e2, hl, h⟩ := hS.round_trip ho hc (fun o hoo => ⟨h1 o hoo, h3 o hoo, hpy.2.1 o hoo⟩)
    (fun c hcc => ⟨h2 c hcc, h4 c hcc, hpy.2.2 c hcc⟩)
  rw [hF] at e1
  cases e1
  rw [hL] at e2
  cases e2
  have hone : ∀ v < M.rows.length, ((M.rows.row v).decision = true → (M.rows.row v).ops = []) := fun v hv hd => hS.made.alone hv hd
  refine ⟨?_, ?_⟩
  · obtain ⟨m', e1, _, w, e2, e3⟩ := Generated.built_shaped (M := L)
      (Shaped.of_before (fun i hi => hl.made.before hi) fun i hi => hl.made.alone hi) h.targets.1 h.targets.2
    refine ⟨m', e1, e2, e3, ?_⟩
    have wf : (M.draft m).m.g.WF := hS.whole.inv.wf
    have hs : (M.draft m).m.g.sorted = true := hS.whole.sorted
    have hlen : (M.draft m).m.g.nodes.length = M.rows.length := hS.count
    obtain ⟨hle, hd⟩ := decisions_at wf hs
    have hdec : m.g.decisions = (List.range m.g.decisions.length).map (M.draft m).at_ := by
      conv_lhs => rw [show m.g.decisions = _ from hd]
      exact take_at hle
    rw [hdec, w.order]
    congr 1
    have hf : ∀ i ∈ List.range L.rows.length, (L.rows.row i).decision = decide (i < m.g.decisions.length) := by
      intro i hi
      have hi := List.mem_range.1 hi
      have hv := h.lt i hi
      rw [(h.row i hi).decision, Bool.eq_iff_iff, ← hS.whole.decisions _ hv, decide_eq_true_eq]
      exact decision_iff wf hs (by rw [hlen, ← h.length]; exact hi)
    rw [List.filter_congr hf]
    obtain ⟨c, hc⟩ : ∃ c, L.rows.length = m.g.decisions.length + c := ⟨L.rows.length - m.g.decisions.length, by
      have : m.g.decisions.length ≤ (M.draft m).m.g.nodes.length := hle
      rw [hlen, ← h.length] at this
      omega⟩
    rw [hc, List.range_add, List.filter_append, List.filter_eq_self.2 (by simp), List.filter_eq_nil_iff.2 (by simp), List.append_nil]
  · intro A vals
    refine ⟨⟨fun hA i hi hd => ?_, fun hA v hv hd => ?_⟩, fun hf hok i hi => ?_⟩
    · have hr := h.row i hi
      rw [hr.decision] at hd
      exact (hr.accepts _).2 (hA _ (h.lt i hi) hd)
    · obtain ⟨i, hi, rfl⟩ := h.onto v hv
      have hr := h.row i hi
      exact (hr.accepts _).1 (hA i hi (by rw [hr.decision]; exact hd))
    · have hr := h.row i hi
      have := hf _ (h.lt i hi)
      show vals ((M.draft m).at_ i) = _
      rw [this, hr.decision]
      cases hd : (M.rows.row ((M.draft m).at_ i)).decision with
      | true =>
        rw [hr.node hd]
        simp
      | false =>
        have ho := hok _ (h.lt i hi) hd
        simp only [Bool.false_eq_true, if_false]
        rw [← hr.value _ ho, ← hr.ops, List.map_map]
        rfl

/-! ## A program that meets the hypotheses -/

namespace ProgramFileExample

/-- `SelectOk`, decided. -/
def selectOkB : List Int → List BasicIndex → Bool
  | [], [] => true
  | n :: shape, .at i :: idx => decide (-n ≤ i ∧ i < n) && selectOkB shape idx
  | _ :: shape, .slice _ _ c :: idx => decide (0 < c.getD 1) && selectOkB shape idx
  | _, _ => false

theorem of_selectOkB : ∀ {shape : List Int} {idx : List BasicIndex}, selectOkB shape idx = true → SelectOk shape idx
  | [], [], _ => trivial
  | [], _ :: _, h => by simp [selectOkB] at h
  | _ :: _, [], h => by simp [selectOkB] at h
  | n :: shape, .at i :: idx, h => by
    simp only [selectOkB, Bool.and_eq_true, decide_eq_true_eq] at h
    exact ⟨h.1, of_selectOkB h.2⟩
  | _ :: shape, .slice _ _ c :: idx, h => by
    simp only [selectOkB, Bool.and_eq_true, decide_eq_true_eq] at h
    exact ⟨h.1, of_selectOkB h.2⟩

/-- `BasicIndex.Fits`, decided. -/
def fitsB : BasicIndex → Bool
  | .at i => decide (IsSS i)
  | .slice a b c => decide (∀ x ∈ a, IsSS x) && decide (∀ x ∈ b, IsSS x) && decide (∀ x ∈ c, IsSS x)

theorem of_fitsB {i : BasicIndex} (h : fitsB i = true) : i.Fits := by
  cases i with
  | «at» i =>
    simp only [fitsB, decide_eq_true_eq] at h
    exact h
  | slice a b c =>
    simp only [fitsB, Bool.and_eq_true, decide_eq_true_eq] at h
    exact ⟨h.1.1, h.1.2, h.2⟩

/-- `Viewed`, decided. -/
def viewedB (sh : List Int) (idx : List BasicIndex) (P : Parsed) : Bool :=
  decide (∀ x ∈ P.strides, x ≤ ssMax) && idx.all fitsB &&
  match sh, idx with
  | -1 :: rest, .slice _ _ c :: more => decide (∀ d ∈ rest, 0 < d ∧ d ≤ ssMax) && decide (0 < c.getD 1) && selectOkB rest more &&
      decide (8 * shapeProd rest ≤ ssMax) && decide (∀ d ∈ selectShape rest more, 0 < d)
  | sh, idx => decide (∀ d ∈ sh, 0 < d) && decide (8 * shapeProd sh ≤ ssMax) && decide (∀ d ∈ selectShape sh idx, 0 < d)

theorem of_viewedB {sh : List Int} {idx : List BasicIndex} {P : Parsed} (h : viewedB sh idx P = true) : Viewed sh idx P := by
  unfold viewedB at h
  split at h
  · simp only [Bool.and_eq_true, decide_eq_true_eq, List.all_eq_true] at h
    obtain ⟨⟨h1, h2⟩, ⟨⟨⟨h3, h4⟩, h5⟩, h6⟩, h7⟩ := h
    exact .dynamic rfl rfl ⟨h3, h4, of_selectOkB h5, fun i hi => of_fitsB (h2 i hi)⟩ h6 h7 h1
  · simp only [Bool.and_eq_true, decide_eq_true_eq, List.all_eq_true] at h
    obtain ⟨⟨h1, h2⟩, ⟨h3, h4⟩, h5⟩ := h
    exact .fixed h3 h4 (fun i hi => of_fitsB (h2 i hi)) h5 h1

/-- `Kind.FromPython`, decided for some kinds. -/
def kindB (isList : Bool) : Kind → Bool
  | .collection n lo hi => !isList || decide (lo = n ∧ hi = n)
  | .reduce op init => decide (init = Kind.defaultInit op)
  | .reshape shape => decide (∀ n ∈ shape, 0 ≤ n)
  | .output _ => true
  | .constant _ => true
  | .disjointBitSets _ _ => true
  | .binary _ => true
  | _ => false

theorem of_kindB {isList : Bool} {k : Kind} (h : kindB isList k = true) : k.FromPython isList false ∧ ∀ n l, k ≠ .quadratic n l := by
  unfold kindB at h
  split at h
  · refine ⟨fun hl => ?_, fun _ _ => by simp⟩
    simpa [hl] using h
  · rw [decide_eq_true_eq] at h
    exact ⟨h, fun _ _ => by simp⟩
  · rw [decide_eq_true_eq] at h
    exact ⟨h, fun _ _ => by simp⟩
  all_goals first | exact ⟨trivial, fun _ _ => by simp⟩ | cases h

/-- `Row.FromPython`, decided for some rows. -/
def rowB (s : Script) (isList : Nat → Bool) (i : Nat) : Bool :=
  match (s.row i).built with
  | .kind k => k.typed ((s.row i).ops.map fun p => (s.row p).built.asKind) &&
      (match k with
        | .output j => decide (j = (s.take i).countP fun r => (s.row i).ops.headD 0 ∈ r.ops)
        | _ => true) &&
      (!k.isReshape || decide (∀ p ∈ (s.row i).ops, (s.row p).built.contiguous = true)) && kindB (isList i) k
  | .basic sh idx P => viewedB sh idx P &&
      decide (∀ p ∈ (s.row i).ops, (s.row p).built.asKind.isArray = true ∧ (s.row p).built.contiguous = true)
  | .advanced _ _ _ => decide (∀ p ∈ (s.row i).ops, (s.row p).built.asKind.isArray = true)
  | .permutation _ => s.isFullList ((s.row i).ops.getD 1 0)

theorem of_rowB {s : Script} {isList : Nat → Bool} {i : Nat} (h : rowB s isList i = true) : Row.FromPython s isList i := by
  unfold rowB at h
  unfold Row.FromPython
  cases hb : (s.row i).built with
  | kind k =>
    rw [hb] at h
    simp only [Bool.and_eq_true] at h
    obtain ⟨⟨⟨h1, h2⟩, h3⟩, h4⟩ := h
    obtain ⟨h5, h6⟩ := of_kindB h4
    refine ⟨h1, ?_, fun hr => ?_, false, h5, fun ⟨n, l, e⟩ => absurd e (h6 n l)⟩
    · rintro j rfl
      simpa using h2
    · simpa [hr] using h3
  | basic sh idx P =>
    rw [hb] at h
    simp only [Bool.and_eq_true, decide_eq_true_eq] at h
    exact ⟨of_viewedB h.1, h.2⟩
  | advanced idx P base =>
    rw [hb] at h
    simpa using h
  | permutation x =>
    rw [hb] at h
    simpa using h

/-- Two disjoint sets, a list, a set; a matrix permuted by the list, reshaped after dropping its first row, and its rows for the
elements of the set. -/
def program : Program :=
  ⟨[(.kind (.disjointBitSets 4 2), []), (.kind (.output 0), [0]), (.kind (.output 1), [0]), (.kind (.collection 3 3 3), []),
    (.kind (.constant ⟨[3, 3], [0, 1, 2, 3, 4, 5, 6, 7, 8]⟩), []), (.permutation, [4, 3]),
    (.basic [.slice (some 1) none none, .slice none none none], [4]), (.kind (.reshape [6]), [6]), (.kind (.collection 3 0 3), []),
    (.basic [.slice none (some 2) none], [8]), (.advanced [true, false], [4, 8]), (.kind (.reduce .sum 0), [10])], some 11, []⟩

/-- Symbol 3 is a list. -/
def isList (i : Nat) : Bool := i = 3

/-- A property of a locked model. -/
def locked (p : Program) (test : Generated → PyModel → Bool) : Bool :=
  match p.run with
  | .ok M => match PyModel.new.run M.ops with
    | .ok m => test M m
    | _ => false
  | _ => false

theorem of_locked {p : Program} {test : Generated → PyModel → Bool} (h : locked p test = true) :
    ∃ M m, p.run = .ok M ∧ PyModel.new.run M.ops = .ok m ∧ test M m = true := by
  unfold locked at h
  split at h
  · rename_i M eM
    split at h
    · rename_i m em
      exact ⟨M, m, eM, em, h⟩
    · cases h
  · cases h

def pythonB (isList : Nat → Bool) (M : Generated) : Bool :=
  decide (∀ i < M.rows.length, rowB M.rows isList i = true) &&
    decide (∀ o ∈ M.objective, (M.rows.row o).built.asKind.isArray = true) &&
    decide (∀ c ∈ M.constraints, (M.rows.row c).built.asKind.isArray = true)

theorem of_pythonB {isList : Nat → Bool} {M : Generated} (h : pythonB isList M = true) : M.FromPython isList := by
  unfold pythonB at h
  simp only [Bool.and_eq_true, decide_eq_true_eq] at h
  exact ⟨fun i hi => of_rowB (h.1.1 i hi), h.1.2, h.2⟩

/-- The hypotheses of C69 hold for it.  In the file, the decisions come first. -/
theorem made : ∃ M m, program.run = .ok M ∧ PyModel.new.run M.ops = .ok m ∧ M.FromPython isList ∧ M.rows.length = 12 ∧
    m.g.nodes = [0, 3, 8, 1, 2, 4, 5, 6, 7, 9, 10, 11] := by
  obtain ⟨M, m, h1, h2, h3⟩ := of_locked (p := program) (test := fun M m => pythonB isList M && decide (M.rows.length = 12) &&
    decide (m.g.nodes = [0, 3, 8, 1, 2, 4, 5, 6, 7, 9, 10, 11])) (by decide +kernel)
  simp only [Bool.and_eq_true, decide_eq_true_eq] at h3
  exact ⟨M, m, h1, h2, of_pythonB h3.1.1, h3.1.2, h3.2⟩

example : ∃ M m F L, program.run = .ok M ∧ PyModel.new.run M.ops = .ok m ∧ M.save m isList = .ok F ∧ F.load = .ok L ∧
    Generated.Same (M.draft m).at_ L M ∧ L.rows.length = 12 := by
  obtain ⟨M, m, h1, h2, h3, h4, _⟩ := made
  obtain ⟨F, L, e1, e2, e3⟩ := C69_round_trip_partial h1 h3 h2
  exact ⟨M, m, F, L, h1, h2, e1, e2, e3, by rw [e3.length, h4]⟩

end ProgramFileExample

/-! ## Where it fails -/

/-- A property of a saved file. -/
def ProgramFileExample.savedB (test : ProgramFile → Bool) : Res ProgramFile → Bool
  | .ok F => test F
  | _ => false

/-- The result is an exception. -/
def ProgramFileExample.throws {α : Type} : Res α → Bool
  | .throw => true
  | _ => false

open ProgramFileExample in
/-- A slice that selects nothing can be made and saved, but the file cannot be loaded: the slice `A[1, 3:]` of a matrix with three
columns is saved with an index for the first axis that is out of range. -/
theorem C69_empty_fails : ∃ (p : Program) (M : Generated) (m : PyModel) (F : ProgramFile), p.run = .ok M ∧
    p.steps.map Prod.fst = [.kind (.constant ⟨[2, 3], [0, 1, 2, 3, 4, 5]⟩), .basic [.at 1, .slice (some 3) none none]] ∧
    PyModel.new.run M.ops = .ok m ∧ M.save m (fun _ => false) = .ok F ∧ F.load = .throw := by
  obtain ⟨M, m, h1, h2, h3⟩ := of_locked
    (p := ⟨[(.kind (.constant ⟨[2, 3], [0, 1, 2, 3, 4, 5]⟩), []), (.basic [.at 1, .slice (some 3) none none], [0])], none, []⟩)
    (test := fun M m => savedB (fun F => throws F.load) (M.save m fun _ => false)) (by decide +kernel)
  cases hs : M.save m fun _ => false with
  | ok F =>
    rw [hs] at h3
    refine ⟨_, M, m, F, h1, rfl, h2, hs, ?_⟩
    change throws F.load = true at h3
    cases hl : F.load with
    | throw => rfl
    | ok L => rw [hl] at h3; cases h3
    | ub => rw [hl] at h3; cases h3
  | throw => rw [hs] at h3; cases h3
  | ub => rw [hs] at h3; cases h3

end Verif
