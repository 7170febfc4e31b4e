import Verif.Lemmas.ArchiveAny
import Mathlib.Tactic.NormNum

set_option linter.unusedSectionVars false
set_option linter.unusedSimpArgs false
set_option linter.unusedVariables false

/-!
# C41: saving and loading
-/

namespace Verif

open Graph PyModel

/-- The parts of a history that the theorems below start from. -/
theorem Draft.savable {bops : List BuildOp} {d : Draft} (hb : Draft.new.run Symbols.declared bops = .ok d)
    (hn : Draft.NaryAccepted Symbols.declared Draft.new bops) (hl : d.m.isLocked = true) {isList : Nat → Bool}
    (hpy : d.FromPython Symbols.declared isList) (hck : d.Checked Symbols.declared) :
    d.Savable Symbols.declared isList := by
  have hM := Draft.run_made Draft.made_new hn hb
  exact ⟨hM, Draft.run_orderly Draft.orderly_new Draft.made_new hn hb,
    hM.inv.sorted.2 (by simpa [PyModel.isLocked] using hl), hpy, hck⟩

/-- C41: take any history of constructions (with rejected ones in between, except of n-ary symbols, see
`C48_nary_fails`), in-place additions, objectives, constraints, removals of unused symbols, locking and unlocking, that
leaves the model locked, and any states.  If the model is saved, then

* loading gives a model (with or without the check of the header),
* its symbols are those of the saved model, in the same order, of the same kinds, shapes and operands (`Mirror`),
* its objective and its constraints are the saved model's, in the same order,
* its decisions have the saved values in all states.

Symbols are compared by position: `d.at_ i` is symbol number `i` of the saved model, symbol number `i` of the loaded
one is `i`.

`FromPython`: symbols were made with the Python classes.  `Checked` and `Targets` say that the checks that were made
when symbols were made and became objective or constraints hold for the operands the symbols have now; in-place
additions of operands can violate this (`C41_inplace_fails`), other operations cannot (`C41_without_inplace`).
`StateFits` asks for initialised states of disjoint lists and sets, all parts of which exist (`C41_sparse_fails`,
`C41_parts_fails`). -/
theorem C41_round_trip_partial {bops : List BuildOp} {d : Draft}
    (hb : Draft.new.run Symbols.declared bops = .ok d)
    (hn : Draft.NaryAccepted Symbols.declared Draft.new bops) (hl : d.m.isLocked = true) {isList : Nat → Bool}
    (hpy : d.FromPython Symbols.declared isList) (hck : d.Checked Symbols.declared)
    (ht : d.Targets Symbols.declared) {numStates : Nat} {states : Nat → Nat → Option Val}
    (hst : ∀ j < numStates, ∀ v ∈ d.m.g.decisions, d.StateFits v (states j v)) {a : Archive}
    (hsv : d.save isList false numStates states = .ok a) (check : Bool) :
    ∃ l, a.load Symbols.declared check = .ok l ∧ Draft.Mirror d.m.g.nodes.length l.d d ∧
      l.d.m.g.decisions.map d.at_ = d.m.g.decisions ∧
      l.d.m.g.objective.map d.at_ = d.m.g.objective ∧
      l.d.m.g.constraints.map d.at_ = d.m.g.constraints ∧
      l.numStates = numStates ∧
      l.states = (List.range d.m.g.decisions.length).map fun i =>
        (List.range numStates).map fun j => states j (d.at_ i) := by
  have hd := Draft.savable hb hn hl hpy hck
  have w := hd.made.inv.wf
  obtain ⟨l, h1, h2, h3, h4, h5, h6⟩ := Draft.save_load Draft.localDecl_declared hd ht hst hsv check
  have hs : d.stop false = d.m.g.nodes.length := rfl
  rw [hs, List.take_length] at h3 h4
  rw [hs] at h2
  refine ⟨l, h1, h2.mirror, ?_, ?_, ?_, h5, h6⟩
  · rw [h2.mirror.decisions, List.take_of_length_le (Draft.decisions_at w hd.sorted).1]
  · rw [h3]
    cases ho : d.m.g.objective with
    | none => rfl
    | some o => rw [Option.filter_some, if_pos (by simpa using w.objMem o ho)]
  · rw [h4, List.filter_eq_self]
    intro c hc
    simpa using w.conMem c hc

/-- C41 for files with only the decisions (`only_decision=True`): the decisions with their values; objective and
constraints that are decisions. -/
theorem C41_only_decision_partial {bops : List BuildOp} {d : Draft}
    (hb : Draft.new.run Symbols.declared bops = .ok d)
    (hn : Draft.NaryAccepted Symbols.declared Draft.new bops) (hl : d.m.isLocked = true) {isList : Nat → Bool}
    (hpy : d.FromPython Symbols.declared isList) (hck : d.Checked Symbols.declared)
    (ht : d.Targets Symbols.declared) {numStates : Nat} {states : Nat → Nat → Option Val}
    (hst : ∀ j < numStates, ∀ v ∈ d.m.g.decisions, d.StateFits v (states j v)) {a : Archive}
    (hsv : d.save isList true numStates states = .ok a) (check : Bool) :
    ∃ l, a.load Symbols.declared check = .ok l ∧ Draft.Mirror d.m.g.decisions.length l.d d ∧
      l.d.m.g.decisions.map d.at_ = d.m.g.decisions ∧
      l.d.m.g.objective.map d.at_ = d.m.g.objective.filter (fun o => decide (o ∈ d.m.g.decisions)) ∧
      l.d.m.g.constraints.map d.at_ = d.m.g.constraints.filter (fun c => decide (c ∈ d.m.g.decisions)) ∧
      l.numStates = numStates ∧
      l.states = (List.range d.m.g.decisions.length).map fun i =>
        (List.range numStates).map fun j => states j (d.at_ i) := by
  have hd := Draft.savable hb hn hl hpy hck
  have w := hd.made.inv.wf
  obtain ⟨l, h1, h2, h3, h4, h5, h6⟩ := Draft.save_load Draft.localDecl_declared hd ht hst hsv check
  have hs : d.stop true = d.m.g.decisions.length := rfl
  rw [hs, ← (Draft.decisions_at w hd.sorted).2] at h3 h4
  rw [hs] at h2
  refine ⟨l, h1, h2.mirror, ?_, h3, h4, h5, h6⟩
  rw [h2.mirror.decisions, List.take_of_length_le (le_refl _)]

/-- Without in-place additions of operands the checks made by constructors, `minimize` and `add_constraint` stay
valid, so that the hypotheses `Checked` and `Targets` of the theorems above hold (for objectives and constraints that
are arrays, which the Python functions ask for). -/
theorem C41_without_inplace {bops : List BuildOp} {d : Draft}
    (hb : Draft.new.run Symbols.declared bops = .ok d)
    (hn : Draft.NaryAccepted Symbols.declared Draft.new bops)
    (hop : ∀ op ∈ bops, ∀ n p, op ≠ .addOperand n p)
    (ho : ∀ o, d.m.g.objective = some o → (d.S.kind o).isArray = true)
    (hc : ∀ c ∈ d.m.g.constraints, (d.S.kind c).isArray = true) :
    d.Checked Symbols.declared ∧ d.Targets Symbols.declared := by
  have h := Draft.run_sound Draft.sound_new Draft.made_new hop hn hb
  exact ⟨h.checked, fun o hoo => ⟨ho o hoo, h.objective o hoo⟩, fun c hcc => ⟨hc c hcc, h.constraints c hcc⟩⟩

/-- Locking the loaded model succeeds and keeps its order, so that the symbols also have the topological indices of
the saved model's. -/
theorem C41_same_order {bops : List BuildOp} {d : Draft}
    (hb : Draft.new.run Symbols.declared bops = .ok d)
    (hn : Draft.NaryAccepted Symbols.declared Draft.new bops) (hl : d.m.isLocked = true) {isList : Nat → Bool}
    (hpy : d.FromPython Symbols.declared isList) (hck : d.Checked Symbols.declared)
    (ht : d.Targets Symbols.declared) {numStates : Nat} {states : Nat → Nat → Option Val}
    (hst : ∀ j < numStates, ∀ v ∈ d.m.g.decisions, d.StateFits v (states j v)) {a : Archive} {only : Bool}
    (hsv : d.save isList only numStates states = .ok a) {check : Bool} {l : Loaded}
    (hld : a.load Symbols.declared check = .ok l) :
    ∃ e, l.d.perform Symbols.declared .lock = (e, .ok ()) ∧
      e.m.g.nodes = List.range (d.stop only) ∧
      ∀ i < d.stop only, e.m.g.topoOf i = d.m.g.topoOf (d.at_ i) := by
  have hd := Draft.savable hb hn hl hpy hck
  have w := hd.made.inv.wf
  obtain ⟨l', h1, h2, _⟩ := Draft.save_load Draft.localDecl_declared hd ht hst hsv check
  obtain rfl : l = l' := by rw [hld] at h1; simpa using h1
  have w' := h2.made.inv.wf
  obtain ⟨hle, hdn⟩ := Draft.decisions_at w hd.sorted
  have hle2 : d.m.g.decisions.length ≤ d.stop only := by
    unfold Draft.stop; split
    · exact le_refl _
    · exact hle
  have hseq : Draft.Sequential l.d.m.g := by
    refine ⟨?_, ?_⟩
    · rw [h2.mirror.nodes]
      refine (List.pairwise_lt_range (n := d.stop only)).imp_of_mem fun {x y} hx hy hlt hp => ?_
      have := h2.mirror.below x (List.mem_range.1 hx) y hp
      omega
    · intro x hx hp
      rw [h2.mirror.nodes] at hx
      have := h2.mirror.below x (List.mem_range.1 hx) x hp
      omega
  obtain ⟨g', hg⟩ := hseq.sorts w' h2.unsorted
  have hnodes : g'.nodes = l.d.m.g.nodes := by
    refine sort_same w' h2.unsorted hg (rest := l.d.m.g.nodes.drop d.m.g.decisions.length) ?_ ?_
    · have : l.d.m.g.decisions = List.range d.m.g.decisions.length := by
        have hdm : l.d.m.g.decisions.map d.at_ = d.m.g.decisions := by
          rw [h2.mirror.decisions, List.take_of_length_le hle2]
        have hdl : l.d.m.g.decisions.length = d.m.g.decisions.length := by rw [← hdm, List.length_map]
        refine List.ext_getElem (by rw [hdl, List.length_range]) fun i h1 h3 => ?_
        have hi : i < d.m.g.decisions.length := by omega
        obtain ⟨hin, e⟩ := Draft.decision_at w hd.sorted hi
        have e2 : d.at_ l.d.m.g.decisions[i] = d.m.g.decisions[i] := by
          have : (l.d.m.g.decisions.map d.at_)[i]? = d.m.g.decisions[i]? := by rw [hdm]
          rw [List.getElem?_map, List.getElem?_eq_getElem h1, List.getElem?_eq_getElem hi] at this
          simpa using this
        have hm := w'.decMem _ (List.getElem_mem h1)
        rw [h2.mirror.nodes] at hm
        have := h2.mirror.inj w.nodup _ (List.mem_range.1 hm) i (by omega) (e2.trans e)
        simpa using this
      rw [this]
      conv_lhs => rw [← List.take_append_drop d.m.g.decisions.length l.d.m.g.nodes]
      congr 1
      rw [h2.mirror.nodes, List.take_range, Nat.min_eq_left hle2]
    · intro A u B hAB p hp hpB
      have hu : u ∈ l.d.m.g.nodes := by rw [hAB]; simp
      rw [h2.mirror.nodes] at hu
      have hlt := h2.mirror.below u (List.mem_range.1 hu) p hp
      have hpw : (A ++ u :: B).Pairwise (· < ·) := by
        rw [← hAB, h2.mirror.nodes]; exact List.pairwise_lt_range
      have := (List.pairwise_cons.1 (List.pairwise_append.1 hpw).2.1).1 p hpB
      omega
  have hlock : l.d.perform Symbols.declared .lock =
      ({ l.d with m := ⟨g', l.d.m.lockCount + 1⟩ }, .ok ()) := by
    simp only [Draft.perform, Draft.onModel, PyModel.step, hg, Res.ok_bind]
  refine ⟨_, hlock, by rw [← h2.mirror.nodes]; exact hnodes, ?_⟩
  intro i hi
  have we := (h2.made.perform hlock).inv.wf
  have hse : g'.sorted = true := by
    rcases w'.sort_spec h2.unsorted with ⟨g2, e2, _, hs2, _⟩ | ⟨e2, _⟩
    · rw [hg] at e2; cases e2; exact hs2
    · rw [hg] at e2; cases e2
  have hil : i < g'.nodes.length := by rw [hnodes, h2.mirror.nodes]; simpa using hi
  have h7 := we.positions hse i hil
  have h8 : g'.nodes[i] = i := by simp [hnodes, h2.mirror.nodes]
  have h9 := Draft.pos_at w hd.sorted (show i < d.m.g.nodes.length by have := h2.mirror.le; omega)
  rw [show g'.nodes[i] = i from h8] at h7
  exact h7.trans h9.symm

/-- Rejected files: if a file is loaded, then every line of the adjacency list that has a class name starts with its
own number, which is followed by smaller numbers of operands, and the class name is that of a symbol class.  With
the check of the header, the number of symbols is the one in the header. -/
theorem C41_malformed {a : Archive} {check : Bool} {l : Loaded} (h : a.load Symbols.declared check = .ok l) :
    (∀ (i : Nat) (cls : ClassName) (line : List Char), a.types[i]? = some cls → (splitLines a.adj)[i]? = some line → cls ≠ .unknown ∧
      ∃ ids, parseLine line = some ((i : Int) :: ids) ∧ ∀ p ∈ ids, 0 ≤ p ∧ p < i) ∧
    (check = true → a.header.numNodes = l.d.m.g.nodes.length ∧ a.header.numStates = l.numStates) := by
  obtain ⟨_, h2, h3⟩ := Draft.loaded_buildable h
  refine ⟨fun i cls line hc hln => ?_, fun hk => ?_⟩
  · refine h2 ((cls, line), i) ?_
    rw [List.mem_iff_getElem?]
    have hz : (a.types.zip (splitLines a.adj))[i]? = some (cls, line) := List.getElem?_zip_eq_some.2 ⟨hc, hln⟩
    exact ⟨i, by simp [List.getElem?_zipIdx, hz]⟩
  · have := h3 hk
    unfold Draft.headerData at this
    obtain ⟨_, _, this⟩ := Res.bind_eq_ok.1 this
    obtain ⟨_, _, this⟩ := Res.bind_eq_ok.1 this
    simp only [Res.ok.injEq] at this
    rw [← this]
    simp

/-- Whatever is in a file, a model that has been loaded from it is one that a user could have built with constructors,
`minimize` and `add_constraint`; the checks they make hold for it; it can be locked. -/
theorem C41_loaded_as_built {a : Archive} {check : Bool} {l : Loaded}
    (h : a.load Symbols.declared check = .ok l) :
    (∃ bops, Draft.new.run Symbols.declared bops = .ok l.d ∧
      Draft.NaryAccepted Symbols.declared Draft.new bops ∧ ∀ op ∈ bops, ∀ n p, op ≠ .addOperand n p) ∧
    l.d.Checked Symbols.declared ∧
    (l.d.m.g.sorted = false → ∃ e, l.d.perform Symbols.declared .lock = (e, .ok ())) := by
  obtain ⟨⟨bops, h1, h2, h3⟩, _⟩ := Draft.loaded_buildable h
  have hM := Draft.run_made Draft.made_new h2 h1
  have hS := Draft.run_sound Draft.sound_new Draft.made_new h3 h2 h1
  refine ⟨⟨bops, h1, h2, h3⟩, hS.checked, fun hs => ?_⟩
  obtain ⟨g', hg⟩ := hS.sequential.sorts hM.inv.wf hs
  exact ⟨{ l.d with m := ⟨g', l.d.m.lockCount + 1⟩ },
    by simp only [Draft.perform, Draft.onModel, PyModel.step, hg, Res.ok_bind]⟩

/-! ## Not vacuous -/

namespace ArchiveExample

/-- Two integers up to 10, an ordering of three items in two lists, the size of the first list at most the sum of the
integers; the sum is minimised. -/
def ops : List BuildOp :=
  [.construct 0 (.integer [2] none (some 10)) [], .construct 1 (.disjointLists 3 2) [],
    .construct 2 (.output 0) [1], .construct 3 (.output 0) [1], .construct 4 .size [2],
    .construct 5 (.reduce .sum 0) [0], .construct 6 (.binary .lessEqual) [4, 5], .minimize 5, .constraint 6, .lock]

def draft : Draft := match Draft.new.run Symbols.declared ops with
  | .ok d => d
  | _ => Draft.new

theorem built : Draft.new.run Symbols.declared ops = .ok draft := rfl

/-- Two states; in the second one the integers have not been set. -/
def states : Nat → Nat → Option Val := fun j v =>
  if v = 0 then (if j = 0 then some [⟨[2], [3, 4]⟩] else none)
  else if j = 0 then some [⟨[-1], [0, 2]⟩, ⟨[-1], [1]⟩] else some [⟨[-1], []⟩, ⟨[-1], [2, 0, 1]⟩]

theorem nodes : draft.m.g.nodes = [0, 1, 2, 3, 4, 5, 6] := by decide +kernel

theorem accepted : Draft.NaryAccepted Symbols.declared Draft.new ops :=
  ⟨fun a o p h => (by cases h), fun a o p h => (by cases h), fun a o p h => (by cases h),
    fun a o p h => (by cases h), fun a o p h => (by cases h), fun a o p h => (by cases h),
    fun a o p h => (by cases h), fun a o p h => (by cases h), fun a o p h => (by cases h),
    fun a o p h => (by cases h), trivial⟩

theorem python : draft.FromPython Symbols.declared (fun _ => false) := by
  intro v hv
  rw [nodes] at hv
  simp only [List.mem_cons, List.not_mem_nil, or_false] at hv
  rcases hv with rfl | rfl | rfl | rfl | rfl | rfl | rfl
  · show ∀ n ∈ [(2 : Int)], 0 ≤ n; decide
  · trivial
  · trivial
  · trivial
  · trivial
  · rfl
  · trivial

theorem targets : draft.Checked Symbols.declared ∧ draft.Targets Symbols.declared := by
  refine C41_without_inplace built accepted ?_ ?_ ?_
  · intro op hop n p e
    subst e
    simp [ops] at hop
  · intro o ho
    obtain rfl : 5 = o := by simpa using (show some 5 = draft.m.g.objective by decide +kernel).trans ho
    rfl
  · rw [show draft.m.g.constraints = [6] by decide +kernel]
    intro c hc
    obtain rfl : c = 6 := by simpa using hc
    rfl

theorem fits : ∀ j < 2, ∀ v ∈ draft.m.g.decisions, draft.StateFits v (states j v) := by
  rw [show draft.m.g.decisions = [0, 1] by decide +kernel]
  intro j hj v hv
  simp only [List.mem_cons, List.not_mem_nil, or_false] at hv
  have hparts : (draft.m.g.mem 1).succs.length = (draft.S.kind 1).numParts := by decide +kernel
  obtain rfl | rfl : j = 0 ∨ j = 1 := by omega
  · rcases hv with rfl | rfl
    · refine ⟨fun x hx => ?_, fun h => by cases h⟩
      obtain rfl : [⟨[2], [3, 4]⟩] = x := by simpa [states] using hx
      refine ⟨[3, 4], rfl, rfl, fun v hv => ?_⟩
      simp only [List.mem_cons, List.not_mem_nil, or_false] at hv
      rcases hv with rfl | rfl
      · exact ⟨3, by norm_num, by decide, by decide⟩
      · exact ⟨4, by norm_num, by decide, by decide⟩
    · refine ⟨fun x hx => ?_, fun _ => ⟨by simp [states], hparts⟩⟩
      obtain rfl : [⟨[-1], [0, 2]⟩, ⟨[-1], [1]⟩] = x := by simpa [states] using hx
      exact ⟨[[0, 2], [1]], rfl, rfl, by decide +kernel⟩
  · rcases hv with rfl | rfl
    · exact ⟨fun x hx => by simp [states] at hx, fun h => by cases h⟩
    · refine ⟨fun x hx => ?_, fun _ => ⟨by simp [states], hparts⟩⟩
      obtain rfl : [⟨[-1], []⟩, ⟨[-1], [2, 0, 1]⟩] = x := by simpa [states] using hx
      exact ⟨[[], [2, 0, 1]], rfl, rfl, by decide +kernel⟩

/-- The hypotheses of `C41_round_trip_partial` and `C41_only_decision_partial` hold; the model can be saved. -/
example : ∃ a a', draft.m.isLocked = true ∧ draft.save (fun _ => false) false 2 states = .ok a ∧
    draft.save (fun _ => false) true 2 states = .ok a' := ⟨_, _, rfl, rfl, rfl⟩

/-- What the theorem says of it. -/
example {a : Archive} (h : draft.save (fun _ => false) false 2 states = .ok a) :
    ∃ l, a.load Symbols.declared true = .ok l ∧ l.d.m.g.nodes = [0, 1, 2, 3, 4, 5, 6] ∧
      l.states = [[some [⟨[2], [3, 4]⟩], none],
        [some [⟨[-1], [0, 2]⟩, ⟨[-1], [1]⟩], some [⟨[-1], []⟩, ⟨[-1], [2, 0, 1]⟩]]] := by
  obtain ⟨l, h1, h2, _, _, _, _, h3⟩ :=
    C41_round_trip_partial built accepted rfl python targets.1 targets.2 fits h true
  refine ⟨l, h1, by rw [h2.nodes, nodes]; rfl, ?_⟩
  rw [h3, show draft.m.g.decisions.length = 2 by decide +kernel]
  decide +kernel

end ArchiveExample

/-! ## Where it fails -/

namespace ArchiveExample

def isThrow {α : Type} : Res α → Bool
  | .throw => true
  | _ => false

theorem eq_throw {α : Type} {r : Res α} (h : isThrow r = true) : r = .throw := by
  cases r <;> simp_all [isThrow]

def isUB {α : Type} : Res α → Bool
  | .ub => true
  | _ => false

theorem eq_ub {α : Type} {r : Res α} (h : isUB r = true) : r = .ub := by
  cases r <;> simp_all [isUB]

/-- The value of a computation that succeeds. -/
def value {α : Type} (r : Res α) (d : α) : α := match r with
  | .ok a => a
  | _ => d

def succeeds {α : Type} : Res α → Bool
  | .ok _ => true
  | _ => false

theorem eq_ok {α : Type} {r : Res α} (d : α) (h : succeeds r = true) : r = .ok (value r d) := by
  cases r <;> simp_all [succeeds, value]

/-- An empty file. -/
def blank : Archive :=
  ⟨⟨0, 0, 0, 0⟩, ⟨0, 0, 0, 0⟩, [], [], fun _ => .nothing, none, [], fun _ _ => []⟩

/-- An ordering of two items in one list. -/
def lists : List BuildOp := [.construct 0 (.disjointLists 2 1) [], .construct 1 (.output 0) [0], .lock]

def listsDraft : Draft := value (Draft.new.run Symbols.declared lists) Draft.new

/-- Saved with a state that has not been initialised. -/
def sparse : Archive := value (listsDraft.save (fun _ => false) false 1 fun _ _ => none) blank

/-- Saved without the list, loaded, locked, and saved again with the same state. -/
def value0 : Nat → Nat → Option Val := fun _ _ => some [⟨[-1], [1, 0]⟩]

def first : Archive := value (listsDraft.save (fun _ => false) true 1 value0) blank

def loaded : Loaded := value (first.load Symbols.declared true) ⟨Draft.new, 0, []⟩

def relocked : Draft := (loaded.d.perform Symbols.declared .lock).1

def second : Archive := value (relocked.save (fun _ => false) true 1 value0) blank

/-- A product of a binary variable as a constraint, and then `*=` an integer. -/
def product : List BuildOp :=
  [.construct 0 (.binaryVar []) [], .construct 1 (.integer [] none (some 10)) [],
    .construct 2 (.nary .multiply) [0], .constraint 2, .addOperand 2 1, .lock]

def productDraft : Draft := value (Draft.new.run Symbols.declared product) Draft.new

def productFile : Archive := value (productDraft.save (fun _ => false) false 0 fun _ _ => none) blank

/-- One integer variable. -/
def oneInteger : Archive :=
  { blank with
    types := [.integerVariable], adj := "0\n".toList, payload := fun _ => .bounds [] 0 10,
    header := ⟨8, 1, 8, 0⟩, info := ⟨8, 1, 8, 0⟩ }

/-- A list that occurs twice. -/
def twice : Archive :=
  { blank with
    types := [.disjointLists, .disjointList, .disjointList, .size], adj := "0\n1 0\n2 0\n3 2\n".toList,
    payload := fun i => if i = 0 then .parts 2 1 else .index 0 }

end ArchiveExample

open ArchiveExample in
/-- C41 fails for sparse states of disjoint lists and sets: a model with a state in which `disjoint_lists` has not been
initialised is saved, but loading the file raises an error (`KeyError`: symbols.pyx 1429-1435 does not ask whether
the state is in the file). -/
theorem C41_sparse_fails :
    ∃ (bops : List BuildOp) (d : Draft) (a : Archive),
      Draft.new.run Symbols.declared bops = .ok d ∧ d.m.isLocked = true ∧
      d.save (fun _ => false) false 1 (fun _ _ => none) = .ok a ∧
      ∀ check, a.load Symbols.declared check = .throw :=
  ⟨lists, listsDraft, sparse, rfl, rfl, rfl, fun check => by
    cases check <;> exact eq_throw (by decide +kernel)⟩

open ArchiveExample in
/-- C41 fails for models that have been loaded from files with only the decisions: disjoint lists in them have
no lists, so that saving them again does not save their states, and that file cannot be loaded. -/
theorem C41_parts_fails :
    ∃ (bops : List BuildOp) (d e : Draft) (a a' : Archive) (l : Loaded),
      Draft.new.run Symbols.declared bops = .ok d ∧ d.save (fun _ => false) true 1 value0 = .ok a ∧
      a.load Symbols.declared true = .ok l ∧ l.d.perform Symbols.declared .lock = (e, .ok ()) ∧
      e.save (fun _ => false) true 1 value0 = .ok a' ∧ ∀ check, a'.load Symbols.declared check = .throw :=
  ⟨lists, listsDraft, relocked, first, second, loaded, rfl, rfl, eq_ok _ (by decide +kernel),
    Prod.ext rfl (eq_ok () (by decide +kernel)), eq_ok _ (by decide +kernel), fun check => by
    cases check <;> exact eq_throw (by decide +kernel)⟩

open ArchiveExample in
/-- C41 fails for models that have been changed in place: a constraint that does not have only the values 0 and 1 any
more is saved, but refused when it is loaded. -/
theorem C41_inplace_fails :
    ∃ (bops : List BuildOp) (d : Draft) (a : Archive),
      Draft.new.run Symbols.declared bops = .ok d ∧ d.m.isLocked = true ∧
      d.save (fun _ => false) false 0 (fun _ _ => none) = .ok a ∧
      ∀ check, a.load Symbols.declared check = .throw :=
  ⟨product, productDraft, productFile, eq_ok _ (by decide +kernel), by decide +kernel, eq_ok _ (by decide +kernel),
    fun check => by cases check <;> exact eq_throw (by decide +kernel)⟩

open ArchiveExample in
/-- Malformed files that are not rejected: the number of the objective may be negative (undefined behaviour). -/
theorem C41_negative_objective_fails :
    ∃ a : Archive, a.objective = some (-1) ∧ (∃ l, ({ a with objective := none }).load Symbols.declared true = .ok l) ∧
      a.load Symbols.declared true = .ub :=
  ⟨{ oneInteger with objective := some (-1) }, rfl, ⟨_, eq_ok ⟨Draft.new, 0, []⟩ (by decide +kernel)⟩,
    eq_ub (by decide +kernel)⟩

open ArchiveExample in
/-- The numbers of constraints are not checked (undefined behaviour). -/
theorem C41_constraint_number_fails :
    ∃ a : Archive, a.constraints = [7] ∧ (∃ l, ({ a with constraints := [] }).load Symbols.declared true = .ok l) ∧
      a.load Symbols.declared true = .ub :=
  ⟨{ oneInteger with constraints := [7] }, rfl, ⟨_, eq_ok ⟨Draft.new, 0, []⟩ (by decide +kernel)⟩,
    eq_ub (by decide +kernel)⟩

open ArchiveExample in
/-- Without the check of the header, a file with more class names than lines is loaded as a smaller model. -/
theorem C41_truncated_fails :
    ∃ (a : Archive) (l : Loaded), a.types.length = 2 ∧ a.info.numNodes = 2 ∧
      a.load Symbols.declared false = .ok l ∧ l.d.m.g.nodes = [0] :=
  ⟨{ oneInteger with types := [.integerVariable, .integerVariable], info := ⟨16, 2, 16, 0⟩ }, _, rfl, rfl,
    eq_ok ⟨Draft.new, 0, []⟩ (by decide +kernel), by decide +kernel⟩

open ArchiveExample in
/-- A part of disjoint lists may be given twice; it is one symbol then, and numbers of operands after it are wrong: they
may refer to no symbol (undefined behaviour), although the file satisfies `C41_malformed`'s conclusion for every
line. -/
theorem C41_repeated_part_fails :
    ∃ a : Archive, a.types.length = 4 ∧ (splitLines a.adj).map parseLine =
        [some [0], some [1, 0], some [2, 0], some [3, 2]] ∧ a.load Symbols.declared false = .ub :=
  ⟨twice, rfl, by decide +kernel, eq_ub (by decide +kernel)⟩

/-- Not vacuous: the file of one integer variable is loaded. -/
example : ∃ l, ArchiveExample.oneInteger.load Symbols.declared true = .ok l :=
  ⟨_, ArchiveExample.eq_ok ⟨Draft.new, 0, []⟩ (by decide +kernel)⟩

end Verif
