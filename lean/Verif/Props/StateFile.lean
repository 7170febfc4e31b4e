import Verif.Props.Archive
import Verif.Props.Sessions
import Verif.Model.StateFile

set_option linter.unusedSectionVars false
set_option linter.unusedSimpArgs false
set_option linter.unusedVariables false

/-!
# C65: saving and loading states
-/

namespace Verif

open Graph PyModel

/-- Specification: the decisions of two models are the same, one by one: kind, shape and class. -/
def SameDecisions (d e : Draft) (isList isList' : Nat → Bool) : Prop :=
  d.m.g.decisions.map (fun v => (d.S.kind v, isList v)) = e.m.g.decisions.map (fun v => (e.S.kind v, isList' v))

/-- Classes of decisions depend on nothing else. -/
theorem Kind.saved_decision {k : Kind} (h : k.isDecision = true) (b : Bool) (p p' : Kind) (s s' : List Int) :
    (k.saved b p s).1 = (k.saved b p' s').1 := by
  cases k <;> first | rfl | cases h

theorem zip_same {α : Type} {l l' : List α} (h : l <+: l') : ∀ p ∈ l.zip l', p.1 = p.2 := by
  obtain ⟨t, rfl⟩ := h
  induction l with
  | nil => simp
  | cons a l ih =>
    intro p hp
    rw [List.cons_append, List.zip_cons_cons] at hp
    rcases List.mem_cons.1 hp with rfl | hp
    · rfl
    · exact ih p hp

/-- C65.  States that have been saved are loaded into every model that has the same decisions: whatever other symbols both models have,
every decision has the values it was saved with, and no value where it was not initialised; all values are ones that the decisions accept
(so that C64 applies).  The model is locked, or its decisions are its first symbols (see `C65_order_fails`).  The hypotheses about the
saved model are those of C41. -/
theorem C65_saved_states_partial {bops : List BuildOp} {d : Draft} (hb : Draft.new.run Symbols.declared bops = .ok d)
    (hn : Draft.NaryAccepted Symbols.declared Draft.new bops) (hl : d.m.isLocked = true) {isList : Nat → Bool}
    (hpy : d.FromPython Symbols.declared isList) (hck : d.Checked Symbols.declared) (ht : d.Targets Symbols.declared)
    {numStates : Nat} {states : Nat → Nat → Option Val} (hst : ∀ j < numStates, ∀ v ∈ d.m.g.decisions, d.StateFits v (states j v))
    {a : Archive} (hsv : d.saveStates isList numStates states = .ok a) (check : Bool)
    {bops' : List BuildOp} {e : Draft} (hb' : Draft.new.run Symbols.declared bops' = .ok e)
    (hn' : Draft.NaryAccepted Symbols.declared Draft.new bops') {isList' : Nat → Bool} (hsame : SameDecisions d e isList isList')
    (hfirst : e.m.isLocked = true ∨ e.m.g.decisions <+: e.m.g.nodes) :
    e.loadStates Symbols.declared isList' a check = .ok ((List.range numStates).map fun j => d.m.g.decisions.map fun v => states j v) ∧
      ∀ j < numStates, ∀ p ∈ e.m.g.decisions.zip (d.m.g.decisions.map fun v => states j v), ∀ x ∈ p.2, (e.S.sem e.m.g p.1).ok [x] := by
  obtain ⟨l, h1, hmir, h3, _, _, h6, h7⟩ := C41_only_decision_partial hb hn hl hpy hck ht hst hsv check
  have hM := Draft.run_made Draft.made_new hn hb
  have hM' := Draft.run_made Draft.made_new hn' hb'
  have hs : d.m.g.sorted = true := hM.inv.sorted.2 (by simpa [PyModel.isLocked] using hl)
  have hpre : e.m.g.decisions <+: e.m.g.nodes := by
    rcases hfirst with hx | hx
    · have := Draft.decisions_at hM'.inv.wf (hM'.inv.sorted.2 (by simpa [PyModel.isLocked] using hx))
      rw [this.2]
      exact List.take_prefix _ _
    · exact hx
  have hpre' : d.m.g.decisions <+: d.m.g.nodes := by
    rw [(Draft.decisions_at hM.inv.wf hs).2]
    exact List.take_prefix _ _
  have hin : ∀ v ∈ d.m.g.decisions, (d.S.kind v).isDecision = true := fun v hv =>
    (hM.decisions v (hM.inv.wf.decMem v hv)).1 hv
  have hin' : ∀ v ∈ e.m.g.decisions, (e.S.kind v).isDecision = true := fun v hv =>
    (hM'.decisions v (hM'.inv.wf.decMem v hv)).1 hv
  have htypes : a.types = d.m.g.decisions.map (d.className isList) := by
    unfold Draft.saveStates Draft.save at hsv
    obtain ⟨h, _, hsv⟩ := Res.bind_eq_ok.1 hsv
    rw [← Res.ok.inj hsv]
    dsimp only
    rw [if_pos rfl, ← (Draft.decisions_at hM.inv.wf hs).2]
    rfl
  have hcls : d.m.g.decisions.map (d.className isList) = e.m.g.decisions.map (e.className isList') := by
    have key : ∀ (d e : Draft) (b b' : Nat → Bool) (l l' : List Nat), (∀ v ∈ l, (d.S.kind v).isDecision = true) →
        l.map (fun v => (d.S.kind v, b v)) = l'.map (fun v => (e.S.kind v, b' v)) →
        l.map (d.className b) = l'.map (e.className b') := by
      intro d e b b' l
      induction l with
      | nil =>
        intro l' _ h
        cases l' with
        | nil => rfl
        | cons _ _ => cases h
      | cons v l ih =>
        intro l' hd h
        cases l' with
        | nil => cases h
        | cons w l' =>
          rw [List.map_cons, List.map_cons, List.cons.injEq, Prod.mk.injEq] at h
          rw [List.map_cons, List.map_cons, ih l' (fun v hv => hd v (List.mem_cons_of_mem _ hv)) h.2]
          congr 1
          unfold Draft.className
          rw [← h.1.1, ← h.1.2]
          exact Kind.saved_decision (hd v List.mem_cons_self) _ _ _ _ _
    exact key d e isList isList' _ _ hin hsame
  refine ⟨?_, ?_⟩
  swap
  · intro j hj p hp x hx
    obtain ⟨i, hi⟩ := List.mem_iff_getElem?.1 hp
    obtain ⟨hi1, hi2⟩ := List.getElem?_zip_eq_some.1 hi
    rw [List.getElem?_map, Option.map_eq_some_iff] at hi2
    obtain ⟨v, hv, hp2⟩ := hi2
    have hvd := List.mem_of_getElem? hv
    have hpd := List.mem_of_getElem? hi1
    have hk : e.S.kind p.1 = d.S.kind v := by
      have := congrArg (fun l => l[i]?) hsame
      rw [List.getElem?_map, List.getElem?_map, hv, hi1] at this
      simpa using (congrArg Prod.fst (Option.some.inj this)).symm
    have m1 := hM.made v (hM.inv.wf.decMem v hvd)
    have m2 := hM'.made p.1 (hM'.inv.wf.decMem _ hpd)
    have i1 := Kind.decision_preds (hin v hvd) m1
    have i2 := Kind.decision_preds (hin' p.1 hpd) m2
    rw [i1] at m1
    rw [i2, hk, m1] at m2
    have hx' := (hst j hj v hvd).1 x (hp2.trans hx)
    unfold Symbols.sem at hx' ⊢
    rw [i1] at hx'
    rw [i2, hk, ← Res.ok.inj m2]
    exact hx'
  unfold Draft.loadStates
  rw [h1, Res.ok_bind, hmir.nodes, List.length_range, htypes, List.take_of_length_le (by rw [List.length_map]), hcls]
  rw [guardThrow_true, Res.ok_bind]
  · rw [h6, h7]
    congr 1
    refine List.map_congr_left fun j hj => ?_
    rw [List.map_map]
    conv_rhs => rw [(Draft.decisions_at hM.inv.wf hs).2, Draft.take_at (Draft.decisions_at hM.inv.wf hs).1, List.map_map]
    refine List.map_congr_left fun i hi => ?_
    simp [List.mem_range.1 hj]
  · intro p hp
    have := zip_same (hpre.map (e.className isList')) p hp
    rw [this]

/-- Classes have different numbers. -/
theorem ClassName.key_inj {a b : ClassName} (ha : ∀ root, a ≠ .unary (.squareRoot root)) (h : a.key = b.key) : a = b := by
  have b1 : ∀ x y : BinaryOp, x.ctorIdx = y.ctorIdx → x = y := by intro x y; cases x <;> cases y <;> decide
  have b2 : ∀ x y : NaryOp, x.ctorIdx = y.ctorIdx → x = y := by intro x y; cases x <;> cases y <;> decide
  have b3 : ∀ x y : ReduceOp, x.ctorIdx = y.ctorIdx → x = y := by intro x y; cases x <;> cases y <;> decide
  have b4 : ∀ x y : FoldOp, x.ctorIdx = y.ctorIdx → x = y := by intro x y; cases x <;> cases y <;> decide
  unfold ClassName.key at h
  split at h <;> split at h <;> first
    | rfl
    | exact absurd rfl (ha _)
    | exact absurd h (by decide)
    | exact congrArg _ (b1 _ _ (congrArg Prod.snd h))
    | exact congrArg _ (b2 _ _ (congrArg Prod.snd h))
    | exact congrArg _ (b3 _ _ (congrArg Prod.snd h))
    | exact congrArg _ (b4 _ _ (congrArg Prod.snd h))
    | (exfalso; have := congrArg Prod.fst h; revert this; dsimp only; decide)

/-- States of a model with a decision of another class at the same place are refused, as long as the model has a symbol at that place. -/
theorem C65_mismatch {e : Draft} {isList' : Nat → Bool} {a : Archive} {check : Bool} {l : Loaded}
    (hld : a.load Symbols.declared check = .ok l) {i v : Nat} {c : ClassName} (hi : i < l.d.m.g.nodes.length) (hc : a.types[i]? = some c)
    (hv : e.m.g.nodes[i]? = some v) (hne : c ≠ e.className isList' v) (hroot : ∀ root, c ≠ .unary (.squareRoot root)) :
    e.loadStates Symbols.declared isList' a check = .throw := by
  unfold Draft.loadStates
  rw [hld, Res.ok_bind, guardThrow_false, Res.throw_bind]
  intro h
  refine hne (ClassName.key_inj hroot (h (c, e.className isList' v) ?_))
  rw [List.mem_iff_getElem?]
  refine ⟨i, List.getElem?_zip_eq_some.2 ⟨?_, ?_⟩⟩
  · rw [List.getElem?_take, if_pos hi, hc]
  · rw [List.getElem?_map, hv]
    rfl

/-! ## Not vacuous -/

namespace StateFileExample

open ArchiveExample

/-- Another model with the decisions of `ArchiveExample.ops`: it says something else about them. -/
def other : List BuildOp :=
  [.construct 0 (.constant ⟨[], [7]⟩) [], .construct 1 (.integer [2] none (some 10)) [], .construct 2 (.disjointLists 3 2) [],
    .construct 3 (.output 0) [2], .construct 4 (.output 0) [2], .construct 5 (.unary .negative) [1], .construct 6 (.reduce .sum 0) [5],
    .construct 7 (.binary .add) [6, 0], .lock]

def otherDraft : Draft := value (Draft.new.run Symbols.declared other) Draft.new

theorem otherAccepted : Draft.NaryAccepted Symbols.declared Draft.new other :=
  ⟨fun a o p h => (by cases h), fun a o p h => (by cases h), fun a o p h => (by cases h), fun a o p h => (by cases h),
    fun a o p h => (by cases h), fun a o p h => (by cases h), fun a o p h => (by cases h), fun a o p h => (by cases h),
    fun a o p h => (by cases h), trivial⟩

theorem same : SameDecisions draft otherDraft (fun _ => false) (fun _ => false) := by
  unfold SameDecisions
  rfl

example : ∃ a, draft.saveStates (fun _ => false) 2 states = .ok a ∧
    otherDraft.loadStates Symbols.declared (fun _ => false) a true =
      .ok [[some [⟨[2], [3, 4]⟩], some [⟨[-1], [0, 2]⟩, ⟨[-1], [1]⟩]], [none, some [⟨[-1], []⟩, ⟨[-1], [2, 0, 1]⟩]]] := by
  obtain ⟨a, ha⟩ : ∃ a, draft.saveStates (fun _ => false) 2 states = .ok a := ⟨_, rfl⟩
  refine ⟨a, ha, ?_⟩
  rw [(C65_saved_states_partial built accepted rfl python targets.1 targets.2 fits ha true (bops' := other) (e := otherDraft) rfl otherAccepted same
    (Or.inl rfl)).1, show draft.m.g.decisions = [0, 1] by decide +kernel]
  decide +kernel

/-! ## Where it fails -/

/-- A constant, then an integer. -/
def late : List BuildOp := [.construct 0 (.constant ⟨[], [2]⟩) [], .construct 1 (.integer [] none (some 10)) []]

def lateDraft : Draft := value (Draft.new.run Symbols.declared late) Draft.new

def lateLocked : Draft := value (Draft.new.run Symbols.declared (late ++ [.lock])) Draft.new

def three : Nat → Nat → Option Val := fun _ _ => some [⟨[], [3]⟩]

def lateFile : Archive := value (lateLocked.saveStates (fun _ => false) 1 three) blank

/-- A list of a number of items. -/
def listOf (n : Int) : List BuildOp := [.construct 0 (.collection n n n) [], .lock]

def listDraft (n : Int) : Draft := value (Draft.new.run Symbols.declared (listOf n)) Draft.new

def swapped : Nat → Nat → Option Val := fun _ _ => some [⟨[3], [2, 1, 0]⟩]

def listFile : Archive := value ((listDraft 3).saveStates (fun _ => true) 1 swapped) blank

/-- Two integers. -/
def two : List BuildOp := [.construct 0 (.integer [] none (some 10)) [], .construct 1 (.integer [] none (some 10)) [], .lock]

def twoDraft : Draft := value (Draft.new.run Symbols.declared two) Draft.new

def twoFile : Archive := value (twoDraft.saveStates (fun _ => false) 1 three) blank

/-- One integer. -/
def one : List BuildOp := [.construct 0 (.integer [] none (some 10)) []]

def oneDraft : Draft := value (Draft.new.run Symbols.declared one) Draft.new

/-- A list is added. -/
def grown : Draft := (oneDraft.perform Symbols.declared (.construct 1 (.collection 3 3 3) [])).1

/-- States of a list are not taken for states of a set, nor of an integer. -/
example : (listDraft 3).loadStates Symbols.declared (fun _ => false) listFile true = .throw ∧
    twoDraft.loadStates Symbols.declared (fun _ => false) listFile true = .throw := by
  obtain ⟨l, hl, hn⟩ : ∃ l, listFile.load Symbols.declared true = .ok l ∧ 0 < l.d.m.g.nodes.length := by
    have h := eq_ok (r := (listFile.load Symbols.declared true).bind fun l => .ok l.d.m.g.nodes.length) 0 (by decide +kernel)
    rw [show value ((listFile.load Symbols.declared true).bind fun l => .ok l.d.m.g.nodes.length) 0 = 1 by decide +kernel] at h
    cases hl : listFile.load Symbols.declared true with
    | ok l =>
      refine ⟨l, rfl, ?_⟩
      rw [hl] at h
      rw [Res.ok.inj h]
      exact Nat.one_pos
    | throw => rw [hl] at h; cases h
    | ub => rw [hl] at h; cases h
  exact ⟨C65_mismatch hl hn (c := .listVariable) (v := 0) rfl rfl (by intro h; cases h) (by intro _ h; cases h),
    C65_mismatch hl hn (c := .listVariable) (v := 0) rfl rfl (by intro h; cases h) (by intro _ h; cases h)⟩

end StateFileExample

open ArchiveExample StateFileExample in
/-- C65 fails for models that are not locked: the states of a model are refused by a model that has been built in exactly the same way,
because the symbols are compared in the order in which they have been made, while the file has only decisions. -/
theorem C65_order_fails :
    ∃ (bops : List BuildOp) (d e : Draft) (a : Archive),
      Draft.new.run Symbols.declared (bops ++ [.lock]) = .ok d ∧ Draft.new.run Symbols.declared bops = .ok e ∧
      d.saveStates (fun _ => false) 1 three = .ok a ∧
      d.loadStates Symbols.declared (fun _ => false) a true = .ok [[some [⟨[], [3]⟩]]] ∧
      ∀ check, e.loadStates Symbols.declared (fun _ => false) a check = .throw :=
  ⟨late, lateLocked, lateDraft, lateFile, rfl, rfl, rfl,
    by rw [eq_ok (r := lateLocked.loadStates _ _ _ _) [] (by decide +kernel)]; congr 1; decide +kernel,
    fun check => by cases check <;> exact eq_throw (by decide +kernel)⟩

open ArchiveExample StateFileExample in
/-- C65: only the classes of decisions are compared.  States of a list of three items are loaded into a model with a list of two items,
which then has three (the test for this in tests/test_states.py 175-182 is disabled). -/
theorem C65_values_fails :
    ∃ (d e : Draft) (a : Archive) (x : Val),
      Draft.new.run Symbols.declared (listOf 3) = .ok d ∧ Draft.new.run Symbols.declared (listOf 2) = .ok e ∧
      d.saveStates (fun _ => true) 1 swapped = .ok a ∧
      e.loadStates Symbols.declared (fun _ => true) a true = .ok [[some x]] ∧ ¬(e.S.sem e.m.g 0).ok [x] :=
  ⟨listDraft 3, listDraft 2, listFile, [⟨[3], [2, 1, 0]⟩], rfl, rfl, rfl,
    by rw [eq_ok (r := (listDraft 2).loadStates _ _ _ _) [] (by decide +kernel)]; congr 1; decide +kernel,
    by
      rintro ⟨data, h, _⟩
      have h' : _ = [[(2 : Int)]] := congrArg (fun xs : List Val => (xs.headD []).map Arr.shape) h
      revert h'
      decide +kernel⟩

open ArchiveExample StateFileExample in
/-- C65: states of models with more decisions are loaded.  A symbol that is added later finds the state of a decision of another class
at its place: here a list finds the state of an integer. -/
theorem C65_later_fails :
    ∃ (d e e' : Draft) (a : Archive) (x y : Val),
      Draft.new.run Symbols.declared two = .ok d ∧ Draft.new.run Symbols.declared one = .ok e ∧
      d.saveStates (fun _ => false) 1 three = .ok a ∧
      e.loadStates Symbols.declared (fun _ => false) a true = .ok [[some x, some y]] ∧ e.m.g.nodes.length = 1 ∧
      e.perform Symbols.declared (.construct 1 (.collection 3 3 3) []) = (e', .ok ()) ∧ (e'.m.g.mem 1).topo = 1 ∧
      ¬(e'.S.sem e'.m.g 1).ok [y] :=
  ⟨twoDraft, oneDraft, grown, twoFile, [⟨[], [3]⟩], [⟨[], [3]⟩], rfl, rfl, rfl,
    by rw [eq_ok (r := oneDraft.loadStates _ _ _ _) [] (by decide +kernel)]; congr 1; decide +kernel, rfl,
    Prod.ext rfl (eq_ok () (by decide +kernel)), by decide +kernel, by
      rintro ⟨data, h, _⟩
      have h' : _ = [[(3 : Int)]] := congrArg (fun xs : List Val => (xs.headD []).map Arr.shape) h
      revert h'
      decide +kernel⟩

end Verif
