import Verif.Lemmas.ProgramFileStep
import Verif.Lemmas.ArchiveFile

set_option linter.unusedSimpArgs false
set_option linter.unusedVariables false

/-! Helper lemmas: the whole file of a program. -/

namespace Verif

open Graph PyModel Draft

namespace Script

variable {M : Generated} {m : PyModel} {isList : Nat → Bool}

theorem Loading.start : Loading M m 0 [] := ⟨rfl, made_nil, fun j hj => by omega⟩

theorem Source.prefixes (h : Source M m isList) : ∀ i ≤ M.rows.length, ∃ L, Loading M m i L := by
  intro i
  induction i with
  | zero => exact fun _ => ⟨[], .start⟩
  | succ i ih =>
    intro hi
    obtain ⟨L, hL⟩ := ih (by omega)
    obtain ⟨_, L', _, _, hL'⟩ := hL.step h (by omega)
    exact ⟨L', hL'⟩

/-- All classes and files. -/
theorem Source.items (h : Source M m isList) : ∃ item : Nat → TypeName × SymbolFiles,
    ∀ i < M.rows.length, M.itemOf m isList ((M.draft m).at_ i) = .ok (item i) := by
  have : ∀ i, ∃ it, i < M.rows.length → M.itemOf m isList ((M.draft m).at_ i) = .ok it := by
    intro i
    by_cases hi : i < M.rows.length
    · obtain ⟨L, hL⟩ := h.prefixes i hi.le
      obtain ⟨it, _, e, _⟩ := hL.step h hi
      exact ⟨it, fun _ => e⟩
    · exact ⟨(.permutation, .catalog .nothing), fun hc => absurd hc hi⟩
  choose item hitem using this
  exact ⟨item, hitem⟩

/-- All lines. -/
theorem Source.lines (h : Source M m isList) {item : Nat → TypeName × SymbolFiles}
    (hit : ∀ i < M.rows.length, M.itemOf m isList ((M.draft m).at_ i) = .ok (item i)) {files : Nat → SymbolFiles}
    (hf : ∀ i < M.rows.length, files i = (item i).2) : ∀ k i L, i + k = M.rows.length → Loading M m i L →
    ∃ L', ((List.range' i k).map fun i => (((item i).1, adjLine i ((M.draft m).operands ((M.draft m).at_ i))), i)).foldlM
      (Script.loadLine files) L = .ok L' ∧ Loading M m M.rows.length L' := by
  intro k
  induction k with
  | zero =>
    intro i L hi hL
    obtain rfl : i = M.rows.length := by omega
    exact ⟨L, rfl, hL⟩
  | succ k ih =>
    intro i L hi hL
    obtain ⟨it, L1, e0, e1, h1⟩ := hL.step h (show i < M.rows.length by omega)
    rw [hit i (by omega)] at e0
    cases e0
    obtain ⟨L2, e2, h2⟩ := ih (i + 1) L1 (by omega) h1
    refine ⟨L2, ?_, h2⟩
    rw [List.range'_succ, List.map_cons, List.foldlM_cons, e1 files (hf i (by omega)), Res.ok_bind]
    exact e2

/-- The constraints. -/
theorem load_constraints {M : Generated} {L : Script} {f : Nat → Nat} {pos : Nat → Int} : ∀ (cs : List Nat) (N : Generated), N.rows = L →
    (∀ c ∈ cs, 0 ≤ pos c ∧ (pos c).toNat < L.length ∧ f (pos c).toNat = c ∧ (L.row (pos c).toNat).built.asKind.isArray = true ∧
      sizeOne (L.row (pos c).toNat).out.shape = true ∧ ∃ a, (L.row (pos c).toNat).out.claim = .ok a ∧ a.logical = true) →
    ∃ N', (cs.map pos).foldlM Generated.loadConstraint N = .ok N' ∧ N'.rows = L ∧ N'.objective = N.objective ∧
      N'.constraints.map f = N.constraints.map f ++ cs ∧
      ((∀ c ∈ N.constraints, c < L.length) → ∀ c ∈ N'.constraints, c < L.length) := by
  intro cs
  induction cs with
  | nil => exact fun N hN _ => ⟨N, rfl, hN, rfl, by simp, id⟩
  | cons c cs ih =>
    intro N hN hc
    obtain ⟨h1, h2, h3, h4, h5, a, h6, h7⟩ := hc c (by simp)
    obtain ⟨N', e1, e2, e3, e4, e5⟩ := ih { N with constraints := N.constraints ++ [(pos c).toNat] } hN (fun c hc' => hc c (by simp [hc']))
    refine ⟨N', ?_, e2, e3, ?_, ?_⟩
    · rw [List.map_cons, List.foldlM_cons]
      have : Generated.loadConstraint N (pos c) = .ok { N with constraints := N.constraints ++ [(pos c).toNat] } := by
        unfold Generated.loadConstraint Generated.addConstraint Script.arrayArg
        rw [hN, guardUB_true ⟨h1, h2⟩, Res.ok_bind, guardThrow_true h4, Res.ok_bind, guardUB_true h2, Res.ok_bind, h6, Res.ok_bind,
          guardThrow_true h7, Res.ok_bind, guardThrow_true h5, Res.ok_bind]
      rw [this, Res.ok_bind]
      exact e1
    · rw [e4]
      simp [h3]
    · intro hN'
      refine e5 fun d hd => ?_
      rcases List.mem_append.1 hd with hd | hd
      · exact hN' d hd
      · simp only [List.mem_singleton] at hd
        rw [hd]
        exact h2

/-- Saving and loading. -/
theorem Source.round_trip (h : Source M m isList) (ho : m.g.objective = M.objective) (hc : m.g.constraints = M.constraints)
    (hol : ∀ o ∈ M.objective, o < M.rows.length ∧ sizeOne (M.rows.row o).out.shape = true ∧ (M.rows.row o).built.asKind.isArray = true)
    (hcl : ∀ c ∈ M.constraints, c < M.rows.length ∧ (sizeOne (M.rows.row c).out.shape = true ∧
      ∃ a, (M.rows.row c).out.claim = .ok a ∧ a.logical = true) ∧ (M.rows.row c).built.asKind.isArray = true) :
    ∃ F L, M.save m isList = .ok F ∧ F.load = .ok L ∧ Loading M m M.rows.length L.rows ∧ Generated.Same (M.draft m).at_ L M := by
  have w : (M.draft m).m.g.WF := h.whole.inv.wf
  have hs : (M.draft m).m.g.sorted = true := h.whole.sorted
  have hlen : (M.draft m).m.g.nodes.length = M.rows.length := h.count
  obtain ⟨item, hit⟩ := h.items
  have hn : m.g.nodes = (List.range M.rows.length).map (M.draft m).at_ := by
    have := take_at (d := M.draft m) (k := M.rows.length) (by omega)
    rw [← this]
    show m.g.nodes = m.g.nodes.take _
    rw [List.take_of_length_le (by rw [h.count])]
  have hitems : m.g.nodes.mapM (M.itemOf m isList) = .ok ((List.range M.rows.length).map item) := by
    rw [hn, List.mapM_map]
    exact mapM_ok _ item _ fun i hi => hit i (List.mem_range.1 hi)
  have hpos : ∀ v < M.rows.length, 0 ≤ (M.draft m).pos v ∧ ((M.draft m).pos v).toNat < M.rows.length ∧
      (M.draft m).at_ ((M.draft m).pos v).toNat = v := by
    intro v hv
    obtain ⟨a, b, c⟩ := at_pos w hs (show v ∈ (M.draft m).m.g.nodes from (h.whole.nodes v).2 hv)
    exact ⟨a, by omega, c⟩
  have hsave : M.save m isList = .ok {
      types := ((List.range M.rows.length).map item).map Prod.fst
      adj := m.g.nodes.flatMap fun v => adjLine ((M.draft m).pos v).toNat ((m.g.mem v).preds.map fun p => ((M.draft m).pos p).toNat)
      files := fun i => (((List.range M.rows.length).map item).getD i (.permutation, .catalog .nothing)).2
      objective := m.g.objective.map (M.draft m).pos
      constraints := m.g.constraints.map (M.draft m).pos } := by
    unfold Generated.save
    rw [hitems]
    rfl
  have hlines : ((((List.range M.rows.length).map item).map Prod.fst).zip (splitLines (m.g.nodes.flatMap fun v =>
      adjLine ((M.draft m).pos v).toNat ((m.g.mem v).preds.map fun p => ((M.draft m).pos p).toNat)))).zipIdx =
      (List.range' 0 M.rows.length).map fun i => (((item i).1, adjLine i ((M.draft m).operands ((M.draft m).at_ i))), i) := by
    rw [splitLines_adj, hn, List.map_map, List.map_map, List.zip_map']
    refine List.ext_getElem? fun i => ?_
    rw [List.getElem?_zipIdx]
    by_cases hi : i < M.rows.length
    · have : (M.draft m).pos ((M.draft m).at_ i) = i := pos_at w hs (by omega)
      simp only [List.getElem?_map, List.getElem?_range hi, List.getElem?_range' hi, Option.map_some, Function.comp, this, Int.toNat_natCast,
        Nat.zero_add, Nat.one_mul]
      rfl
    · rw [List.getElem?_eq_none (by simp; omega), List.getElem?_eq_none (by simp; omega)]
      rfl
  obtain ⟨L, e1, hL⟩ := h.lines hit (files := fun i => (((List.range M.rows.length).map item).getD i (.permutation, .catalog .nothing)).2)
    (fun i hi => by simp [List.getD_eq_getElem?_getD, List.getElem?_range hi]) M.rows.length 0 [] (by omega) .start
  have hrow : ∀ v < M.rows.length, Row.Loads (M.draft m).at_ (L.row ((M.draft m).pos v).toNat) (M.rows.row v) := by
    intro v hv
    obtain ⟨a, b, c⟩ := hpos v hv
    have := hL.loads _ b
    rwa [c] at this
  have hobj : ∃ N : Generated, Generated.loadObjective ⟨L, none, []⟩ (m.g.objective.map (M.draft m).pos) = .ok N ∧ N.rows = L ∧
      N.objective.map (M.draft m).at_ = M.objective ∧ N.constraints = [] ∧ ∀ o ∈ N.objective, o < L.length := by
    rw [ho]
    cases hob : M.objective with
    | none => exact ⟨_, rfl, rfl, rfl, rfl, by simp⟩
    | some o =>
      obtain ⟨h1, h2, h3⟩ := hol o (by rw [hob]; rfl)
      obtain ⟨a, b, c⟩ := hpos o h1
      have hr := hrow o h1
      refine ⟨⟨L, some ((M.draft m).pos o).toNat, []⟩, ?_, rfl, by simp [c], rfl, by simp [hL.length, b]⟩
      have hb : ((M.draft m).pos o).toNat < L.length := by rw [hL.length]; exact b
      have hb' : (M.draft m).pos o < (L.length : Int) := by omega
      show Generated.loadObjective ⟨L, none, []⟩ (some ((M.draft m).pos o)) = _
      unfold Generated.loadObjective Generated.minimize Script.arrayArg
      dsimp only
      rw [guardThrow_true hb', Res.ok_bind, guardUB_true a, Res.ok_bind, guardThrow_true (hr.kind.isArray.trans h3), Res.ok_bind,
        guardUB_true hb, Res.ok_bind, guardThrow_true (by rw [hr.like.shape]; exact h2), Res.ok_bind]
  obtain ⟨N, e2, hN, hNo, hNc, hNl⟩ := hobj
  obtain ⟨N', e3, e4, e5, e6, e7⟩ := load_constraints (M := M) (L := L) (f := (M.draft m).at_) (pos := (M.draft m).pos) M.constraints N hN (by
    intro c hc'
    obtain ⟨h1, ⟨h2, h3⟩, h4⟩ := hcl c hc'
    obtain ⟨a, b, d⟩ := hpos c h1
    have hr := hrow c h1
    refine ⟨a, by rw [hL.length]; exact b, d, hr.kind.isArray.trans h4, by rw [hr.like.shape]; exact h2, ?_⟩
    rw [hr.same.claim]
    exact h3)
  refine ⟨_, N', hsave, ?_, by rw [e4]; exact hL, ?_⟩
  · unfold ProgramFile.load
    simp only [hlines]
    rw [e1, Res.ok_bind, e2, Res.ok_bind, hc, e3]
  · refine ⟨by rw [e4, hL.length], ?_, ?_, ?_, ?_, ?_, ⟨by rw [e4, e5]; exact hNl, by rw [e4]; exact e7 (by rw [hNc]; simp)⟩, by rw [e5, hNo], by rw [e6, hNc]; rfl⟩
    · intro v hv
      obtain ⟨_, b, c⟩ := hpos v hv
      exact ⟨_, by rw [e4, hL.length]; exact b, c⟩
    · intro i hi
      rw [e4, hL.length] at hi
      exact h.at_lt hi
    · intro i hi j hj e
      rw [e4, hL.length] at hi hj
      exact at_inj w (by omega) (by omega) e
    · intro i hi
      rw [e4, hL.length] at hi
      rw [e4]
      exact (hL.loads i hi).same
    · intro i j hij hj hdi hdj
      rw [e4, hL.length] at hj
      rw [e4] at hdi hdj
      have hi : i < M.rows.length := by omega
      rw [(hL.loads i hi).same.decision] at hdi
      rw [(hL.loads j hj).same.decision] at hdj
      have di := (decision_iff w hs (by omega)).1 ((h.whole.decisions _ (h.at_lt hi)).2 hdi)
      have dj := (decision_iff w hs (by omega)).1 ((h.whole.decisions _ (h.at_lt hj)).2 hdj)
      obtain ⟨_, e7⟩ := decision_at w hs di
      obtain ⟨_, e8⟩ := decision_at w hs dj
      rw [← e7, ← e8]
      have hp : (M.draft m).m.g.decisions.Pairwise (· < ·) := by
        show m.g.decisions.Pairwise (· < ·)
        rw [h.whole.order]
        exact List.Pairwise.filter _ List.pairwise_lt_range
      exact List.pairwise_iff_getElem.1 hp i j di dj hij

/-- A program that has been made. -/
theorem Source.of_run {p : Program} (hp : p.run = .ok M) (hm : PyModel.new.run M.ops = .ok m) (hpy : M.rows.FromPython isList) :
    Source M m isList ∧ m.g.objective = M.objective ∧ m.g.constraints = M.constraints := by
  obtain ⟨e, ho, hc⟩ := Program.run_inv hp
  have hmade := made_of_run e
  obtain ⟨m', e1, _, w, e2, e3⟩ := Generated.built_shaped (M := M)
    (Shaped.of_before (fun i hi => hmade.before hi) fun i hi => hmade.alone hi) ho hc
  rw [hm] at e1
  cases e1
  exact ⟨⟨hmade, w, hpy⟩, e2, e3⟩

end Script

end Verif
