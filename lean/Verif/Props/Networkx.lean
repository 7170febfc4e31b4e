import Verif.Lemmas.Networkx
import Verif.Props.Build

/-!
# C70: the exported graph is the model
-/

namespace Verif

open Graph PyModel

/-- C70: for every history of a model, `to_networkx()` succeeds and gives a graph with a node for each symbol, an edge for each operand,
one for the objective and one for each constraint (`Graph.Exports`).  `cls` are the names of the symbols' classes, which need not be
different. -/
theorem C70_export {ops : List ModelOp} {m : PyModel} (h : PyModel.new.run ops = .ok m) (cls : Nat → List Char) :
    ∃ G, m.g.toNetworkx (fun v => symbolRepr (cls v) v) = .ok G ∧ m.g.Exports (fun v => symbolRepr (cls v) v) G := by
  have wf := (reachable h).wf
  have hinj : ∀ v w, symbolRepr (cls v) v = symbolRepr (cls w) w → v = w := fun _ _ e => symbolRepr_inj e
  have hm : ∀ v, symbolRepr (cls v) v ≠ minimizeLabel := fun v => symbolRepr_minimize _ _
  have hc : ∀ v, symbolRepr (cls v) v ≠ constraintsLabel := fun v => symbolRepr_constraints _ _
  have z1 : ∀ v w, (m.g.objective.toList.map fun o => (symbolRepr (cls o) o, minimizeLabel)).count (symbolRepr (cls v) v, symbolRepr (cls w) w) = 0 :=
    fun v w => List.count_eq_zero.2 fun h => by
      obtain ⟨c, _, e⟩ := List.mem_map.1 h
      exact hm w (congrArg Prod.snd e).symm
  have z2 : ∀ v w, (m.g.constraints.map fun c => (symbolRepr (cls c) c, constraintsLabel)).count (symbolRepr (cls v) v, symbolRepr (cls w) w) = 0 :=
    fun v w => List.count_eq_zero.2 fun h => by
      obtain ⟨c, _, e⟩ := List.mem_map.1 h
      exact hc w (congrArg Prod.snd e).symm
  have ne : minimizeLabel ≠ constraintsLabel := by decide
  have z3 : ∀ v, (m.g.objective.toList.map fun o => (symbolRepr (cls o) o, minimizeLabel)).count (symbolRepr (cls v) v, constraintsLabel) = 0 :=
    fun v => List.count_eq_zero.2 fun h => by
      obtain ⟨c, _, e⟩ := List.mem_map.1 h
      exact ne (congrArg Prod.snd e)
  have z4 : ∀ v, (m.g.constraints.map fun c => (symbolRepr (cls c) c, constraintsLabel)).count (symbolRepr (cls v) v, minimizeLabel) = 0 :=
    fun v => List.count_eq_zero.2 fun h => by
      obtain ⟨c, _, e⟩ := List.mem_map.1 h
      exact ne (congrArg Prod.snd e).symm
  have z5 : ∀ v b, (∀ w, symbolRepr (cls w) w ≠ b) →
      (m.g.operandEdges (fun v => symbolRepr (cls v) v) m.g.nodes).count (symbolRepr (cls v) v, b) = 0 :=
    fun v b hb => List.count_eq_zero.2 fun h => by
      obtain ⟨u, _, hu⟩ := List.mem_flatMap.1 h
      obtain ⟨c, _, e⟩ := List.mem_map.1 hu
      exact hb c (congrArg Prod.snd e)
  refine ⟨_, toNetworkx_eq wf hinj hm hc, rfl, fun v hv w hw => ?_, fun v hv => ?_, fun v hv => ?_, fun e he => ?_⟩
  · have e := count_operandEdges (g := m.g) (name := fun v => symbolRepr (cls v) v) hinj (v := v) (w := w) wf.nodup
    rw [if_pos hv] at e
    rw [List.count_append, List.count_append, e, z1, z2]
    exact wf.link v hv w hw
  · rw [List.count_append, List.count_append, z5 v _ hm, z4, count_label (name := fun v => symbolRepr (cls v) v) hinj]
    cases m.g.objective with
    | none => simp
    | some o => simp [List.count_cons]
  · rw [List.count_append, List.count_append, z5 v _ hc, z3, count_label (name := fun v => symbolRepr (cls v) v) hinj]
    simp
  · rcases List.mem_append.1 he with he | he
    · rcases List.mem_append.1 he with he | he
      · obtain ⟨u, hu, he⟩ := List.mem_flatMap.1 he
        obtain ⟨w, hw, rfl⟩ := List.mem_map.1 he
        exact ⟨u, hu, rfl, .inl ⟨w, wf.succMem u hu w hw, rfl⟩⟩
      · obtain ⟨o, ho, rfl⟩ := List.mem_map.1 he
        exact ⟨o, wf.objMem o (by simpa using ho), rfl, .inr (.inl rfl)⟩
    · obtain ⟨c, hcc, rfl⟩ := List.mem_map.1 he
      exact ⟨c, wf.conMem c hcc, rfl, .inr (.inr rfl)⟩

/-- The symbols in an exported graph. -/
theorem Graph.Exports.symbols {g : Graph} {cls : Nat → List Char} {G : MultiDiGraph (List Char)}
    (h : g.Exports (fun v => symbolRepr (cls v) v) G) :
    G.nodes.filter (fun l => l.head? = some '<') = g.nodes.map fun v => symbolRepr (cls v) v := by
  rw [h.nodes, List.filter_append, List.filter_append, List.filter_eq_self.2, List.filter_eq_nil_iff.2, List.filter_eq_nil_iff.2]
  · simp
  · intro l hl
    split at hl
    · cases hl
    · rw [List.mem_singleton.1 hl]
      decide
  · intro l hl
    split at hl
    · cases hl
    · rw [List.mem_singleton.1 hl]
      decide
  · intro l hl
    obtain ⟨v, _, rfl⟩ := List.mem_map.1 hl
    simp [symbolRepr_head]

/-- Two models whose exported graphs are the same have the same symbols in the same order, each with the same operands the same numbers
of times, the same objective and the same constraints. -/
theorem C70_same {ops ops' : List ModelOp} {m m' : PyModel} (h : PyModel.new.run ops = .ok m) (h' : PyModel.new.run ops' = .ok m')
    {cls cls' : Nat → List Char}
    (he : m.g.toNetworkx (fun v => symbolRepr (cls v) v) = m'.g.toNetworkx (fun v => symbolRepr (cls' v) v)) :
    m.g.nodes = m'.g.nodes ∧ (∀ v ∈ m.g.nodes, cls v = cls' v) ∧ (∀ w ∈ m.g.nodes, (m.g.mem w).preds.Perm (m'.g.mem w).preds) ∧
      m.g.objective = m'.g.objective ∧ m.g.constraints.Perm m'.g.constraints := by
  obtain ⟨G, e, x⟩ := C70_export h cls
  obtain ⟨G', e', x'⟩ := C70_export h' cls'
  have wf := (reachable h).wf
  have wf' := (reachable h').wf
  rw [e, e'] at he
  cases he
  have hs := x.symbols.symm.trans x'.symbols
  have hn : m.g.nodes = m'.g.nodes ∧ ∀ v ∈ m.g.nodes, symbolRepr (cls v) v = symbolRepr (cls' v) v := by
    generalize m.g.nodes = l at hs
    generalize m'.g.nodes = l' at hs
    induction l generalizing l' with
    | nil =>
      cases l' with
      | nil => exact ⟨rfl, by simp⟩
      | cons w l' => cases hs
    | cons v l ih =>
      cases l' with
      | nil => cases hs
      | cons w l' =>
        simp only [List.map_cons, List.cons.injEq] at hs
        obtain ⟨e1, e2⟩ := hs
        have hvw := symbolRepr_inj e1
        subst hvw
        obtain ⟨a, b⟩ := ih _ e2
        refine ⟨by rw [a], fun u hu => ?_⟩
        rcases List.mem_cons.1 hu with rfl | hu
        · exact e1
        · exact b u hu
  obtain ⟨hn, hr⟩ := hn
  refine ⟨hn, fun v hv => ?_, fun w hw => ?_, ?_, ?_⟩
  · have := hr v hv
    simp only [symbolRepr, List.cons_append, List.cons.injEq, true_and] at this
    exact List.append_cancel_right this
  · refine List.perm_iff_count.2 fun v => ?_
    by_cases hv : v ∈ m.g.nodes
    · have a := x.operands v hv w hw
      have b := x'.operands v (hn ▸ hv) w (hn ▸ hw)
      rw [← a, ← b, hr v hv, hr w hw]
    · have a : (m.g.mem w).preds.count v = 0 := List.count_eq_zero.2 fun hp => hv (wf.predMem w hw v hp)
      have b : (m'.g.mem w).preds.count v = 0 := List.count_eq_zero.2 fun hp => hv (hn ▸ wf'.predMem w (hn ▸ hw) v hp)
      rw [a, b]
  · have key : ∀ v ∈ m.g.nodes, (m.g.objective = some v ↔ m'.g.objective = some v) := by
      intro v hv
      have a := x.objective v hv
      have b := x'.objective v (hn ▸ hv)
      simp only [← hr v hv] at b
      rw [a] at b
      by_cases h1 : m.g.objective = some v <;> by_cases h2 : m'.g.objective = some v <;> simp_all
    cases ho : m.g.objective with
    | some o => exact ((key o (wf.objMem o ho)).1 ho).symm
    | none =>
      cases ho' : m'.g.objective with
      | none => rfl
      | some o =>
        rw [(key o (hn ▸ wf'.objMem o ho')).2 ho'] at ho
        cases ho
  · refine List.perm_iff_count.2 fun v => ?_
    by_cases hv : v ∈ m.g.nodes
    · have a := x.constraints v hv
      have b := x'.constraints v (hn ▸ hv)
      rw [← a, ← b, hr v hv]
    · rw [List.count_eq_zero.2 fun hp => hv (wf.conMem v hp), List.count_eq_zero.2 fun hp => hv (hn ▸ wf'.conMem v hp)]

namespace NetworkxExample

/-- `x`, `y`, `x - y`, minimized. -/
def ops : List ModelOp := [.decision 3, .decision 7, .node 20 [3, 7] true, .minimize 20]

/-- `x`, `y`, `y - x`, minimized. -/
def swapped : List ModelOp := [.decision 3, .decision 7, .node 20 [7, 3] true, .minimize 20]

def name (v : Nat) : List Char := symbolRepr (if v = 20 then "Subtract".toList else "IntegerVariable".toList) v

/-- The model made by a history. -/
def made (l : List ModelOp) : PyModel :=
  match PyModel.new.run l with
  | .ok m => m
  | _ => PyModel.new

/-- A property of an exported graph. -/
def exported (test : MultiDiGraph (List Char) → Bool) : Res (MultiDiGraph (List Char)) → Bool
  | .ok G => test G
  | _ => false

theorem of_exported {test : MultiDiGraph (List Char) → Bool} {r : Res (MultiDiGraph (List Char))} (h : exported test r = true) :
    ∃ G, r = .ok G ∧ test G = true := by
  cases r with
  | ok G => exact ⟨G, rfl, h⟩
  | throw => cases h
  | ub => cases h

def isUb : Res (MultiDiGraph (List Char)) → Bool
  | .ub => true
  | _ => false

theorem of_isUb {r : Res (MultiDiGraph (List Char))} (h : isUb r = true) : r = .ub := by
  cases r <;> first | rfl | cases h

end NetworkxExample

open NetworkxExample in
/-- The order of operands cannot be seen in the exported graph: `x - y` and `y - x` give the same one. -/
theorem C70_order_fails : ∃ m m', PyModel.new.run ops = .ok m ∧ PyModel.new.run swapped = .ok m' ∧
    m.g.toNetworkx name = m'.g.toNetworkx name ∧ (m.g.mem 20).preds = [3, 7] ∧ (m'.g.mem 20).preds = [7, 3] :=
  ⟨made ops, made swapped, rfl, rfl, rfl, rfl, rfl⟩

open NetworkxExample in
/-- The hypotheses hold, and this is the graph. -/
example : PyModel.new.run ops = .ok (made ops) ∧ ∃ G, (made ops).g.toNetworkx name = .ok G ∧ G.nodes.length = 4 ∧
    G.nodes.getLast? = some minimizeLabel ∧ G.edges.length = 3 :=
by
  obtain ⟨G, h1, h2⟩ := of_exported (r := (made ops).g.toNetworkx name) (test := fun G => decide (G.nodes.length = 4) &&
    decide (G.nodes.getLast? = some minimizeLabel) && decide (G.edges.length = 3)) (by decide +kernel)
  simp only [Bool.and_eq_true, decide_eq_true_eq] at h2
  exact ⟨rfl, G, h1, h2.1.1, h2.1.2, h2.2⟩

open BuildExample NetworkxExample in
/-- After a rejected n-ary symbol (`C48_nary_fails`), the export follows a pointer to a symbol that does not exist. -/
theorem C70_rejected_fails : ∃ (d d' : Draft) (op : BuildOp), Draft.new.run decl BuildExample.ops = .ok d ∧ d.perform decl op = (d', .throw) ∧
    (∃ G, d.m.g.toNetworkx (symbolRepr []) = .ok G) ∧ d'.m.g.toNetworkx (symbolRepr []) = .ub :=
  ⟨draft, _, bad, built, rfl,
    (of_exported (test := fun _ => true) (by decide +kernel)).imp fun _ h => h.1, of_isUb (by decide +kernel)⟩

end Verif
