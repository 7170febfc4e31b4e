import Verif.Lemmas.Graph

set_option linter.unusedSectionVars false
set_option linter.unusedSimpArgs false
set_option linter.unusedVariables false

/-!
# Operations on models keep them well-formed
-/

namespace Verif
namespace Graph

theorem WF_empty : empty.WF := by
  constructor <;> simp [empty]

theorem linkSuccs_eq (mem : Nat → GNode) (a : Nat) (preds : List Nat) (v : Nat) :
    linkSuccs mem a preds v =
      { mem v with succs := (mem v).succs ++ List.replicate (preds.count v) a } := by
  induction preds generalizing mem with
  | nil => simp [linkSuccs]
  | cons p preds ih =>
    have : linkSuccs mem a (p :: preds) =
      linkSuccs (upd mem p { mem p with succs := (mem p).succs ++ [a] }) a preds := rfl
    rw [this, ih]
    by_cases h : v = p
    · subst h
      simp [List.replicate_succ]
    · rw [upd_ne _ _ h, List.count_cons_of_ne (Ne.symm h)]

theorem emplaceNode_spec {g : Graph} (h : g.WF) (hs : g.sorted = false) {a : Nat} {preds : List Nat}
    (ha : a ∉ g.nodes) (hp : ∀ p ∈ preds, p ∈ g.nodes) (rem : Bool) :
    ∃ g', g.emplaceNode a preds rem = .ok g' ∧ g'.WF ∧ g'.sorted = false ∧
      g'.nodes = g.nodes ++ [a] ∧ g'.decisions = g.decisions ∧ g'.objective = g.objective ∧
      g'.constraints = g.constraints ∧
      (g'.mem a).preds = preds ∧ ∀ v ∈ g.nodes, (g'.mem v).preds = (g.mem v).preds := by
  have hac : preds.count a = 0 := List.count_eq_zero.2 fun hx => ha (hp a hx)
  have had : a ∉ g.decisions := fun hx => ha (h.decMem a hx)
  have hmem : ∀ v, linkSuccs (upd g.mem a { preds := preds, removable := rem }) a preds v =
      if v = a then { preds := preds, removable := rem }
      else { g.mem v with succs := (g.mem v).succs ++ List.replicate (preds.count v) a } := by
    intro v
    rw [linkSuccs_eq]
    by_cases hv : v = a
    · subst hv; simp [hac]
    · rw [upd_ne _ _ hv, if_neg hv]
  refine ⟨{ g with
    mem := linkSuccs (upd g.mem a { preds := preds, removable := rem }) a preds
    nodes := g.nodes ++ [a] }, ?_, ?_, hs, rfl, rfl, rfl, rfl, by simp [hmem], fun v hv => by
      have : v ≠ a := fun he => ha (he ▸ hv)
      simp [hmem, this]⟩
  · simp only [emplaceNode, guardThrow, guardUB]
    rw [if_pos hs, if_pos ⟨ha, hp⟩]
    rfl
  · have hne : ∀ v ∈ g.nodes, v ≠ a := fun v hv he => ha (he ▸ hv)
    constructor
    · simp only [List.nodup_append, List.nodup_cons, List.not_mem_nil, not_false_eq_true,
        List.nodup_nil, and_self, List.mem_singleton, true_and]
      exact ⟨h.nodup, fun v hv w hw => hw ▸ hne v hv⟩
    · exact h.decNodup
    · intro d hd; exact List.mem_append_left _ (h.decMem d hd)
    · intro d hd
      simp only [predsOf, hmem, if_neg (hne d (h.decMem d hd))]
      exact h.decPreds d hd
    · intro v hv p hpv
      simp only [predsOf, hmem] at hpv
      apply List.mem_append_left
      by_cases hva : v = a
      · rw [if_pos hva] at hpv; exact hp p hpv
      · rw [if_neg hva] at hpv
        simp [hva] at hv
        exact h.predMem v hv p hpv
    · intro v hv w hw
      simp only [succsOf, hmem] at hw
      by_cases hva : v = a
      · rw [if_pos hva] at hw; simp at hw
      · rw [if_neg hva] at hw
        simp [hva] at hv
        rcases List.mem_append.1 hw with hw | hw
        · exact List.mem_append_left _ (h.succMem v hv w hw)
        · rw [List.eq_of_mem_replicate hw]; simp
    · intro v hv w hw
      simp only [succsOf, predsOf, hmem]
      by_cases hva : v = a <;> by_cases hwa : w = a
      · subst hva; subst hwa; simp [hac]
      · subst hva
        simp [hwa] at hw ⊢
        exact (List.count_eq_zero.2 fun hx => ha (h.predMem w hw v hx)).symm
      · subst hwa
        simp [hva] at hv ⊢
        exact List.count_eq_zero.2 fun hx => ha (h.succMem v hv w hx)
      · simp [hva] at hv
        simp [hwa] at hw
        simp only [if_neg hva, if_neg hwa, List.count_append]
        rw [List.count_replicate, if_neg (by simpa using Ne.symm hwa)]
        exact h.link v hv w hw
    · intro v hv; exact List.mem_append_left _ (h.objMem v hv)
    · intro v hv; exact List.mem_append_left _ (h.conMem v hv)
    · intro i hi
      simp only [topoOf, hmem, if_neg (hne _ (h.decMem _ (List.getElem_mem hi)))]
      exact h.decTopo i hi
    · intro _ v hv hd
      simp only [topoOf, hmem]
      by_cases hva : v = a
      · simp [hva]
      · simp [hva] at hv ⊢
        exact h.unsorted hs v hv hd
    · intro hf; simp [hs] at hf
    · intro hf; simp [hs] at hf

theorem emplaceDecision_spec {g : Graph} (h : g.WF) (hs : g.sorted = false) {a : Nat}
    (ha : a ∉ g.nodes) :
    ∃ g', g.emplaceDecision a = .ok g' ∧ g'.WF ∧ g'.sorted = false ∧
      g'.nodes = g.nodes ++ [a] ∧ g'.decisions = g.decisions ++ [a] ∧ g'.objective = g.objective ∧
      g'.constraints = g.constraints ∧
      (g'.mem a).preds = [] ∧ ∀ v ∈ g.nodes, (g'.mem v).preds = (g.mem v).preds := by
  have had : a ∉ g.decisions := fun hx => ha (h.decMem a hx)
  have hne : ∀ v ∈ g.nodes, v ≠ a := fun v hv he => ha (he ▸ hv)
  refine ⟨{ g with
    mem := upd g.mem a { topo := g.decisions.length, removable := false }
    nodes := g.nodes ++ [a]
    decisions := g.decisions ++ [a] }, ?_, ?_, hs, rfl, rfl, rfl, rfl, by simp, fun v hv => by simp [upd_ne _ _ (hne v hv)]⟩
  · simp [emplaceDecision, hs, ha, guardUB, guardThrow]
  · constructor
    · simp only [List.nodup_append, List.nodup_cons, List.not_mem_nil, not_false_eq_true,
        List.nodup_nil, and_self, List.mem_singleton, true_and]
      exact ⟨h.nodup, fun v hv w hw => hw ▸ hne v hv⟩
    · simp only [List.nodup_append, List.nodup_cons, List.not_mem_nil, not_false_eq_true,
        List.nodup_nil, and_self, List.mem_singleton, true_and]
      exact ⟨h.decNodup, fun v hv w hw => hw ▸ hne v (h.decMem v hv)⟩
    · intro d hd
      simp only [List.mem_append, List.mem_singleton] at hd ⊢
      exact hd.imp (h.decMem d) id
    · intro d hd
      simp only [List.mem_append, List.mem_singleton] at hd
      rcases hd with hd | rfl
      · simp only [predsOf, upd_ne _ _ (hne d (h.decMem d hd))]
        exact h.decPreds d hd
      · simp [predsOf]
    · intro v hv p hpv
      apply List.mem_append_left
      simp only [predsOf] at hpv
      by_cases hva : v = a
      · subst hva; simp at hpv
      · rw [upd_ne _ _ hva] at hpv
        simp [hva] at hv
        exact h.predMem v hv p hpv
    · intro v hv p hpv
      apply List.mem_append_left
      simp only [succsOf] at hpv
      by_cases hva : v = a
      · subst hva; simp at hpv
      · rw [upd_ne _ _ hva] at hpv
        simp [hva] at hv
        exact h.succMem v hv p hpv
    · intro v hv w hw
      simp only [succsOf, predsOf]
      by_cases hva : v = a <;> by_cases hwa : w = a
      · subst hva; subst hwa; simp
      · subst hva
        simp [hwa] at hw
        rw [upd_same, upd_ne _ _ hwa]
        symm
        simp
        exact List.count_eq_zero.2 fun hx => ha (h.predMem w hw v hx)
      · subst hwa
        simp [hva] at hv
        rw [upd_same, upd_ne _ _ hva]
        simp
        exact List.count_eq_zero.2 fun hx => ha (h.succMem v hv w hx)
      · simp [hva] at hv
        simp [hwa] at hw
        rw [upd_ne _ _ hva, upd_ne _ _ hwa]
        exact h.link v hv w hw
    · intro v hv; exact List.mem_append_left _ (h.objMem v hv)
    · intro v hv; exact List.mem_append_left _ (h.conMem v hv)
    · intro i hi
      simp only [topoOf]
      by_cases hi' : i < g.decisions.length
      · rw [List.getElem_append_left hi', upd_ne _ _ (hne _ (h.decMem _ (List.getElem_mem hi')))]
        exact h.decTopo i hi'
      · simp only [List.length_append, List.length_singleton] at hi
        have : i = g.decisions.length := by omega
        subst this
        simp
    · intro _ v hv hd
      simp only [List.mem_append, List.mem_singleton, not_or] at hv hd
      simp only [topoOf, upd_ne _ _ hd.2]
      exact h.unsorted hs v (hv.resolve_right hd.2) hd.1
    · intro hf; simp [hs] at hf
    · intro hf; simp [hs] at hf

theorem addPredecessor_spec {g : Graph} (h : g.WF) (hs : g.sorted = false) {n p : Nat}
    (hn : n ∈ g.nodes) (hp : p ∈ g.nodes) (hd : n ∉ g.decisions)
    (hne : (g.mem n).preds ≠ []) :
    ∃ g', g.addPredecessor n p = .ok g' ∧ g'.WF ∧ g'.sorted = false ∧
      g'.nodes = g.nodes ∧ g'.decisions = g.decisions ∧ g'.objective = g.objective ∧
      g'.constraints = g.constraints := by
  have ht : (g.mem n).topo = -1 := h.unsorted hs n hn hd
  have hpr : ∀ v, (upd (upd g.mem p { g.mem p with succs := (g.mem p).succs ++ [n] }) n
      { (upd g.mem p { g.mem p with succs := (g.mem p).succs ++ [n] }) n with
        preds := ((upd g.mem p { g.mem p with succs := (g.mem p).succs ++ [n] }) n).preds ++ [p] } v)
      = { g.mem v with
          preds := if v = n then (g.mem v).preds ++ [p] else (g.mem v).preds
          succs := if v = p then (g.mem v).succs ++ [n] else (g.mem v).succs } := by
    intro v
    by_cases h1 : v = n
    · subst h1
      by_cases h2 : v = p
      · subst h2; simp
      · rw [upd_same, upd_ne _ _ h2]; simp [h2]
    · rw [upd_ne _ _ h1]
      by_cases h2 : v = p
      · subst h2; simp [h1]
      · rw [upd_ne _ _ h2]; simp [h1, h2]
  refine ⟨{ g with
    mem := upd (upd g.mem p { g.mem p with succs := (g.mem p).succs ++ [n] }) n
      { (upd g.mem p { g.mem p with succs := (g.mem p).succs ++ [n] }) n with
        preds := ((upd g.mem p { g.mem p with succs := (g.mem p).succs ++ [n] }) n).preds ++ [p] } },
    ?_, ?_, hs, rfl, rfl, rfl, rfl⟩
  · simp [addPredecessor, hn, hp, hd, ht, hne, guardUB, guardThrow]
  · constructor
    · exact h.nodup
    · exact h.decNodup
    · exact h.decMem
    · intro d hdd
      simp only [predsOf, hpr]
      rw [if_neg (fun he : d = n => hd (he ▸ hdd))]
      exact h.decPreds d hdd
    · intro v hv q hq
      simp only [predsOf, hpr] at hq
      split_ifs at hq
      · rcases List.mem_append.1 hq with hq | hq
        · exact h.predMem v hv q hq
        · simp at hq; exact hq ▸ hp
      · exact h.predMem v hv q hq
    · intro v hv q hq
      simp only [succsOf, hpr] at hq
      split_ifs at hq
      · rcases List.mem_append.1 hq with hq | hq
        · exact h.succMem v hv q hq
        · simp at hq; exact hq ▸ hn
      · exact h.succMem v hv q hq
    · intro v hv w hw
      have := h.link v hv w hw
      simp only [succsOf, predsOf, hpr] at this ⊢
      by_cases h1 : v = p
      · by_cases h2 : w = n
        · rw [if_pos h1, if_pos h2, List.count_append, List.count_append, this, h1, h2]
          simp
        · rw [if_pos h1, if_neg h2, List.count_append, this]
          simp [Ne.symm h2]
      · by_cases h2 : w = n
        · rw [if_neg h1, if_pos h2, List.count_append, this]
          simp [Ne.symm h1]
        · rw [if_neg h1, if_neg h2, this]
    · exact h.objMem
    · exact h.conMem
    · intro i hi
      simp only [topoOf, hpr]
      exact h.decTopo i hi
    · intro _ v hv hdv
      simp only [topoOf, hpr]
      exact h.unsorted hs v hv hdv
    · intro hf; simp [hs] at hf
    · intro hf; simp [hs] at hf

/-- Only the `listened` flags and root sets differ. -/
theorem WF.of_same {g g' : Graph} (h : g.WF) (hm : ∀ v, (g'.mem v).preds = (g.mem v).preds ∧
      (g'.mem v).succs = (g.mem v).succs ∧ (g'.mem v).topo = (g.mem v).topo)
    (hn : g'.nodes = g.nodes) (hd : g'.decisions = g.decisions) (hs : g'.sorted = g.sorted)
    (ho : ∀ v ∈ g'.objective, v ∈ g.nodes) (hc : ∀ v ∈ g'.constraints, v ∈ g.nodes) : g'.WF := by
  have h1 : g'.predsOf = g.predsOf := funext fun v => (hm v).1
  have h2 : g'.succsOf = g.succsOf := funext fun v => (hm v).2.1
  have h3 : g'.topoOf = g.topoOf := funext fun v => (hm v).2.2
  obtain ⟨mem, nodes, decisions, objective, constraints, sorted⟩ := g'
  simp only at hn hd hs ho hc
  subst hn hd hs
  constructor
  · exact h.nodup
  · exact h.decNodup
  · exact h.decMem
  · rw [h1]; exact h.decPreds
  · rw [h1]; exact h.predMem
  · rw [h2]; exact h.succMem
  · rw [h1, h2]; exact h.link
  · exact ho
  · exact hc
  · rw [h3]; exact h.decTopo
  · rw [h3]; exact h.unsorted
  · rw [h2, h3]; exact h.topological
  · rw [h3]; exact h.positions

theorem WF.nodes_eq {g : Graph} (h : g.WF) (hs : g.sorted = true) :
    g.nodes = g.decisions ++ g.nodes.drop g.decisions.length := by
  have hl : g.decisions.length ≤ g.nodes.length := (List.subperm_of_subset h.decNodup h.decMem).length_le
  conv_lhs => rw [← List.take_append_drop g.decisions.length g.nodes]
  congr 1
  apply List.ext_getElem
  · simp [hl]
  · intro i h1 h2
    rw [List.getElem_take]
    have hi : i < g.nodes.length := by omega
    apply (h.topological hs).inj _ (List.getElem_mem hi) _ (h.decMem _ (List.getElem_mem h2))
    rw [h.positions hs i hi, h.decTopo i h2]

theorem WF.mem_drop {g : Graph} (h : g.WF) (hs : g.sorted = true) {v : Nat} :
    v ∈ g.nodes.drop g.decisions.length ↔ v ∈ g.nodes ∧ v ∉ g.decisions := by
  have he := h.nodes_eq hs
  have hn := h.nodup
  rw [he, List.nodup_append] at hn
  constructor
  · intro hv
    exact ⟨List.mem_of_mem_drop hv, fun hd => hn.2.2 v hd v hv rfl⟩
  · rintro ⟨hv, hd⟩
    rw [he, List.mem_append] at hv
    exact hv.resolve_left hd

theorem reset_spec {g : Graph} (h : g.WF) :
    (resetTopologicalSort g).WF ∧ (resetTopologicalSort g).sorted = false ∧
    (∀ v, ((resetTopologicalSort g).mem v).preds = (g.mem v).preds ∧
      ((resetTopologicalSort g).mem v).succs = (g.mem v).succs) ∧
    (resetTopologicalSort g).nodes = g.nodes ∧ (resetTopologicalSort g).decisions = g.decisions ∧
    (resetTopologicalSort g).objective = g.objective ∧
    (resetTopologicalSort g).constraints = g.constraints := by
  by_cases hs : g.sorted = false
  · have : resetTopologicalSort g = g := by simp [resetTopologicalSort, hs]
    rw [this]
    exact ⟨h, hs, fun _ => ⟨rfl, rfl⟩, rfl, rfl, rfl, rfl⟩
  · have hs : g.sorted = true := by simpa using hs
    have : resetTopologicalSort g = { g with
      mem := fun v => if v ∈ g.nodes.drop g.decisions.length then { g.mem v with topo := -1 } else g.mem v
      sorted := false } := by simp [resetTopologicalSort, hs]
    rw [this]
    have hpr : ∀ v, ((if v ∈ g.nodes.drop g.decisions.length then { g.mem v with topo := -1 }
      else g.mem v) : GNode).preds = (g.mem v).preds := by intro v; split_ifs <;> rfl
    have hsu : ∀ v, ((if v ∈ g.nodes.drop g.decisions.length then { g.mem v with topo := -1 }
      else g.mem v) : GNode).succs = (g.mem v).succs := by intro v; split_ifs <;> rfl
    refine ⟨?_, rfl, fun v => ⟨hpr v, hsu v⟩, rfl, rfl, rfl, rfl⟩
    constructor
    · exact h.nodup
    · exact h.decNodup
    · exact h.decMem
    · intro d hd; simp only [predsOf]; rw [hpr]; exact h.decPreds d hd
    · intro v hv p hp; simp only [predsOf] at hp; rw [hpr] at hp; exact h.predMem v hv p hp
    · intro v hv p hp; simp only [succsOf] at hp; rw [hsu] at hp; exact h.succMem v hv p hp
    · intro v hv w hw; simp only [predsOf, succsOf]; rw [hpr, hsu]; exact h.link v hv w hw
    · exact h.objMem
    · exact h.conMem
    · intro i hi
      simp only [topoOf]
      rw [if_neg (fun hx => ((h.mem_drop hs).1 hx).2 (List.getElem_mem hi))]
      exact h.decTopo i hi
    · intro _ v hv hd
      simp only [topoOf]
      rw [if_pos ((h.mem_drop hs).2 ⟨hv, hd⟩)]
    · intro hf; simp at hf
    · intro hf; simp at hf

end Graph
end Verif
