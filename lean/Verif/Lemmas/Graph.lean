import Verif.Lemmas.TopoSort
import Mathlib.Data.List.Perm.Basic
import Mathlib.Data.List.Sort

set_option linter.unusedSectionVars false
set_option linter.unusedSimpArgs false
set_option linter.unusedVariables false

/-!
# Well-formed models
-/

namespace Verif
namespace Graph

/-- Successor function of a graph. -/
def succsOf (g : Graph) (v : Nat) : List Nat := (g.mem v).succs
/-- Predecessor function of a graph. -/
def predsOf (g : Graph) (v : Nat) : List Nat := (g.mem v).preds
def topoOf (g : Graph) (v : Nat) : Int := (g.mem v).topo

/-- What holds of every model that can be built. -/
structure WF (g : Graph) : Prop where
  nodup : g.nodes.Nodup
  decNodup : g.decisions.Nodup
  decMem : ∀ d ∈ g.decisions, d ∈ g.nodes
  decPreds : ∀ d ∈ g.decisions, g.predsOf d = []
  predMem : ∀ v ∈ g.nodes, ∀ p ∈ g.predsOf v, p ∈ g.nodes
  succMem : ∀ v ∈ g.nodes, ∀ w ∈ g.succsOf v, w ∈ g.nodes
  link : ∀ v ∈ g.nodes, ∀ w ∈ g.nodes, (g.succsOf v).count w = (g.predsOf w).count v
  objMem : ∀ v ∈ g.objective, v ∈ g.nodes
  conMem : ∀ v ∈ g.constraints, v ∈ g.nodes
  decTopo : ∀ i (h : i < g.decisions.length), g.topoOf g.decisions[i] = i
  unsorted : g.sorted = false → ∀ v ∈ g.nodes, v ∉ g.decisions → g.topoOf v = -1
  topological : g.sorted = true → IsTopological g.succsOf g.nodes g.decisions g.topoOf
  positions : g.sorted = true → ∀ i (h : i < g.nodes.length), g.topoOf g.nodes[i] = i

theorem WF.mem_link {g : Graph} (h : g.WF) {v w : Nat} (hv : v ∈ g.nodes) (hw : w ∈ g.nodes) :
    w ∈ g.succsOf v ↔ v ∈ g.predsOf w := by
  rw [← List.count_pos_iff, ← List.count_pos_iff, h.link v hv w hw]

theorem WF.succ_not_dec {g : Graph} (h : g.WF) {v : Nat} (hv : v ∈ g.nodes) :
    ∀ w ∈ g.succsOf v, w ∈ g.nodes ∧ w ∉ g.decisions := by
  intro w hw
  have hm := h.succMem v hv w hw
  refine ⟨hm, fun hd => ?_⟩
  have := (h.mem_link hv hm).1 hw
  rw [h.decPreds w hd] at this
  simp at this

/-! Filling `0 .. n-1` with a strictly increasing list. -/

theorem length_le_of_lt {L : List Int} {lo hi : Int} (hp : L.Pairwise (· < ·))
    (hr : ∀ x ∈ L, lo ≤ x ∧ x < hi) (hlh : lo ≤ hi) : (L.length : Int) ≤ hi - lo := by
  induction L generalizing lo with
  | nil => simp; omega
  | cons a L ih =>
    obtain ⟨h1, h2⟩ := List.pairwise_cons.1 hp
    have ha := hr a List.mem_cons_self
    have := ih (lo := a + 1) h2 (fun x hx => ⟨by have := h1 x hx; omega,
      (hr x (List.mem_cons_of_mem _ hx)).2⟩) (by omega)
    simp only [List.length_cons]
    push_cast
    omega

theorem fill {L : List Int} {lo : Int} (hp : L.Pairwise (· < ·))
    (hr : ∀ x ∈ L, lo ≤ x ∧ x < lo + L.length) : ∀ i (h : i < L.length), L[i] = lo + i := by
  induction L generalizing lo with
  | nil => intro i h; simp at h
  | cons a L ih =>
    obtain ⟨h1, h2⟩ := List.pairwise_cons.1 hp
    have ha := hr a List.mem_cons_self
    have hlen := length_le_of_lt (lo := a + 1) (hi := lo + (a :: L).length) h2
      (fun x hx => ⟨by have := h1 x hx; omega, (hr x (List.mem_cons_of_mem _ hx)).2⟩)
      (by simp only [List.length_cons] at *; push_cast at *; omega)
    simp only [List.length_cons] at hlen
    push_cast at hlen
    have hal : a = lo := by omega
    subst hal
    intro i h
    cases i with
    | zero => simp
    | succ i =>
      simp only [List.getElem_cons_succ]
      rw [ih (lo := a + 1) h2 (fun x hx => ⟨by have := h1 x hx; omega, by
        have := (hr x (List.mem_cons_of_mem _ hx)).2
        simp only [List.length_cons] at this; push_cast at this; omega⟩) i (by simpa using h)]
      push_cast; omega

theorem cnt_add_not (V : List Nat) (p : Nat → Bool) :
    cnt V p + cnt V (fun v => !p v) = V.length := by
  induction V with
  | nil => rfl
  | cons a V ih =>
    simp only [cnt, List.countP_cons, List.length_cons] at *
    cases p a <;> simp <;> omega

theorem WF.cnt_dec {g : Graph} (h : g.WF) :
    cnt g.nodes (fun v => decide (v ∈ g.decisions)) = g.decisions.length := by
  have : (g.nodes.filter (fun v => decide (v ∈ g.decisions))).Perm g.decisions := by
    rw [List.perm_ext_iff_of_nodup (h.nodup.filter _) h.decNodup]
    intro a
    simp only [List.mem_filter, decide_eq_true_eq]
    exact ⟨fun x => x.2, fun x => ⟨h.decMem a x, x⟩⟩
  rw [← this.length_eq]
  simp [cnt, List.countP_eq_length_filter]

/-- Topological sorting of a well-formed, unsorted model. -/
theorem WF.sort_spec {g : Graph} (h : g.WF) (hs : g.sorted = false) :
    (∃ g', g.topologicalSort = .ok g' ∧ g'.WF ∧ g'.sorted = true ∧ g'.nodes.Perm g.nodes ∧
      (∀ v, (g'.mem v).preds = (g.mem v).preds ∧ (g'.mem v).succs = (g.mem v).succs ∧
        (g'.mem v).removable = (g.mem v).removable ∧ (g'.mem v).listened = (g.mem v).listened) ∧
      g'.decisions = g.decisions ∧ g'.objective = g.objective ∧ g'.constraints = g.constraints ∧
      ¬ HasCycle g.succsOf g.nodes) ∨
    (g.topologicalSort = .throw ∧ HasCycle g.succsOf g.nodes) := by
  have hun := h.unsorted hs
  have hdt : ∀ v ∈ g.nodes, v ∈ g.decisions → 0 ≤ g.topoOf v := by
    intro v _ hd
    obtain ⟨i, hi, rfl⟩ := List.mem_iff_getElem.1 hd
    rw [h.decTopo i hi]; omega
  have hnum : g.decisions.length + cnt g.nodes (fun v => decide (g.topoOf v = -1)) = g.nodes.length := by
    have h1 := cnt_add_not g.nodes (fun v => decide (v ∈ g.decisions))
    rw [h.cnt_dec] at h1
    have h2 : cnt g.nodes (fun v => decide (g.topoOf v = -1)) =
        cnt g.nodes (fun v => !decide (v ∈ g.decisions)) := by
      apply List.countP_congr
      intro v hv
      by_cases hd : v ∈ g.decisions
      · have := hdt v hv hd
        simp [hd]; omega
      · simp [hd, hun v hv hd]
    omega
  have hcl : ∀ v ∈ g.nodes, ∀ m ∈ g.succsOf v, m ∈ g.nodes ∧ m ∉ g.decisions :=
    fun v hv => h.succ_not_dec hv
  rcases sortIdx_spec (nd := g.decisions.length) (dec := fun v => v ∈ g.decisions) h.nodup hcl hdt hun
    hnum with ⟨idx, h1, hI, hall, hkeep⟩ | ⟨h1, hc⟩
  · left
    have hdec : ∀ i (hi : i < g.decisions.length), idx g.decisions[i] = i := by
      intro i hi
      have hm := h.decMem _ (List.getElem_mem hi)
      rw [hkeep _ hm (hdt _ hm (List.getElem_mem hi)), h.decTopo i hi]
    have hge : ∀ v ∈ g.nodes, v ∉ g.decisions → (g.decisions.length : Int) ≤ idx v := by
      intro v hv hd
      have := (hI.range v hv hd (hall v hv)).1; omega
    have hlt : ∀ v ∈ g.decisions, idx v < g.decisions.length := by
      intro v hv
      obtain ⟨i, hi, rfl⟩ := List.mem_iff_getElem.1 hv
      rw [hdec i hi]; omega
    have hdl : g.decisions.length ≤ g.nodes.length := by omega
    have htop : IsTopological g.succsOf g.nodes g.decisions idx := by
      refine ⟨fun v hv => ⟨hall v hv, ?_⟩, ?_, hdec, ?_⟩
      · by_cases hd : v ∈ g.decisions
        · have := hlt v hd; omega
        · exact (hI.range v hv hd (hall v hv)).2
      · intro v hv w hw heq
        by_cases hd : v ∈ g.decisions <;> by_cases hd' : w ∈ g.decisions
        · obtain ⟨i, hi, rfl⟩ := List.mem_iff_getElem.1 hd
          obtain ⟨j, hj, rfl⟩ := List.mem_iff_getElem.1 hd'
          rw [hdec i hi, hdec j hj] at heq
          have : i = j := by omega
          subst this; rfl
        · have := hlt v hd; have := hge w hw hd'; omega
        · have := hlt w hd'; have := hge v hv hd; omega
        · exact hI.inj v hv w hw hd hd' (hall v hv) heq
      · intro v hv w hw
        by_cases hd : v ∈ g.decisions
        · have h2 := hcl v hv w hw
          have := hlt v hd; have := hge w h2.1 h2.2; omega
        · exact hI.edge v hv hd (hall v hv) w hw
    have hperm : (sortBy idx g.nodes).Perm g.nodes :=
      sortBy_perm _ _
    have hpos : ∀ i (hi : i < (sortBy idx g.nodes).length),
        idx ((sortBy idx g.nodes)[i]) = i := by
      have hsorted : (sortBy idx g.nodes).Pairwise
          (fun a b => idx a ≤ idx b) := sortBy_pairwise _ _
      have hnd := hperm.nodup_iff.2 h.nodup
      have hmem : ∀ v, v ∈ sortBy idx g.nodes → v ∈ g.nodes :=
        fun v hv => hperm.mem_iff.1 hv
      generalize sortBy idx g.nodes = L at *
      have hl : L.length = g.nodes.length := hperm.length_eq
      have := fill (L := L.map idx) (lo := 0) (by
        rw [List.pairwise_map]
        refine (hsorted.and hnd).imp_of_mem ?_
        intro a b ha hb hab
        have h1 : idx a ≤ idx b := hab.1
        have h2 : idx a ≠ idx b := fun heq => hab.2 (htop.inj a (hmem a ha) b (hmem b hb) heq)
        omega) (by
        intro x hx
        obtain ⟨v, hv, rfl⟩ := List.mem_map.1 hx
        have := htop.range v (hmem v hv)
        simp [hl]; omega)
      intro i hi
      have := this i (by simpa using hi)
      simpa using this
    have hacy : ¬ HasCycle g.succsOf g.nodes := by
      rintro ⟨v, hv, hr⟩
      have : ∀ w, ReachesPlus g.succsOf v w → w ∈ g.nodes ∧ idx v < idx w := by
        intro w hw
        induction hw with
        | single hb => exact ⟨(hcl v hv _ hb).1, htop.edge v hv _ hb⟩
        | tail _ hb ih =>
          exact ⟨(hcl _ ih.1 _ hb).1, by have := htop.edge _ ih.1 _ hb; omega⟩
      have := (this v hr).2
      omega
    refine ⟨{ g with
      mem := fun v => { g.mem v with topo := idx v }
      nodes := sortBy idx g.nodes
      sorted := true }, ?_, ?_, rfl, hperm, fun v => ⟨rfl, rfl, rfl, rfl⟩, rfl, rfl, rfl, hacy⟩
    · unfold topologicalSort
      rw [hs]
      simp only [Bool.false_eq_true, if_false]
      have : sortIdx (fun v => (g.mem v).succs) g.nodes g.decisions.length (fun v => (g.mem v).topo) =
        .ok idx := h1
      rw [this]; rfl
    · exact {
        nodup := hperm.nodup_iff.2 h.nodup
        decNodup := h.decNodup
        decMem := fun d hd => hperm.mem_iff.2 (h.decMem d hd)
        decPreds := h.decPreds
        predMem := fun v hv p hp => hperm.mem_iff.2 (h.predMem v (hperm.mem_iff.1 hv) p hp)
        succMem := fun v hv p hp => hperm.mem_iff.2 (h.succMem v (hperm.mem_iff.1 hv) p hp)
        link := fun v hv w hw => h.link v (hperm.mem_iff.1 hv) w (hperm.mem_iff.1 hw)
        objMem := fun v hv => hperm.mem_iff.2 (h.objMem v hv)
        conMem := fun v hv => hperm.mem_iff.2 (h.conMem v hv)
        decTopo := hdec
        unsorted := fun hf => by simp at hf
        topological := fun _ => ⟨fun v hv => by
            have := htop.range v (hperm.mem_iff.1 hv)
            have hl := hperm.length_eq
            simp only [topoOf]
            exact ⟨this.1, by rw [hl]; exact this.2⟩,
          fun v hv w hw => htop.inj v (hperm.mem_iff.1 hv) w (hperm.mem_iff.1 hw),
          hdec, fun v hv w hw => htop.edge v (hperm.mem_iff.1 hv) w hw⟩
        positions := fun _ => hpos }
  · right
    refine ⟨?_, hc⟩
    unfold topologicalSort
    rw [hs]
    simp only [Bool.false_eq_true, if_false]
    have : sortIdx (fun v => (g.mem v).succs) g.nodes g.decisions.length (fun v => (g.mem v).topo) =
      .throw := h1
    rw [this]; rfl

end Graph
end Verif
