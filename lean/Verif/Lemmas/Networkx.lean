import Verif.Spec.Networkx
import Verif.Props.Graph
import Mathlib.Data.List.Basic
import Mathlib.Tactic.IntervalCases

/-!
# The exported graph
-/

namespace Verif

/-! ## Names -/

/-- The value of a hexadecimal digit. -/
def hexValue (c : Char) : Nat := if c.toNat < 58 then c.toNat - 48 else c.toNat - 87

theorem hexValue_char {d : Nat} (h : d < 16) : hexValue (hexChar d) = d := by
  interval_cases d <;> rfl

theorem hexChar_ne {d : Nat} (h : d < 16) : hexChar d ≠ 'x' := by
  interval_cases d <;> decide

theorem hexDigits_value (n : Nat) : (hexDigits n).foldl (fun a c => 16 * a + hexValue c) 0 = n := by
  induction n using Nat.strongRecOn with
  | ind n ih =>
    unfold hexDigits
    split
    · rename_i h
      simp [hexValue_char h]
    · rename_i h
      rw [List.foldl_append, ih (n / 16) (by omega)]
      simp only [List.foldl_cons, List.foldl_nil]
      rw [hexValue_char (Nat.mod_lt _ (by omega))]
      omega

theorem hexDigits_ne (n : Nat) : ∀ c ∈ hexDigits n, c ≠ 'x' := by
  induction n using Nat.strongRecOn with
  | ind n ih =>
    unfold hexDigits
    split
    · rename_i h
      intro c hc
      rw [List.mem_singleton.1 hc]
      exact hexChar_ne h
    · intro c hc
      rcases List.mem_append.1 hc with hc | hc
      · exact ih (n / 16) (by omega) c hc
      · rw [List.mem_singleton.1 hc]
        exact hexChar_ne (Nat.mod_lt _ (by omega))

theorem takeWhile_stop {α : Type} (p : α → Bool) (a : α) (l : List α) (ha : p a = false) : ∀ (d : List α), (∀ c ∈ d, p c = true) →
    (d ++ a :: l).takeWhile p = d
  | [], _ => by simp [ha]
  | c :: d, h => by
    rw [List.cons_append, List.takeWhile_cons, if_pos (h c List.mem_cons_self),
      takeWhile_stop p a l ha d fun x hx => h x (List.mem_cons_of_mem _ hx)]

/-- The address is what stands after the last `x`. -/
theorem symbolRepr_digits (cls : List Char) (n : Nat) :
    ((symbolRepr cls n).dropLast.reverse.takeWhile fun c => c ≠ 'x').reverse = hexDigits n := by
  have e : (symbolRepr cls n).dropLast.reverse = (hexDigits n).reverse ++ 'x' :: ('<' :: cls ++ " at 0".toList).reverse := by
    have : symbolRepr cls n = ('<' :: cls ++ " at 0".toList ++ ['x'] ++ hexDigits n) ++ ['>'] := by
      simp [symbolRepr]
    rw [this, List.dropLast_concat]
    simp
  rw [e, takeWhile_stop (fun c => decide (c ≠ 'x')) 'x' _ (by decide), List.reverse_reverse]
  intro c hc
  have := hexDigits_ne n c (List.mem_reverse.1 hc)
  simpa using this

/-- Different symbols have different names, whatever their classes are called. -/
theorem symbolRepr_inj {cls cls' : List Char} {n n' : Nat} (h : symbolRepr cls n = symbolRepr cls' n') : n = n' := by
  have := symbolRepr_digits cls n
  rw [h, symbolRepr_digits] at this
  have e := congrArg (List.foldl (fun a c => 16 * a + hexValue c) 0) this
  rw [hexDigits_value, hexDigits_value] at e
  exact e.symm

theorem symbolRepr_head (cls : List Char) (n : Nat) : (symbolRepr cls n).head? = some '<' := rfl

theorem symbolRepr_minimize (cls : List Char) (n : Nat) : symbolRepr cls n ≠ minimizeLabel := fun h => by
  have := congrArg List.head? h
  rw [symbolRepr_head] at this
  revert this
  decide

theorem symbolRepr_constraints (cls : List Char) (n : Nat) : symbolRepr cls n ≠ constraintsLabel := fun h => by
  have := congrArg List.head? h
  rw [symbolRepr_head] at this
  revert this
  decide

/-! ## Adding nodes and edges -/

namespace MultiDiGraph

variable {L : Type} [DecidableEq L]

theorem addNode_old {G : MultiDiGraph L} {a : L} (h : a ∈ G.nodes) : G.addNode a = G := if_pos h

theorem addNode_new {G : MultiDiGraph L} {a : L} (h : a ∉ G.nodes) : G.addNode a = ⟨G.nodes ++ [a], G.edges⟩ := if_neg h

theorem addEdge_old {G : MultiDiGraph L} {a b : L} (ha : a ∈ G.nodes) (hb : b ∈ G.nodes) :
    G.addEdge a b = ⟨G.nodes, G.edges ++ [(a, b)]⟩ := by
  unfold addEdge
  rw [addNode_old ha, addNode_old hb]

theorem addEdge_new {G : MultiDiGraph L} {a b : L} (ha : a ∈ G.nodes) (hb : b ∉ G.nodes) :
    G.addEdge a b = ⟨G.nodes ++ [b], G.edges ++ [(a, b)]⟩ := by
  unfold addEdge
  rw [addNode_old ha, addNode_new hb]

/-- Adding new nodes. -/
theorem addNodes {name : Nat → L} : ∀ {l : List Nat} {G : MultiDiGraph L}, l.Nodup →
    (∀ v ∈ l, ∀ w ∈ l, name v = name w → v = w) → (∀ v ∈ l, name v ∉ G.nodes) →
    l.foldl (fun G v => G.addNode (name v)) G = ⟨G.nodes ++ l.map name, G.edges⟩
  | [], G, _, _, _ => by simp
  | v :: l, G, hn, hi, h => by
    rw [List.foldl_cons, addNode_new (h v List.mem_cons_self), addNodes (List.nodup_cons.1 hn).2
      (fun a ha b hb => hi a (List.mem_cons_of_mem _ ha) b (List.mem_cons_of_mem _ hb))]
    · simp
    · intro w hw
      simp only [List.mem_append, List.mem_singleton, not_or]
      refine ⟨h w (List.mem_cons_of_mem _ hw), fun e => ?_⟩
      have := hi w (List.mem_cons_of_mem _ hw) v List.mem_cons_self e
      exact (List.nodup_cons.1 hn).1 (this ▸ hw)

/-- Edges to one more node. -/
theorem addEdges {name : Nat → L} {b : L} : ∀ {l : List Nat} {G : MultiDiGraph L}, (∀ v ∈ l, name v ∈ G.nodes) → b ∈ G.nodes →
    l.foldl (fun G v => G.addEdge (name v) b) G = ⟨G.nodes, G.edges ++ l.map fun v => (name v, b)⟩
  | [], G, _, _ => by simp
  | v :: l, G, h, hb => by
    rw [List.foldl_cons, addEdge_old (h v List.mem_cons_self) hb, addEdges (by exact fun w hw => h w (List.mem_cons_of_mem _ hw)) (by exact hb)]
    simp

theorem addEdges_new {name : Nat → L} {b : L} {l : List Nat} {G : MultiDiGraph L} (h : ∀ v ∈ l, name v ∈ G.nodes)
    (hb : b ∉ G.nodes) : l.foldl (fun G v => G.addEdge (name v) b) G =
      ⟨G.nodes ++ (if l = [] then [] else [b]), G.edges ++ l.map fun v => (name v, b)⟩ := by
  cases l with
  | nil => simp
  | cons v l =>
    rw [List.foldl_cons, addEdge_new (h v List.mem_cons_self) hb, addEdges]
    · simp
    · exact fun w hw => List.mem_append_left _ (h w (List.mem_cons_of_mem _ hw))
    · simp

end MultiDiGraph

/-! ## The export -/

namespace Graph

variable {g : Graph} {name : Nat → List Char}

theorem exportSuccs_eq (wf : g.WF) {v : Nat} (hv : v ∈ g.nodes) {G : MultiDiGraph (List Char)} (hG : ∀ w ∈ g.nodes, name w ∈ G.nodes) :
    g.exportSuccs name G v = .ok ⟨G.nodes, G.edges ++ (g.mem v).succs.map fun w => (name v, name w)⟩ := by
  unfold exportSuccs
  have hs : ∀ w ∈ (g.mem v).succs, w ∈ g.nodes := wf.succMem v hv
  generalize (g.mem v).succs = l at hs
  induction l generalizing G with
  | nil => simp only [List.foldlM_nil, List.map_nil, List.append_nil]; rfl
  | cons w l ih =>
    rw [List.foldlM_cons, guardUB_true (hs w List.mem_cons_self)]
    simp only [Res.ok_bind]
    rw [MultiDiGraph.addEdge_old (hG v hv) (hG w (hs w List.mem_cons_self)), ih (by exact hG) fun u hu => hs u (List.mem_cons_of_mem _ hu)]
    simp

/-- All edges between symbols. -/
def operandEdges (g : Graph) (name : Nat → List Char) (l : List Nat) : List (List Char × List Char) :=
  l.flatMap fun v => (g.mem v).succs.map fun w => (name v, name w)

theorem exportAll_eq (wf : g.WF) : ∀ {l : List Nat} {G : MultiDiGraph (List Char)}, (∀ v ∈ l, v ∈ g.nodes) →
    (∀ w ∈ g.nodes, name w ∈ G.nodes) → l.foldlM (g.exportSuccs name) G = .ok ⟨G.nodes, G.edges ++ g.operandEdges name l⟩
  | [], G, _, _ => by simp [operandEdges]
  | v :: l, G, hl, hG => by
    rw [List.foldlM_cons, exportSuccs_eq wf (hl v List.mem_cons_self) hG]
    simp only [Res.ok_bind]
    rw [exportAll_eq wf (fun u hu => hl u (List.mem_cons_of_mem _ hu)) (by exact hG)]
    simp [operandEdges]

theorem count_edges {name : Nat → List Char} {l : List Nat} {u v w : Nat} (hv : name u = name v → u = v)
    (hw : ∀ x ∈ l, name x = name w → x = w) :
    (l.map fun x => (name u, name x)).count (name v, name w) = if u = v then l.count w else 0 := by
  split
  · rename_i h
    subst h
    induction l with
    | nil => rfl
    | cons x l ih =>
      rw [List.map_cons, List.count_cons, List.count_cons, ih fun y hy => hw y (List.mem_cons_of_mem _ hy)]
      congr 1
      by_cases h : x = w
      · simp [h]
      · have : name x ≠ name w := fun e => h (hw x List.mem_cons_self e)
        simp [h, this]
  · rename_i h
    refine List.count_eq_zero.2 fun hm => ?_
    obtain ⟨x, _, hx⟩ := List.mem_map.1 hm
    exact h (hv (congrArg Prod.fst hx))

theorem count_operandEdges (hinj : ∀ v w, name v = name w → v = w) {v w : Nat} : ∀ {l : List Nat}, l.Nodup →
    (g.operandEdges name l).count (name v, name w) = if v ∈ l then (g.mem v).succs.count w else 0
  | [], _ => rfl
  | u :: l, hn => by
    have ih := count_operandEdges hinj (v := v) (w := w) (List.nodup_cons.1 hn).2
    unfold operandEdges at ih ⊢
    rw [List.flatMap_cons, List.count_append, ih, count_edges (hinj u v) fun x _ => hinj x w]
    by_cases h : u = v
    · subst h
      simp [(List.nodup_cons.1 hn).1]
    · have : v ≠ u := fun e => h e.symm
      simp [h, this]

theorem count_label {name : Nat → List Char} (hinj : ∀ v w, name v = name w → v = w) {b : List Char} {v : Nat} : ∀ {l : List Nat},
    (l.map fun x => (name x, b)).count (name v, b) = l.count v
  | [] => rfl
  | x :: l => by
    rw [List.map_cons, List.count_cons, List.count_cons, count_label hinj]
    congr 1
    by_cases h : x = v
    · simp [h]
    · have : name x ≠ name v := fun e => h (hinj x v e)
      simp [h, this]

/-- The exported graph, node by node and edge by edge. -/
theorem toNetworkx_eq (wf : g.WF) (hinj : ∀ v w, name v = name w → v = w) (hm : ∀ v, name v ≠ minimizeLabel)
    (hc : ∀ v, name v ≠ constraintsLabel) :
    g.toNetworkx name = .ok ⟨g.nodes.map name ++ (if g.objective = none then [] else [minimizeLabel]) ++
        (if g.constraints = [] then [] else [constraintsLabel]),
      g.operandEdges name g.nodes ++ (g.objective.toList.map fun o => (name o, minimizeLabel)) ++
        g.constraints.map fun c => (name c, constraintsLabel)⟩ := by
  have e1 : g.nodes.foldl (fun G v => G.addNode (name v)) (⟨[], []⟩ : MultiDiGraph (List Char)) = ⟨g.nodes.map name, []⟩ := by
    rw [MultiDiGraph.addNodes wf.nodup (fun v _ w _ => hinj v w) (by simp)]
    simp
  unfold toNetworkx
  rw [e1, guardThrow_true (by simp)]
  simp only [Res.ok_bind]
  rw [exportAll_eq wf (fun _ h => h) fun w hw => List.mem_map_of_mem hw]
  simp only [Res.ok_bind]
  rw [guardThrow_true (by simp)]
  simp only [Res.ok_bind, List.nil_append]
  cases ho : g.objective with
  | none =>
    simp only [Option.toList_none, List.map_nil, List.append_nil, if_true]
    rw [MultiDiGraph.addEdges_new]
    · exact fun c hcc => List.mem_map_of_mem (wf.conMem c hcc)
    · intro h
      obtain ⟨v, _, e⟩ := List.mem_map.1 h
      exact hc v e
  | some o =>
    dsimp only
    rw [MultiDiGraph.addEdge_new (List.mem_map_of_mem (wf.objMem o ho)), MultiDiGraph.addEdges_new]
    · simp
    · exact fun c hcc => List.mem_append_left _ (List.mem_map_of_mem (wf.conMem c hcc))
    · intro h
      rcases List.mem_append.1 h with h | h
      · obtain ⟨v, _, e⟩ := List.mem_map.1 h
        exact hc v e
      · revert h
        decide
    · intro h
      obtain ⟨v, _, e⟩ := List.mem_map.1 h
      exact hm v e

end Graph

end Verif
