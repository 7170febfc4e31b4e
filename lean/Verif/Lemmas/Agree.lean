import Verif.Spec.Workspace
import Verif.Props.Graph

/-!
# Operations on a model only depend on the memory of its own symbols, and only change it there
-/

namespace Verif

/-- Two computations that end in the same way, with related results. -/
inductive Res.Rel {α β : Type} (R : α → β → Prop) : Res α → Res β → Prop where
  | ok {a : α} {b : β} (h : R a b) : Res.Rel R (.ok a) (.ok b)
  | throw : Res.Rel R .throw .throw
  | ub : Res.Rel R .ub .ub

namespace Res.Rel

variable {α β γ δ : Type} {R : α → β → Prop} {Q : γ → δ → Prop}

theorem bind {r : Res α} {r' : Res β} {f : α → Res γ} {f' : β → Res δ} (h : Res.Rel R r r') (hf : ∀ a b, R a b → Res.Rel Q (f a) (f' b)) :
    Res.Rel Q (r >>= f) (r' >>= f') := by
  cases h with
  | ok h => exact hf _ _ h
  | throw => exact .throw
  | ub => exact .ub

theorem guardUB {p p' : Prop} [Decidable p] [Decidable p'] (h : p ↔ p') : Res.Rel (fun _ _ => True) (Verif.guardUB p) (Verif.guardUB p') := by
  unfold Verif.guardUB
  by_cases hp : p
  · rw [if_pos hp, if_pos (h.1 hp)]; exact .ok trivial
  · rw [if_neg hp, if_neg fun hp' => hp (h.2 hp')]; exact .ub

theorem guardThrow {p p' : Prop} [Decidable p] [Decidable p'] (h : p ↔ p') :
    Res.Rel (fun _ _ => True) (Verif.guardThrow p) (Verif.guardThrow p') := by
  unfold Verif.guardThrow
  by_cases hp : p
  · rw [if_pos hp, if_pos (h.1 hp)]; exact .ok trivial
  · rw [if_neg hp, if_neg fun hp' => hp (h.2 hp')]; exact .throw

theorem foldlM {ι : Type} {f : α → ι → Res α} {f' : β → ι → Res β} : ∀ {l : List ι} {a : α} {b : β},
    (∀ a b, ∀ x ∈ l, R a b → Res.Rel R (f a x) (f' b x)) → R a b → Res.Rel R (l.foldlM f a) (l.foldlM f' b)
  | [], a, b, _, h => .ok h
  | x :: l, a, b, hf, h => by
    rw [List.foldlM_cons, List.foldlM_cons]
    exact (hf a b x List.mem_cons_self h).bind fun a b h => foldlM (fun a b y hy => hf a b y (List.mem_cons_of_mem _ hy)) h

theorem mono {R' : α → β → Prop} {r : Res α} {r' : Res β} (h : Res.Rel R r r') (hr : ∀ a b, R a b → R' a b) : Res.Rel R' r r' := by
  cases h with
  | ok h => exact .ok (hr _ _ h)
  | throw => exact .throw
  | ub => exact .ub

/-- The second computation ends as the first one. -/
theorem ok_left {a : α} {r' : Res β} (h : Res.Rel R (.ok a) r') : ∃ b, r' = .ok b ∧ R a b := by
  cases h with
  | ok h => exact ⟨_, rfl, h⟩

theorem throw_left {r' : Res β} (h : Res.Rel R .throw r') : r' = .throw := by
  cases h; rfl

theorem ub_left {r' : Res β} (h : Res.Rel R .ub r') : r' = .ub := by
  cases h; rfl

theorem ok_right {r : Res α} {b : β} (h : Res.Rel R r (.ok b)) : ∃ a, r = .ok a ∧ R a b := by
  cases h with
  | ok h => exact ⟨_, rfl, h⟩

end Res.Rel

theorem foldl_rel {α β ι : Type} {R : α → β → Prop} {f : α → ι → α} {f' : β → ι → β} : ∀ {l : List ι} {a : α} {b : β},
    (∀ a b, ∀ x ∈ l, R a b → R (f a x) (f' b x)) → R a b → R (l.foldl f a) (l.foldl f' b)
  | [], a, b, _, h => h
  | x :: l, a, b, hf, h => by
    rw [List.foldl_cons, List.foldl_cons]
    exact foldl_rel (l := l) (fun a b y hy => hf a b y (List.mem_cons_of_mem _ hy)) (hf a b x List.mem_cons_self h)

/-! ## Sorting -/

theorem orderedInsert_congr {k k' : Nat → Int} {a : Nat} : ∀ {l : List Nat}, (∀ b ∈ a :: l, k b = k' b) →
    l.orderedInsert (fun a b => k a ≤ k b) a = l.orderedInsert (fun a b => k' a ≤ k' b) a
  | [], _ => rfl
  | b :: l, h => by
    have ha := h a List.mem_cons_self
    have hb := h b (List.mem_cons_of_mem _ List.mem_cons_self)
    simp only [List.orderedInsert, ha, hb]
    split
    · rfl
    · rw [orderedInsert_congr (l := l)]
      intro c hc
      rcases List.mem_cons.1 hc with rfl | hc
      · exact ha
      · exact h c (List.mem_cons_of_mem _ (List.mem_cons_of_mem _ hc))

theorem sortBy_congr {k k' : Nat → Int} : ∀ {l : List Nat}, (∀ a ∈ l, k a = k' a) → sortBy k l = sortBy k' l
  | [], _ => rfl
  | a :: l, h => by
    have ih : sortBy k l = sortBy k' l := sortBy_congr fun b hb => h b (List.mem_cons_of_mem _ hb)
    unfold sortBy at ih ⊢
    rw [List.insertionSort_cons, List.insertionSort_cons, ih, orderedInsert_congr]
    intro b hb
    rcases List.mem_cons.1 hb with rfl | hb
    · exact h b List.mem_cons_self
    · exact h b (List.mem_cons_of_mem _ ((List.perm_insertionSort _ l).mem_iff.1 hb))

namespace Graph

/-- The two agree on `P`, and the first is as at the beginning elsewhere. -/
structure Alike {β : Type} (P : Nat → Prop) (start : Nat → β) (f f' : Nat → β) : Prop where
  on : ∀ v, P v → f v = f' v
  off : ∀ v, ¬ P v → f v = start v

theorem Alike.upd {β : Type} {P : Nat → Prop} {start f f' : Nat → β} (h : Alike P start f f') {n : Nat} (hn : P n) {b b' : β}
    (hb : b = b') : Alike P start (Verif.upd f n b) (Verif.upd f' n b') := by
  subst hb
  refine ⟨fun v hv => ?_, fun v hv => ?_⟩
  · by_cases e : v = n
    · rw [e, upd_same, upd_same]
    · rw [upd_ne _ _ e, upd_ne _ _ e]
      exact h.on v hv
  · have e : v ≠ n := fun e => hv (e ▸ hn)
    rw [upd_ne _ _ e]
    exact h.off v hv

theorem visit_rel {P : Nat → Prop} {succs succs' : Nat → List Nat} (hs : ∀ v, P v → succs v = succs' v)
    (hc : ∀ v, P v → ∀ w ∈ succs v, P w) {start : Nat → Int} : ∀ (fuel : Nat) {s s' : (Nat → Int) × Int} {n : Nat}, P n →
    Alike P start s.1 s'.1 → s.2 = s'.2 →
    Res.Rel (fun r r' => Alike P start r.1 r'.1 ∧ r.2 = r'.2) (visit succs fuel s n) (visit succs' fuel s' n)
  | 0, _, _, _, _, _, _ => .ub
  | fuel + 1, s, s', n, hn, h1, h2 => by
    unfold visit
    rw [h1.on n hn]
    split
    · exact .ok ⟨h1, h2⟩
    · split
      · exact .throw
      · rw [hs n hn]
        refine Res.Rel.bind (R := fun r r' => Alike P start r.1 r'.1 ∧ r.2 = r'.2) (Res.Rel.foldlM ?_ ?_) ?_
        · intro a b x hx hab
          exact visit_rel hs hc fuel (hc n hn x (by rw [hs n hn]; exact List.mem_reverse.1 hx)) hab.1 hab.2
        · exact ⟨h1.upd hn rfl, h2⟩
        · intro a b hab
          exact .ok ⟨hab.1.upd hn hab.2, by rw [hab.2]⟩

/-- The memory outside the graph is as before, except for a new symbol. -/
def Frame (g g1 : Graph) (fresh : Nat → Prop) : Prop := ∀ v, v ∉ g.nodes → ¬ fresh v → g1.mem v = g.mem v

variable {g g' : Graph}

theorem Agree.sort (h : g.Agree g') (wf : g.WF) :
    Res.Rel (fun g1 g1' => g1.Agree g1' ∧ g.Frame g1 (fun _ => False) ∧ ∀ v, v ∈ g1.nodes ↔ v ∈ g.nodes) g.topologicalSort g'.topologicalSort := by
  unfold topologicalSort
  rw [← h.sorted]
  split
  · exact .ok ⟨h, fun _ _ _ => rfl, fun _ => Iff.rfl⟩
  · unfold sortIdx
    rw [← h.nodes, ← h.decisions]
    refine Res.Rel.bind (R := fun i i' => Alike (· ∈ g.nodes) (fun v => (g.mem v).topo) i i') ?_ ?_
    · refine Res.Rel.bind (R := fun r r' => Alike (· ∈ g.nodes) (fun v => (g.mem v).topo) r.1 r'.1 ∧ r.2 = r'.2)
        (Res.Rel.foldlM ?_ ?_) ?_
      · intro a b x hx hab
        exact visit_rel (P := (· ∈ g.nodes)) (fun v hv => congrArg GNode.succs (h.mem v hv)) (fun v hv => wf.succMem v hv) _ (List.mem_reverse.1 hx) hab.1 hab.2
      · exact ⟨⟨fun v hv => by dsimp only; rw [h.mem v hv], fun _ _ => rfl⟩, rfl⟩
      · intro a b hab
        exact (Res.Rel.guardUB (by rw [hab.2])).bind fun _ _ _ => .ok hab.1
    · intro i i' hi
      refine .ok ⟨⟨sortBy_congr fun v hv => hi.on v hv, rfl, h.objective, h.constraints, rfl, fun v hv => ?_⟩, fun v hv _ => ?_, fun v => ?_⟩
      · have hv : v ∈ g.nodes := (sortBy_perm i g.nodes).mem_iff.1 hv
        show ({ g.mem v with topo := i v } : GNode) = { g'.mem v with topo := i' v }
        rw [h.mem v hv, hi.on v hv]
      · show ({ g.mem v with topo := i v } : GNode) = g.mem v
        rw [hi.off v hv]
      · exact (sortBy_perm i g.nodes).mem_iff

theorem Agree.reset (h : g.Agree g') : g.resetTopologicalSort.Agree g'.resetTopologicalSort ∧ g.Frame g.resetTopologicalSort fun _ => False := by
  unfold resetTopologicalSort
  rw [← h.sorted]
  split
  · exact ⟨h, fun _ _ _ => rfl⟩
  · rw [← h.nodes, ← h.decisions]
    refine ⟨⟨rfl, rfl, h.objective, h.constraints, rfl, fun v hv => ?_⟩, fun v hv _ => ?_⟩
    · dsimp only
      rw [h.mem v hv]
    · show (if v ∈ g.nodes.drop g.decisions.length then ({ g.mem v with topo := -1 } : GNode) else g.mem v) = g.mem v
      rw [if_neg fun hd => hv (List.mem_of_mem_drop hd)]

/-! ## New symbols -/

theorem linkSuccs_rel {P : Nat → Prop} {start m m' : Nat → GNode} (h : Alike P start m m') {a : Nat} {preds : List Nat}
    (hp : ∀ p ∈ preds, P p) : Alike P start (linkSuccs m a preds) (linkSuccs m' a preds) := by
  unfold linkSuccs
  refine foldl_rel (R := Alike P start) (fun m m' p hpp hm => ?_) h
  exact hm.upd (hp p hpp) (by rw [hm.on p (hp p hpp)])

theorem Agree.emplaceNode (h : g.Agree g') (a : Nat) (preds : List Nat) (r : Bool) :
    Res.Rel (fun g1 g1' => g1.Agree g1' ∧ g.Frame g1 (· = a)) (g.emplaceNode a preds r) (g'.emplaceNode a preds r) := by
  unfold Graph.emplaceNode
  rw [← h.sorted, ← h.nodes]
  refine (Res.Rel.guardThrow Iff.rfl).bind fun _ _ _ => ?_
  by_cases hg : a ∉ g.nodes ∧ ∀ p ∈ preds, p ∈ g.nodes
  · rw [guardUB_true hg]
    have key : Alike (fun v => v ∈ g.nodes ∨ v = a) g.mem (linkSuccs (upd g.mem a { preds := preds, removable := r }) a preds)
        (linkSuccs (upd (fun v => if v ∈ g.nodes ∨ v = a then g'.mem v else g.mem v) a { preds := preds, removable := r }) a preds) := by
      refine linkSuccs_rel ⟨fun v hv => ?_, fun v hv => ?_⟩ fun p hp => .inl (hg.2 p hp)
      · by_cases e : v = a
        · rw [e, upd_same, upd_same]
        · rw [upd_ne _ _ e, upd_ne _ _ e, if_pos hv]
          exact h.mem v (hv.resolve_right e)
      · rw [upd_ne _ _ fun e => hv (.inr e)]
    have key2 : Alike (fun v => v ∈ g.nodes ∨ v = a) g'.mem (linkSuccs (upd g'.mem a { preds := preds, removable := r }) a preds)
        (linkSuccs (upd (fun v => if v ∈ g.nodes ∨ v = a then g'.mem v else g.mem v) a { preds := preds, removable := r }) a preds) := by
      refine linkSuccs_rel ⟨fun v hv => ?_, fun v hv => ?_⟩ fun p hp => .inl (hg.2 p hp)
      · by_cases e : v = a
        · rw [e, upd_same, upd_same]
        · rw [upd_ne _ _ e, upd_ne _ _ e, if_pos hv]
      · rw [upd_ne _ _ fun e => hv (.inr e)]
    refine .ok ⟨⟨by rw [h.nodes], h.decisions, h.objective, h.constraints, rfl, fun v hv => ?_⟩, fun v hv hne => ?_⟩
    · have hv : v ∈ g.nodes ∨ v = a := by simpa using hv
      exact (key.on v hv).trans (key2.on v hv).symm
    · exact key.off v fun hv' => hv'.elim hv hne
  · have e : guardUB (a ∉ g.nodes ∧ ∀ p ∈ preds, p ∈ g.nodes) = .ub := if_neg hg
    rw [e]
    exact .ub

theorem Agree.emplaceDecision (h : g.Agree g') (a : Nat) :
    Res.Rel (fun g1 g1' => g1.Agree g1' ∧ g.Frame g1 (· = a)) (g.emplaceDecision a) (g'.emplaceDecision a) := by
  unfold Graph.emplaceDecision
  rw [← h.sorted, ← h.nodes]
  refine (Res.Rel.guardThrow Iff.rfl).bind fun _ _ _ => (Res.Rel.guardUB Iff.rfl).bind fun _ _ _ => ?_
  refine .ok ⟨⟨by rw [h.nodes], by rw [h.decisions], h.objective, h.constraints, rfl, fun v hv => ?_⟩, fun v hv hne => ?_⟩
  · show upd g.mem a _ v = upd g'.mem a _ v
    by_cases e : v = a
    · rw [e, upd_same, upd_same, h.decisions]
    · rw [upd_ne _ _ e, upd_ne _ _ e]
      have hv : v ∈ g.nodes ∨ v = a := by simpa using hv
      exact h.mem v (hv.resolve_right e)
  · exact upd_ne _ _ hne

theorem Agree.addPredecessor (h : g.Agree g') (n p : Nat) :
    Res.Rel (fun g1 g1' => g1.Agree g1' ∧ g.Frame g1 fun _ => False) (g.addPredecessor n p) (g'.addPredecessor n p) := by
  unfold Graph.addPredecessor
  rw [← h.nodes, ← h.decisions]
  by_cases hn : n ∈ g.nodes ∧ p ∈ g.nodes
  · rw [← h.mem n hn.1, ← h.mem p hn.2]
    refine (Res.Rel.guardUB Iff.rfl).bind fun _ _ _ => (Res.Rel.guardThrow Iff.rfl).bind fun _ _ _ =>
      (Res.Rel.guardUB Iff.rfl).bind fun _ _ _ => ?_
    have hA : Alike (· ∈ g.nodes) g.mem g.mem g'.mem := ⟨h.mem, fun _ _ => rfl⟩
    have h1 := hA.upd (n := p) hn.2 (b := { g.mem p with succs := (g.mem p).succs ++ [n] }) rfl
    have h2 := h1.upd (n := n) hn.1 (b := { upd g.mem p { g.mem p with succs := (g.mem p).succs ++ [n] } n with
      preds := (upd g.mem p { g.mem p with succs := (g.mem p).succs ++ [n] } n).preds ++ [p] }) (by rw [h1.on n hn.1])
    exact .ok ⟨⟨rfl, rfl, h.objective, h.constraints, h.sorted, h2.on⟩, fun v hv _ => h2.off v hv⟩
  · have e1 : guardUB (n ∈ g.nodes ∧ p ∈ g.nodes ∧ n ∉ g.decisions ∧ (g.mem n).preds ≠ []) = .ub := if_neg fun hh => hn ⟨hh.1, hh.2.1⟩
    have e2 : guardUB (n ∈ g.nodes ∧ p ∈ g.nodes ∧ n ∉ g.decisions ∧ (g'.mem n).preds ≠ []) = .ub := if_neg fun hh => hn ⟨hh.1, hh.2.1⟩
    rw [e1, e2]
    exact .ub

/-! ## Removing symbols -/

theorem markConstraints_rel {P : Nat → Prop} {start m m' : Nat → GNode} (h : Alike P start m m') (nd : Int) {cs : List Nat}
    (hc : ∀ c ∈ cs, P c) : Alike P start (markConstraints nd cs m) (markConstraints nd cs m') := by
  unfold markConstraints
  refine foldl_rel (R := Alike P start) (fun m m' c hcc hm => ?_) h
  rw [← hm.on c (hc c hcc)]
  split
  · exact hm
  · exact hm.upd (hc c hcc) rfl

theorem markObjective_rel {P : Nat → Prop} {start m m' : Nat → GNode} (h : Alike P start m m') (nd : Int) {o : Option Nat}
    (ho : ∀ v ∈ o, P v) : Alike P start (markObjective nd o m) (markObjective nd o m') := by
  unfold markObjective
  cases o with
  | none => exact h
  | some v =>
    dsimp only
    rw [← h.on v (ho v rfl)]
    split
    · exact h.upd (ho v rfl) rfl
    · exact h

theorem markListeners_rel {P : Nat → Prop} {start m m' : Nat → GNode} (h : Alike P start m m') {vs : List Nat}
    (hc : ∀ c ∈ vs, P c) : Alike P start (markListeners vs m) (markListeners vs m') := by
  unfold markListeners
  refine foldl_rel (R := Alike P start) (fun m m' c hcc hm => ?_) h
  rw [← hm.on c (hc c hcc)]
  split
  · exact hm.upd (hc c hcc) rfl
  · exact hm

theorem Agree.markKeep (h : g.Agree g') (wf : g.WF) (b : Bool) : Alike (· ∈ g.nodes) g.mem (g.markKeep b) (g'.markKeep b) := by
  have hA : Alike (· ∈ g.nodes) g.mem g.mem g'.mem := ⟨h.mem, fun _ _ => rfl⟩
  unfold Graph.markKeep
  rw [← h.nodes, ← h.decisions, ← h.constraints, ← h.objective]
  have h1 := markObjective_rel (markConstraints_rel hA g.decisions.length wf.conMem) g.decisions.length wf.objMem
  split
  · exact h1
  · exact markListeners_rel h1 fun c hc => List.mem_of_mem_drop hc

theorem upd_preds {m : Nat → GNode} {n : Nat} {x : GNode} {ps : List Nat} {v : Nat} (hx : x.preds = (m n).preds) (hv : (m v).preds = ps) :
    (upd m n x v).preds = ps := by
  rw [← hv]
  by_cases e : v = n
  · rw [e, upd_same, hx]
  · rw [upd_ne _ _ e]

theorem markKeep_preds (g : Graph) (b : Bool) (v : Nat) : (g.markKeep b v).preds = (g.mem v).preds := by
  have h1 : ∀ (nd : Int) (cs : List Nat) (m : Nat → GNode) v, (markConstraints nd cs m v).preds = (m v).preds := by
    intro nd cs
    unfold markConstraints
    induction cs with
    | nil => exact fun _ _ => rfl
    | cons c cs ih =>
      intro m v
      rw [List.foldl_cons, ih]
      split
      · rfl
      · exact upd_preds (by rfl) rfl
  have h2 : ∀ (nd : Int) (o : Option Nat) (m : Nat → GNode) v, (markObjective nd o m v).preds = (m v).preds := by
    intro nd o m v
    unfold markObjective
    cases o with
    | none => rfl
    | some o =>
      dsimp only
      split
      · exact upd_preds (by rfl) rfl
      · rfl
  have h3 : ∀ (cs : List Nat) (m : Nat → GNode) v, (markListeners cs m v).preds = (m v).preds := by
    intro cs
    unfold markListeners
    induction cs with
    | nil => exact fun _ _ => rfl
    | cons c cs ih =>
      intro m v
      rw [List.foldl_cons, ih]
      split
      · exact upd_preds (by rfl) rfl
      · rfl
  unfold Graph.markKeep
  split
  · rw [h2, h1]
  · rw [h3, h2, h1]

/-- While symbols are removed. -/
structure Removing (P : Nat → Prop) (start : Nat → GNode) (s s' : (Nat → GNode) × List Nat) : Prop where
  alike : Alike P start s.1 s'.1
  preds : ∀ v, (s.1 v).preds = (start v).preds
  gone : s.2 = s'.2

theorem removeStep_rel {P : Nat → Prop} {start : Nat → GNode} (hc : ∀ v, P v → ∀ p ∈ (start v).preds, P p)
    {s s' : (Nat → GNode) × List Nat} (h : Removing P start s s') {v : Nat} (hv : P v) :
    Removing P start (removeStep s v) (removeStep s' v) := by
  unfold removeStep
  rw [← h.alike.on v hv]
  split
  · exact h
  · split
    · exact h
    · split
      · exact h
      · have key : ∀ (l : List Nat) (m m' : Nat → GNode), (∀ p ∈ l, P p) → Alike P start m m' → (∀ w, (m w).preds = (start w).preds) →
            Alike P start (l.foldl (fun m p => upd m p { m p with succs := (m p).succs.filter (fun w => w ≠ v) }) m)
              (l.foldl (fun m p => upd m p { m p with succs := (m p).succs.filter (fun w => w ≠ v) }) m') ∧
            ∀ w, ((l.foldl (fun m p => upd m p { m p with succs := (m p).succs.filter (fun w => w ≠ v) }) m) w).preds = (start w).preds := by
          intro l
          induction l with
          | nil => exact fun m m' _ h1 h2 => ⟨h1, h2⟩
          | cons p l ih =>
            intro m m' hl h1 h2
            rw [List.foldl_cons, List.foldl_cons]
            refine ih _ _ (fun q hq => hl q (List.mem_cons_of_mem _ hq)) (h1.upd (hl p List.mem_cons_self)
              (by rw [h1.on p (hl p List.mem_cons_self)])) fun w => ?_
            exact upd_preds (by rfl) (h2 w)
        have := key (s.1 v).preds s.1 s'.1 (by rw [h.preds v]; exact hc v hv) h.alike h.preds
        exact ⟨this.1, this.2, by rw [h.gone]⟩

theorem Agree.removeUnused (h : g.Agree g') (wf : g.WF) (b : Bool) :
    Res.Rel (fun r r' => r.1.Agree r'.1 ∧ g.Frame r.1 fun _ => False) (g.removeUnused b) (g'.removeUnused b) := by
  unfold Graph.removeUnused
  have hwf : ∀ g1, g.topologicalSort = .ok g1 → g1.WF := by
    intro g1 h1
    by_cases hs : g.sorted = true
    · simp only [topologicalSort, hs, if_true, Res.ok.injEq] at h1
      exact h1 ▸ wf
    · rcases wf.sort_spec (by simpa using hs) with ⟨g', e, w, _⟩ | ⟨e, _⟩
      · rw [h1] at e; cases e; exact w
      · rw [h1] at e; cases e
  have hsort := h.sort wf
  cases e1 : g.topologicalSort with
  | throw => rw [e1] at hsort; rw [hsort.throw_left]; exact .throw
  | ub => rw [e1] at hsort; rw [hsort.ub_left]; exact .ub
  | ok g1 =>
    rw [e1] at hsort
    obtain ⟨g1', e2, ha, hf, hn⟩ := hsort.ok_left
    have w := hwf g1 e1
    rw [e2]
    simp only [Res.ok_bind]
    rw [← ha.nodes, ← ha.decisions]
    have hr : Removing (· ∈ g1.nodes) (g1.markKeep b) ((g1.nodes.drop g1.decisions.length).reverse.foldl removeStep (g1.markKeep b, []))
        ((g1.nodes.drop g1.decisions.length).reverse.foldl removeStep (g1'.markKeep b, [])) := by
      refine foldl_rel (R := Removing (· ∈ g1.nodes) (g1.markKeep b)) (fun s s' v hv hs => removeStep_rel ?_ hs ?_) ?_
      · intro u hu p hp
        rw [markKeep_preds] at hp
        exact w.predMem u hu p hp
      · exact List.mem_of_mem_drop (List.mem_reverse.1 hv)
      · exact ⟨⟨(ha.markKeep w b).on, fun _ _ => rfl⟩, fun _ => rfl, rfl⟩
    generalize (g1.nodes.drop g1.decisions.length).reverse.foldl removeStep (g1.markKeep b, []) = s at hr ⊢
    generalize (g1.nodes.drop g1.decisions.length).reverse.foldl removeStep (g1'.markKeep b, []) = s' at hr ⊢
    have hA : (Graph.mk s.1 (g1.nodes.filter fun v => v ∉ s.2) g1.decisions g1.objective g1.constraints g1.sorted).Agree
        (Graph.mk s'.1 (g1.nodes.filter fun v => v ∉ s'.2) g1.decisions g1'.objective g1'.constraints g1'.sorted) := by
      refine ⟨?_, rfl, ha.objective, ha.constraints, ha.sorted, fun v hv => ?_⟩
      · dsimp only
        rw [hr.gone]
      · exact hr.alike.on v (List.mem_of_mem_filter hv)
    have hR := hA.reset
    refine .ok ⟨hR.1, fun v hv _ => ?_⟩
    have hv1 : v ∉ g1.nodes := fun hv' => hv ((hn v).1 hv')
    have h2 := hR.2 v (fun hv' => hv1 (List.mem_of_mem_filter hv')) id
    refine h2.trans ?_
    refine (hr.alike.off v hv1).trans ?_
    refine ((ha.markKeep w b).off v hv1).trans ?_
    exact hf v hv id

end Graph

namespace PyModel

open Graph

/-- The address of the symbol that an operation makes. -/
def fresh : ModelOp → Nat → Prop
  | .decision a, v => v = a
  | .node a _ _, v => v = a
  | _, _ => False

/-- An operation does the same with two models that only differ in other memory, and does not change other memory. -/
theorem Agree.step {m m' : PyModel} (h : m.Agree m') (wf : m.g.WF) {op : ModelOp} (hop : ∀ v b, op = .reference v b → v ∈ m.g.nodes) :
    Res.Rel (fun n n' => n.Agree n' ∧ m.g.Frame n.g (fresh op)) (m.step op) (m'.step op) := by
  have hl := h.locks
  cases op with
  | decision a => exact (h.graph.emplaceDecision a).bind fun g g' hg => .ok ⟨⟨hg.1, hl⟩, hg.2⟩
  | node a preds r => exact (h.graph.emplaceNode a preds r).bind fun g g' hg => .ok ⟨⟨hg.1, hl⟩, hg.2⟩
  | addOperand n p => exact (h.graph.addPredecessor n p).bind fun g g' hg => .ok ⟨⟨hg.1, hl⟩, hg.2⟩
  | minimize o =>
    refine Res.Rel.bind (R := fun g1 g1' => g1.Agree g1' ∧ m.g.Frame g1 fun _ => False) ?_ fun g g' hg => .ok ⟨⟨hg.1, hl⟩, hg.2⟩
    unfold setObjective
    rw [← h.graph.nodes]
    refine (Res.Rel.guardUB Iff.rfl).bind fun _ _ _ => (Res.Rel.guardThrow Iff.rfl).bind fun _ _ _ => .ok ?_
    exact ⟨⟨rfl, h.graph.decisions, rfl, h.graph.constraints, h.graph.sorted, h.graph.mem⟩, fun _ _ _ => rfl⟩
  | addConstraint c =>
    refine Res.Rel.bind (R := fun g1 g1' => g1.Agree g1' ∧ m.g.Frame g1 fun _ => False) ?_ fun g g' hg => .ok ⟨⟨hg.1, hl⟩, hg.2⟩
    unfold Graph.addConstraint
    rw [← h.graph.nodes]
    refine (Res.Rel.guardUB Iff.rfl).bind fun _ _ _ => (Res.Rel.guardThrow Iff.rfl).bind fun _ _ _ =>
      (Res.Rel.guardThrow Iff.rfl).bind fun _ _ _ => .ok ?_
    exact ⟨⟨rfl, h.graph.decisions, h.graph.objective, by rw [h.graph.constraints], h.graph.sorted, h.graph.mem⟩, fun _ _ _ => rfl⟩
  | reference v b =>
    have hv := hop v b rfl
    have hA : Alike (· ∈ m.g.nodes) m.g.mem m.g.mem m'.g.mem := ⟨h.graph.mem, fun _ _ => rfl⟩
    have h1 := hA.upd hv (b := { m.g.mem v with listened := b }) (b' := { m'.g.mem v with listened := b }) (by rw [h.graph.mem v hv])
    exact .ok ⟨⟨⟨h.graph.nodes, h.graph.decisions, h.graph.objective, h.graph.constraints, h.graph.sorted, h1.on⟩, hl⟩,
      fun w hw _ => h1.off w hw⟩
  | lock =>
    refine (h.graph.sort wf).bind fun g g' hg => .ok ⟨⟨hg.1, by dsimp only; rw [hl]⟩, hg.2.1⟩
  | unlock =>
    simp only [PyModel.step]
    rw [← hl]
    split
    · exact .ok ⟨h, fun _ _ _ => rfl⟩
    · split
      · exact .ok ⟨⟨h.graph.reset.1, rfl⟩, h.graph.reset.2⟩
      · exact .ok ⟨⟨h.graph, rfl⟩, fun _ _ _ => rfl⟩
  | removeUnused =>
    simp only [PyModel.step]
    have e : m'.isLocked = m.isLocked := by unfold isLocked; rw [hl]
    rw [e]
    exact (Res.Rel.guardThrow Iff.rfl).bind fun _ _ _ => (h.graph.removeUnused wf false).bind fun r r' hr => .ok ⟨⟨hr.1, hl⟩, hr.2⟩

end PyModel

end Verif
