import Verif.Props.Graph

set_option linter.unusedSectionVars false
set_option linter.unusedSimpArgs false
set_option linter.unusedVariables false

/-!
# C19: a proposal visits exactly the affected symbols, in dependency order
-/

namespace Verif

open Graph PyModel

namespace Graph

theorem explore_fold {g : Graph} {src all : List Nat} (hinj : ∀ v ∈ g.nodes, ∀ w ∈ g.nodes,
      g.topoOf v = g.topoOf w → v = w)
    (ms : List Nat) (hms : ∀ m ∈ ms, m ∈ g.nodes ∧ m ∉ src) (marks : Int → Bool) (new : List Nat)
    (hnew : ∀ m ∈ new, m ∈ g.nodes ∧ m ∉ src)
    (hnd : (all ++ new).Nodup)
    (hmk : ∀ v ∈ g.nodes, marks (g.topoOf v) = true ↔ (v ∈ all ++ new ∧ v ∉ src)) :
    ∃ s, ms.foldl (explore g.topoOf) (marks, new) = s ∧ (∃ t, s.2 = new ++ t ∧ ∀ m ∈ t, m ∈ ms) ∧
      (all ++ s.2).Nodup ∧
      (∀ v ∈ g.nodes, s.1 (g.topoOf v) = true ↔ (v ∈ all ++ s.2 ∧ v ∉ src)) ∧
      (∀ m ∈ ms, m ∈ all ++ s.2) ∧
      (∀ i, (∀ v ∈ g.nodes, g.topoOf v ≠ i) → s.1 i = marks i) := by
  induction ms generalizing marks new with
  | nil => exact ⟨_, rfl, ⟨[], by simp⟩, hnd, hmk, by simp, fun _ _ => rfl⟩
  | cons m ms ih =>
    have hm := hms m List.mem_cons_self
    have hms' := fun x hx => hms x (List.mem_cons_of_mem _ hx)
    simp only [List.foldl_cons]
    by_cases hc : marks (g.topoOf m) = true
    · have : explore g.topoOf (marks, new) m = (marks, new) := by simp [explore, hc]
      rw [this]
      obtain ⟨s, hs, ⟨t, ht, htm⟩, h1, h2, h3, h4⟩ := ih hms' marks new hnew hnd hmk
      refine ⟨s, hs, ⟨t, ht, fun x hx => List.mem_cons_of_mem _ (htm x hx)⟩, h1, h2, ?_, h4⟩
      intro x hx
      rcases List.mem_cons.1 hx with rfl | hx
      · have := ((hmk x hm.1).1 hc).1
        rw [ht, ← List.append_assoc]
        exact List.mem_append_left _ this
      · exact h3 x hx
    · have hex : explore g.topoOf (marks, new) m =
        (fun i => if i = g.topoOf m then true else marks i, new ++ [m]) := by simp [explore, hc]
      rw [hex]
      have hmn : m ∉ all ++ new := fun hx => hc ((hmk m hm.1).2 ⟨hx, hm.2⟩)
      have hnd' : (all ++ (new ++ [m])).Nodup := by
        rw [← List.append_assoc, List.nodup_append]
        refine ⟨hnd, by simp, ?_⟩
        intro a ha b hb
        simp at hb; subst hb
        exact fun he => hmn (he ▸ ha)
      have hmk' : ∀ v ∈ g.nodes, (if g.topoOf v = g.topoOf m then true else marks (g.topoOf v)) = true ↔
          (v ∈ all ++ (new ++ [m]) ∧ v ∉ src) := by
        intro v hv
        by_cases hvm : v = m
        · subst hvm; simp [hm.2]
        · have : g.topoOf v ≠ g.topoOf m := fun he => hvm (hinj v hv m hm.1 he)
          rw [if_neg this, hmk v hv]
          simp [hvm]
      have hnew' : ∀ x ∈ new ++ [m], x ∈ g.nodes ∧ x ∉ src := by
        intro x hx
        rcases List.mem_append.1 hx with hx | hx
        · exact hnew x hx
        · simp at hx; subst hx; exact hm
      obtain ⟨s, hs, ⟨t, ht, htm⟩, h1, h2, h3, h4⟩ := ih hms'
        (fun i => if i = g.topoOf m then true else marks i) _ hnew' hnd' hmk'
      refine ⟨s, hs, ⟨m :: t, by rw [ht]; simp, ?_⟩, h1, h2, ?_, ?_⟩
      · intro x hx
        rcases List.mem_cons.1 hx with rfl | hx
        · exact List.mem_cons_self
        · exact List.mem_cons_of_mem _ (htm x hx)
      · intro x hx
        rcases List.mem_cons.1 hx with rfl | hx
        · rw [ht]; simp
        · exact h3 x hx
      · intro i hi
        rw [h4 i hi]
        simp only [ite_eq_right_iff]
        intro he
        exact absurd he.symm (hi m hm.1)

theorem bfs_spec {g : Graph} (h : g.WF) (hs : g.sorted = true) {src : List Nat}
    (hfree : ∀ s ∈ src, ∀ t ∈ src, ¬ ReachesPlus g.succsOf s t)
    (fuel : Nat) (marks : Int → Bool) (all todo done : List Nat)
    (hall : all = done ++ todo) (hnd : all.Nodup) (hsrc : ∀ s ∈ src, s ∈ all)
    (hmem : ∀ v ∈ all, v ∈ g.nodes ∧ ∃ s ∈ src, Reaches g.succsOf s v)
    (hmk : ∀ v ∈ g.nodes, marks (g.topoOf v) = true ↔ (v ∈ all ∧ v ∉ src))
    (hclosed : ∀ v ∈ done, ∀ w ∈ g.succsOf v, w ∈ all)
    (hfuel : g.nodes.length ≤ fuel + done.length) :
    ∃ marks' all', bfs g.succsOf g.topoOf fuel marks all todo = .ok (marks', all') ∧ all'.Nodup ∧
      (∀ s ∈ src, s ∈ all') ∧
      (∀ v ∈ all', v ∈ g.nodes ∧ ∃ s ∈ src, Reaches g.succsOf s v) ∧
      (∀ v ∈ g.nodes, marks' (g.topoOf v) = true ↔ (v ∈ all' ∧ v ∉ src)) ∧
      (∀ v ∈ all', ∀ w ∈ g.succsOf v, w ∈ all') ∧
      (∀ i, (∀ v ∈ g.nodes, g.topoOf v ≠ i) → marks' i = marks i) := by
  induction fuel generalizing marks all todo done with
  | zero =>
    cases todo with
    | nil =>
      simp at hall; subst hall
      exact ⟨marks, all, rfl, hnd, hsrc, hmem, hmk, hclosed, fun _ _ => rfl⟩
    | cons n todo =>
      exfalso
      have hl : all.length ≤ g.nodes.length :=
        (List.subperm_of_subset hnd (fun v hv => (hmem v hv).1)).length_le
      rw [hall] at hl
      simp at hl hfuel
      omega
  | succ fuel ih =>
    cases todo with
    | nil =>
      simp at hall; subst hall
      exact ⟨marks, all, by simp [bfs], hnd, hsrc, hmem, hmk, hclosed, fun _ _ => rfl⟩
    | cons n todo =>
      have hn : n ∈ all := by rw [hall]; simp
      obtain ⟨hnn, s0, hs0, hr0⟩ := hmem n hn
      have hsu : ∀ m ∈ g.succsOf n, m ∈ g.nodes ∧ m ∉ src := by
        intro m hm
        refine ⟨h.succMem n hnn m hm, fun hx => hfree s0 hs0 m hx ?_⟩
        exact Relation.TransGen.tail' hr0 hm
      obtain ⟨s, he, ⟨t, ht, htm⟩, h1, h2, h3, h4⟩ := explore_fold (src := src) (all := all)
        (h.topological hs).inj (g.succsOf n) hsu marks [] (by simp) (by simpa using hnd)
        (by simpa using hmk)
      simp only [List.nil_append] at ht
      subst ht
      obtain ⟨marks', all', e, r1, r2, r3, r4, r5, r6⟩ := ih s.1 (all ++ s.2) (todo ++ s.2) (done ++ [n])
        (by rw [hall]; simp) h1 (fun x hx => List.mem_append_left _ (hsrc x hx))
        (by
          intro v hv
          rcases List.mem_append.1 hv with hv | hv
          · exact hmem v hv
          · have := htm v hv
            exact ⟨(hsu v this).1, s0, hs0, Relation.ReflTransGen.tail hr0 this⟩)
        h2
        (by
          intro v hv w hw
          rcases List.mem_append.1 hv with hv | hv
          · exact List.mem_append_left _ (hclosed v hv w hw)
          · simp at hv; subst hv; exact h3 w hw)
        (by simp; omega)
      refine ⟨marks', all', ?_, r1, r2, r3, r4, r5, ?_⟩
      · rw [bfs, he]; exact e
      · intro i hi; rw [r6 i hi, h4 i hi]

theorem clearMarks (topo : Nat → Int) (L : List Nat) (m : Int → Bool) (i : Int) :
    (L.foldl (fun m v => fun i => if i = topo v then false else m i) m) i = true ↔
      m i = true ∧ ∀ v ∈ L, topo v ≠ i := by
  induction L generalizing m with
  | nil => simp
  | cons a L ih =>
    simp only [List.foldl_cons, ih]
    by_cases hi : i = topo a
    · subst hi; simp
    · simp [hi, Ne.symm hi]

/-- `descendants` on a sorted well-formed graph. -/
theorem descendants_spec {g : Graph} (h : g.WF) (hs : g.sorted = true) {src : List Nat}
    (hsn : ∀ s ∈ src, s ∈ g.nodes) (hnd : src.Nodup)
    (hfree : ∀ s ∈ src, ∀ t ∈ src, ¬ ReachesPlus g.succsOf s t) :
    ∃ L, g.descendants (fun _ => false) src = .ok (L, fun _ => false) ∧ L.Nodup ∧
      (∀ v, v ∈ L ↔ ∃ s ∈ src, Reaches g.succsOf s v) ∧
      L.Pairwise (fun v w => g.topoOf v < g.topoOf w) ∧ ∀ v ∈ L, v ∈ g.nodes := by
  obtain ⟨marks, all, e, h1, h2, h3, h4, h5, h6⟩ := bfs_spec h hs hfree
    (g.nodes.length + src.length) (fun _ => false)
    src src [] rfl hnd (fun s hs => hs) (fun v hv => ⟨hsn v hv, v, hv, Relation.ReflTransGen.refl⟩)
    (by intro v hv; simp) (by simp) (by simp)
  have hperm := sortBy_perm g.topoOf all
  have e' : bfs (fun v => (g.mem v).succs) (fun v => (g.mem v).topo)
    (g.nodes.length + src.length) (fun _ => false) src src = .ok (marks, all) := e
  refine ⟨sortBy g.topoOf all, ?_, hperm.nodup_iff.2 h1, ?_, ?_, fun v hv => (h3 v (hperm.mem_iff.1 hv)).1⟩
  · unfold descendants
    rw [e', Res.ok_bind]
    simp only [Res.ok.injEq, Prod.mk.injEq]
    refine ⟨rfl, ?_⟩
    funext i
    rw [Bool.eq_false_iff]
    intro hc
    obtain ⟨ha, hb⟩ := (clearMarks g.topoOf all marks i).1 hc
    by_cases hi : ∃ v ∈ g.nodes, g.topoOf v = i
    · obtain ⟨v, hv, rfl⟩ := hi
      exact hb v ((h4 v hv).1 ha).1 rfl
    · have := h6 i (fun v hv he => hi ⟨v, hv, he⟩)
      rw [this] at ha
      simp at ha
  · intro v
    rw [hperm.mem_iff]
    refine ⟨fun hv => (h3 v hv).2, ?_⟩
    rintro ⟨s, hs', hr⟩
    induction hr with
    | refl => exact h2 s hs'
    | tail _ hb ih => exact h5 _ ih _ hb
  · have hp := sortBy_pairwise g.topoOf all
    refine (hp.and (hperm.nodup_iff.2 h1)).imp_of_mem ?_
    intro a b ha hb hab
    have hne : g.topoOf a ≠ g.topoOf b := fun he => hab.2 ((h.topological hs).inj a
      (h3 a (hperm.mem_iff.1 ha)).1 b (h3 b (hperm.mem_iff.1 hb)).1 he)
    have := hab.1
    omega

end Graph

/-- C19.  In any locked model, for any list of different changed decisions and no marks set: the symbols
processed are exactly those that can be reached from the changed decisions (themselves included), each
once, in the order of their indices, so that every symbol comes after all its predecessors that are
processed; and no marks are left behind. -/
theorem C19_descendants {ops : List ModelOp} {m : PyModel} (hr : PyModel.new.run ops = .ok m)
    (hl : 0 < lockDepth ops) {changed : List Nat} (hnd : changed.Nodup)
    (hdec : ∀ d ∈ changed, d ∈ m.g.decisions) :
    ∃ L, m.g.descendants (fun _ => false) changed = .ok (L, fun _ => false) ∧ L.Nodup ∧
      (∀ v, v ∈ L ↔ ∃ d ∈ changed, Reaches (fun v => (m.g.mem v).succs) d v) ∧
      (∀ i j (hi : i < L.length) (hj : j < L.length), L[i] ∈ (m.g.mem L[j]).preds → i < j) := by
  have hi := reachable hr
  have hs := (C18_lock_count hr).2.2 hl
  have w := hi.wf
  obtain ⟨L, e, h1, h2, h3, h4⟩ := descendants_spec w hs (fun s h => w.decMem s (hdec s h)) hnd (by
    intro s _ t ht hr
    have hcase : ∀ u v, ReachesPlus m.g.succsOf u v → u ∈ m.g.nodes → v ∈ m.g.nodes ∧ v ∉ m.g.decisions := by
      intro u v huv hu
      induction huv with
      | single hb => exact w.succ_not_dec hu _ hb
      | tail _ hb ih => exact w.succ_not_dec ih.1 _ hb
    exact (hcase s t hr (w.decMem s (hdec s ‹_›))).2 (hdec t ht))
  refine ⟨L, e, h1, h2, ?_⟩
  intro i j hi hj hp
  have hmi := h4 _ (List.getElem_mem hi)
  have hmj := h4 _ (List.getElem_mem hj)
  have he := (w.topological hs).edge _ hmi _ ((w.mem_link hmi hmj).2 hp)
  rcases Nat.lt_trichotomy i j with hij | hij | hij
  · exact hij
  · subst hij; omega
  · have := (List.pairwise_iff_getElem.1 h3) j i hj hi hij
    omega

/-- C19.  The same for any list of different sources none of which is derived from another. -/
theorem C19_descendants_sources {ops : List ModelOp} {m : PyModel} (hr : PyModel.new.run ops = .ok m)
    (hl : 0 < lockDepth ops) {sources : List Nat} (hnd : sources.Nodup)
    (hmem : ∀ s ∈ sources, s ∈ m.g.nodes)
    (hfree : ∀ s ∈ sources, ∀ t ∈ sources, ¬ ReachesPlus (fun v => (m.g.mem v).succs) s t) :
    ∃ L, m.g.descendants (fun _ => false) sources = .ok (L, fun _ => false) ∧ L.Nodup ∧
      (∀ v, v ∈ L ↔ ∃ d ∈ sources, Reaches (fun v => (m.g.mem v).succs) d v) ∧
      L.Pairwise (fun v w => (m.g.mem v).topo < (m.g.mem w).topo) := by
  obtain ⟨L, e, h1, h2, h3, h4⟩ := descendants_spec (reachable hr).wf ((C18_lock_count hr).2.2 hl)
    hmem hnd hfree
  exact ⟨L, e, h1, h2, h3⟩

/-- C19 fails when the caller gives a source together with a symbol derived from it (or a source
twice): the symbol is processed twice. -/
theorem C19_nested_sources_fails : ∃ ops m sources L, PyModel.new.run ops = .ok m ∧
    0 < lockDepth ops ∧ sources.Nodup ∧ (∀ s ∈ sources, s ∈ m.g.nodes) ∧
    m.g.descendants (fun _ => false) sources = .ok (L, fun _ => false) ∧ ¬ L.Nodup := by
  have h : (match PyModel.new.run [.decision 0, .node 1 [0] true, .lock] with
    | .ok m => decide (0 ∈ m.g.nodes ∧ 1 ∈ m.g.nodes) &&
      (match m.g.descendants (fun _ => false) [0, 1] with
      | .ok (L, _) => decide (L = [0, 1, 1])
      | _ => false)
    | _ => false) = true := by decide +kernel
  revert h
  cases hr : PyModel.new.run [.decision 0, .node 1 [0] true, .lock] with
  | ub => simp
  | throw => simp
  | ok m =>
    simp only [Bool.and_eq_true, decide_eq_true_eq]
    rintro ⟨h1, h2⟩
    have hi := reachable hr
    have hso := (C18_lock_count hr).2.2 (by decide)
    cases hd : m.g.descendants (fun _ => false) [0, 1] with
    | ub => simp [hd] at h2
    | throw => simp [hd] at h2
    | ok r =>
      obtain ⟨L, mk⟩ := r
      simp [hd] at h2
      subst h2
      refine ⟨_, m, [0, 1], [0, 1, 1], hr, by decide, by decide, by simpa using h1, ?_, by decide⟩
      rw [hd]
      simp only [Res.ok.injEq, Prod.mk.injEq, true_and]
      -- the marks are cleared in any case
      simp only [descendants, Res.bind_eq_ok, Res.ok.injEq, Prod.mk.injEq] at hd
      obtain ⟨⟨mk0, all⟩, hb, hL, hm⟩ := hd
      have hall : ∀ v, v ∈ all ↔ v ∈ [0, 1, 1] := by
        intro v
        rw [← hL]
        exact ((sortBy_perm _ _).mem_iff).symm
      have hmk : ∀ i, mk0 i = true → i = (m.g.mem 1).topo := by
        have hk : (match PyModel.new.run [.decision 0, .node 1 [0] true, .lock] with
          | .ok m => decide (m.g.nodes.length = 2 ∧ (m.g.mem 0).succs = [1] ∧ (m.g.mem 1).succs = [])
          | _ => false) = true := by decide +kernel
        rw [hr] at hk
        simp only [decide_eq_true_eq] at hk
        obtain ⟨k1, k2, k3⟩ := hk
        rw [k1] at hb
        simp [bfs, explore, k2, k3] at hb
        obtain ⟨rfl, _⟩ := hb
        intro i hi
        simpa using hi
      funext i
      rw [← hm, Bool.eq_false_iff]
      intro hc
      obtain ⟨ha, hb⟩ := (clearMarks (fun v => (m.g.mem v).topo) all mk0 i).1 hc
      exact hb 1 ((hall 1).2 (by simp)) (hmk i ha).symm

example : (match PyModel.new.run (exampleOps ++ [.lock]) with
    | .ok m => (match m.g.descendants (fun _ => false) [1], m.g.descendants (fun _ => false) [1, 0] with
      | .ok (L, _), .ok (L', _) => decide (L = [1, 3]) && decide (L'.length = 5)
      | _, _ => false)
    | _ => false) = true := by decide +kernel

end Verif
