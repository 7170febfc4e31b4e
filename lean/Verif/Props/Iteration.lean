import Verif.Model.Iteration
import Verif.Props.Escape

/-!
# C77: iterating over a model while it changes
-/

namespace Verif

open PyModel Graph

namespace Collection

/-- The symbols of a collection belong to the model. -/
theorem of_mem {g : Graph} (h : g.WF) {c : Collection} (hc : c.Exists g) : ∀ v ∈ c.of g, v ∈ g.nodes := by
  cases c with
  | symbols => exact fun v hv => hv
  | decisions => exact h.decMem
  | constraints => exact h.conMem
  | predecessors w => exact h.predMem w hc
  | successors w => exact h.succMem w hc

/-- Nothing has changed that a collection shows. -/
theorem of_same {g g' : Graph} (hn : g'.nodes = g.nodes) (hd : g'.decisions = g.decisions) (hc : g'.constraints = g.constraints)
    (hm : ∀ v, (g'.mem v).preds = (g.mem v).preds ∧ (g'.mem v).succs = (g.mem v).succs) (c : Collection) :
    c.of g' = c.of g ∧ (c.Exists g → c.Exists g') := by
  cases c <;> simp [Collection.of, Collection.Exists, hn, hd, hc, hm]

theorem leaves_step {m m' : PyModel} (h : m.Inv) {c : Collection} (hc : c.Exists m.g) {op : ModelOp} (hl : c.Leaves op)
    (hs : m.step op = .ok m') : c.of m'.g = c.of m.g ∧ c.Exists m'.g := by
  cases op with
  | decision a =>
    simp only [step, Res.bind_eq_ok, Res.ok.injEq] at hs
    obtain ⟨g, hg, rfl⟩ := hs
    simp only [emplaceDecision, Res.bind_eq_ok, Res.ok.injEq, guardUB_eq_ok] at hg
    obtain ⟨_, _, _, ha, rfl⟩ := hg
    have hne : ∀ v ∈ m.g.nodes, v ≠ a := fun v hv e => ha (e ▸ hv)
    cases c with
    | symbols => exact absurd hl (by simp [Leaves])
    | decisions => exact absurd hl (by simp [Leaves])
    | constraints => exact ⟨rfl, trivial⟩
    | predecessors v => exact ⟨by simp [Collection.of, upd_ne _ _ (hne v hc)], List.mem_append_left _ hc⟩
    | successors v => exact ⟨by simp [Collection.of, upd_ne _ _ (hne v hc)], List.mem_append_left _ hc⟩
  | node a ps r =>
    simp only [step, Res.bind_eq_ok, Res.ok.injEq] at hs
    obtain ⟨g, hg, rfl⟩ := hs
    simp only [emplaceNode, Res.bind_eq_ok, Res.ok.injEq, guardUB_eq_ok] at hg
    obtain ⟨_, _, _, ha, rfl⟩ := hg
    have hne : ∀ v ∈ m.g.nodes, v ≠ a := fun v hv e => ha.1 (e ▸ hv)
    cases c with
    | symbols => exact absurd hl (by simp [Leaves])
    | decisions => exact ⟨rfl, trivial⟩
    | constraints => exact ⟨rfl, trivial⟩
    | predecessors v =>
      refine ⟨?_, List.mem_append_left _ hc⟩
      simp [Collection.of, linkSuccs_eq, upd_ne _ _ (hne v hc)]
    | successors v =>
      refine ⟨?_, List.mem_append_left _ hc⟩
      have : ps.count v = 0 := List.count_eq_zero.2 hl
      simp [Collection.of, linkSuccs_eq, upd_ne _ _ (hne v hc), this]
  | addOperand n p =>
    simp only [step, Res.bind_eq_ok, Res.ok.injEq] at hs
    obtain ⟨g, hg, rfl⟩ := hs
    simp only [addPredecessor, Res.bind_eq_ok, Res.ok.injEq] at hg
    obtain ⟨_, _, _, _, _, _, rfl⟩ := hg
    cases c with
    | symbols => exact ⟨rfl, trivial⟩
    | decisions => exact ⟨rfl, trivial⟩
    | constraints => exact ⟨rfl, trivial⟩
    | predecessors v =>
      have hv : v ≠ n := fun e => hl e.symm
      refine ⟨?_, hc⟩
      by_cases hp : v = p
      · subst hp
        simp [Collection.of, upd_ne _ _ hv]
      · simp [Collection.of, upd_ne _ _ hv, upd_ne _ _ hp]
    | successors v =>
      have hv : v ≠ p := fun e => hl e.symm
      refine ⟨?_, hc⟩
      by_cases hn : v = n
      · subst hn
        simp [Collection.of, upd_ne _ _ hv]
      · simp [Collection.of, upd_ne _ _ hv, upd_ne _ _ hn]
  | minimize o =>
    simp only [step, Res.bind_eq_ok, Res.ok.injEq] at hs
    obtain ⟨g, hg, rfl⟩ := hs
    simp only [setObjective, Res.bind_eq_ok, Res.ok.injEq] at hg
    obtain ⟨_, _, _, _, rfl⟩ := hg
    have := of_same (g' := { m.g with objective := some o }) rfl rfl rfl (fun _ => ⟨rfl, rfl⟩) c
    exact ⟨this.1, this.2 hc⟩
  | addConstraint d =>
    simp only [step, Res.bind_eq_ok, Res.ok.injEq] at hs
    obtain ⟨g, hg, rfl⟩ := hs
    simp only [Graph.addConstraint, Res.bind_eq_ok, Res.ok.injEq] at hg
    obtain ⟨_, _, _, _, _, _, rfl⟩ := hg
    cases c with
    | constraints => exact absurd hl (by simp [Leaves])
    | _ => exact ⟨rfl, hc⟩
  | reference v b =>
    simp only [step, Res.ok.injEq] at hs
    subst hs
    have := of_same (g := m.g) (g' := { m.g with mem := upd m.g.mem v { m.g.mem v with listened := b } }) rfl rfl rfl (fun w => by
      by_cases hw : w = v
      · subst hw; simp
      · simp [upd_ne _ _ hw]) c
    exact ⟨this.1, this.2 hc⟩
  | lock =>
    simp only [step, Res.bind_eq_ok, Res.ok.injEq] at hs
    obtain ⟨g, hg, rfl⟩ := hs
    by_cases hf : m.g.sorted = false
    · rcases h.wf.sort_spec hf with ⟨g', e, _, _, hperm, hsame, hd, _, hcs, _⟩ | ⟨e, _⟩
      · rw [hg] at e; cases e
        cases c with
        | symbols => exact absurd hl (by simp [Leaves])
        | decisions => exact ⟨hd, trivial⟩
        | constraints => exact ⟨hcs, trivial⟩
        | predecessors v => exact ⟨(hsame v).1, hperm.mem_iff.2 hc⟩
        | successors v => exact ⟨(hsame v).2.1, hperm.mem_iff.2 hc⟩
      · rw [hg] at e; cases e
    · have hf : m.g.sorted = true := by simpa using hf
      simp only [topologicalSort, hf, if_true, Res.ok.injEq] at hg
      subst hg
      exact ⟨rfl, hc⟩
  | unlock =>
    obtain ⟨_, _, hp, hn, hd, _, hcs⟩ := reset_spec h.wf
    have := of_same hn hd hcs hp c
    simp only [step] at hs
    split_ifs at hs <;> (cases hs; first | exact ⟨rfl, hc⟩ | exact ⟨this.1, this.2 hc⟩)
  | removeUnused =>
    have key : m'.g.decisions = m.g.decisions ∧ m'.g.constraints = m.g.constraints := by
      simp only [step, Res.bind_eq_ok, Res.ok.injEq] at hs
      obtain ⟨_, _, r, hr, rfl⟩ := hs
      unfold Graph.removeUnused at hr
      simp only [Res.bind_eq_ok, Res.ok.injEq] at hr
      obtain ⟨g1, hg1, rfl⟩ := hr
      have h1 : g1.decisions = m.g.decisions ∧ g1.constraints = m.g.constraints := by
        unfold topologicalSort at hg1
        split_ifs at hg1
        · cases hg1; exact ⟨rfl, rfl⟩
        · simp only [Res.bind_eq_ok, Res.ok.injEq] at hg1
          obtain ⟨_, _, rfl⟩ := hg1
          exact ⟨rfl, rfl⟩
      unfold resetTopologicalSort
      simp only
      split_ifs
      · exact h1
      · exact h1
    cases c with
    | decisions => exact ⟨key.1, trivial⟩
    | constraints => exact ⟨key.2, trivial⟩
    | _ => exact absurd hl (by simp [Leaves])

end Collection

theorem PyModel.attemptsPython_append : ∀ {a b : List ModelOp} {m m' : PyModel} {bs : List Bool},
    m.attemptsPython (a ++ b) = .ok (m', bs) →
    ∃ m1 b1 b2, m.attemptsPython a = .ok (m1, b1) ∧ m1.attemptsPython b = .ok (m', b2) := by
  intro a
  induction a with
  | nil => exact fun {b m m' bs} h => ⟨m, [], bs, rfl, h⟩
  | cons o a ih =>
    intro b m m' bs h
    simp only [List.cons_append, attemptsPython, Res.bind_eq_ok] at h
    obtain ⟨r, h1, ⟨m2, bs2⟩, h2, h3⟩ := h
    rw [Res.ok.injEq, Prod.mk.injEq] at h3
    obtain ⟨rfl, _⟩ := h3
    obtain ⟨m1, b1, b2, e1, e2⟩ := ih h2
    exact ⟨m1, r.2 :: b1, b2, by rw [attemptsPython, h1, Res.ok_bind, e1]; rfl, e2⟩

namespace Watched

/-- Every vector has room for its elements. -/
def Fits (W : Watched) : Prop := ∀ c : Collection, (c.of W.m.g).length ≤ (W.buffer c).capacity

theorem op_fits {grow : Nat → Nat → Nat} (hg : ∀ c n, n ≤ grow c n) {W W' : Watched} {o : ModelOp} (h : W.op grow o = .ok W') :
    W'.Fits := by
  simp only [op, Res.bind_eq_ok, Res.ok.injEq] at h
  obtain ⟨r, _, rfl⟩ := h
  intro c
  simp only [Buffer.after]
  split_ifs with hc
  · exact hc
  · exact hg _ _

theorem ops_spec {grow : Nat → Nat → Nat} (hg : ∀ c n, n ≤ grow c n) : ∀ (os : List ModelOp) {W W' : Watched}, W.Fits →
    W.ops grow os = .ok W' → W'.Fits ∧ ∃ bs, W.m.attemptsPython os = .ok (W'.m, bs) := by
  intro os
  induction os with
  | nil =>
    intro W W' hf h
    simp only [ops, List.foldlM_nil] at h
    obtain rfl := Res.ok.inj h
    exact ⟨hf, [], rfl⟩
  | cons o os ih =>
    intro W W' hf h
    simp only [ops, List.foldlM_cons, Res.bind_eq_ok] at h
    obtain ⟨W1, h1, h2⟩ := h
    obtain ⟨hf2, bs, hb⟩ := ih (op_fits hg h1) h2
    simp only [op, Res.bind_eq_ok, Res.ok.injEq] at h1
    obtain ⟨r, hr, rfl⟩ := h1
    exact ⟨hf2, r.2 :: bs, by rw [attemptsPython, hr, Res.ok_bind, hb]; rfl⟩

theorem new_fits : Watched.new.Fits := by
  intro c
  cases c <;> simp [Watched.new, Collection.of, PyModel.new, Graph.empty]

/-- What holds of the model, is kept by the allowed operations, and keeps the collection. -/
structure Keeps (c : Collection) (J : PyModel → Prop) (allowed : ModelOp → Prop) : Prop where
  step : ∀ {m m' : PyModel} {o : ModelOp} {b : Bool}, J m → allowed o → m.attemptPython o = .ok (m', b) →
    J m' ∧ c.of m'.g = c.of m.g
  inside : ∀ {m : PyModel}, J m → c.Exists m.g ∧ ∀ v ∈ c.of m.g, v ∈ m.g.nodes

theorem Keeps.ops {c : Collection} {J : PyModel → Prop} {allowed : ModelOp → Prop} (k : Keeps c J allowed) {grow : Nat → Nat → Nat}
    (hg : ∀ c n, n ≤ grow c n) : ∀ (os : List ModelOp) {W : Watched} {m' : PyModel} {bs : List Bool}, W.Fits → J W.m →
    (∀ o ∈ os, allowed o) → W.m.attemptsPython os = .ok (m', bs) →
    ∃ W', W.ops grow os = .ok W' ∧ W'.m = m' ∧ W'.Fits ∧ J m' ∧ c.of m'.g = c.of W.m.g ∧
      (W'.buffer c).block = (W.buffer c).block := by
  intro os
  induction os with
  | nil =>
    intro W m' bs hf hJ _ h
    rw [attemptsPython, Res.ok.injEq, Prod.mk.injEq] at h
    obtain ⟨rfl, _⟩ := h
    exact ⟨W, rfl, rfl, hf, hJ, rfl, rfl⟩
  | cons o os ih =>
    intro W m' bs hf hJ ha h
    simp only [attemptsPython, Res.bind_eq_ok] at h
    obtain ⟨⟨m1, b⟩, h1, ⟨m2, bs2⟩, h2, h3⟩ := h
    rw [Res.ok.injEq, Prod.mk.injEq] at h3
    obtain ⟨rfl, _⟩ := h3
    obtain ⟨hJ1, hc1⟩ := k.step hJ (ha o (by simp)) h1
    have hop : W.op grow o = .ok ⟨m1, fun c => (W.buffer c).after grow (W.now + 1) (c.of m1.g).length, W.now + 1⟩ := by
      simp [op, h1]
    obtain ⟨W', e, rfl, hf', hJ', hc', hb'⟩ := ih (W := ⟨m1, fun c => (W.buffer c).after grow (W.now + 1) (c.of m1.g).length, W.now + 1⟩)
      (op_fits hg hop) hJ1 (fun o ho => ha o (List.mem_cons_of_mem _ ho)) h2
    refine ⟨W', ?_, rfl, hf', hJ', hc'.trans hc1, ?_⟩
    · rw [Watched.ops, List.foldlM_cons, hop, Res.ok_bind]
      exact e
    · rw [hb']
      simp only [Buffer.after]
      rw [if_pos (by rw [hc1]; exact hf c)]

theorem Keeps.loop {c : Collection} {J : PyModel → Prop} {allowed : ModelOp → Prop} (k : Keeps c J allowed) {grow : Nat → Nat → Nat}
    (hg : ∀ c n, n ≤ grow c n) {body : Nat → Nat → List ModelOp} (hb : ∀ i v, ∀ o ∈ body i v, allowed o) {L : List Nat} {it : PyIterator}
    (hit : it.collection = c) : ∀ (n i : Nat) {W : Watched} {m' : PyModel} {bs : List Bool}, n + i = L.length → W.Fits → J W.m →
    c.of W.m.g = L → (W.buffer c).block = it.block →
    W.m.attemptsPython (((L.drop i).zipIdx i).flatMap fun e => body e.2 e.1) = .ok (m', bs) →
    ∃ W', loop grow body it n i W = .ok (W', L.drop i) ∧ W'.m = m' := by
  intro n
  induction n with
  | zero =>
    intro i W m' bs hn _ _ _ _ h
    have hd : L.drop i = [] := List.drop_eq_nil_of_le (by omega)
    rw [hd] at h ⊢
    rw [List.zipIdx_nil, List.flatMap_nil, attemptsPython, Res.ok.injEq, Prod.mk.injEq] at h
    exact ⟨W, rfl, h.1⟩
  | succ n ih =>
    intro i W m' bs hn hf hJ hL hbl h
    have hi : i < L.length := by omega
    rw [List.drop_eq_getElem_cons hi, List.zipIdx_cons, List.flatMap_cons] at h
    obtain ⟨hex, hmem⟩ := k.inside hJ
    have hde : W.deref it i = .ok L[i] := by
      unfold deref
      rw [hit, guardUB_true hex, Res.ok_bind, guardUB_true hbl, Res.ok_bind, hL, List.getElem?_eq_getElem hi]
      simp only
      rw [guardUB_true (hmem _ (hL ▸ List.getElem_mem hi))]
      rfl
    obtain ⟨m1, b1, b2, h1, h2⟩ := attemptsPython_append h
    obtain ⟨W1, e1, rfl, hf1, hJ1, hc1, hb1⟩ := k.ops hg _ hf hJ (hb _ _) h1
    obtain ⟨W2, e2, e3⟩ := ih (i + 1) (by omega) hf1 hJ1 (hc1.trans hL) (hb1.trans hbl) h2
    refine ⟨W2, ?_, e3⟩
    rw [List.drop_eq_getElem_cons hi]
    simp only [Watched.loop, hde, Res.ok_bind, e1, e2]

theorem reach {grow : Nat → Nat → Nat} (hg : ∀ c n, n ≤ grow c n) {ops : List ModelOp} {W : Watched}
    (h : Watched.new.ops grow ops = .ok W) : W.Fits ∧ PyModel.new.run ops = .ok W.m := by
  obtain ⟨hf, bs, hb⟩ := ops_spec hg ops new_fits h
  exact ⟨hf, (attemptsPython_ok ops inv_new hb).2⟩

end Watched

open Watched

/-- C77.  A loop over the symbols, decisions or constraints of a model, or over the predecessors or successors of a symbol, whose body does
not do anything to this collection: it goes through exactly the symbols that were in the collection at its start, in their order, each
as often as it is there, and the body acts as it would without the loop.  `grow` is any way to choose the capacities of vectors.
Missing: bodies that do something to the collection (C77_new_symbols_fails, C77_successors_fails, C77_removed_fails, C77_lock_fails). -/
theorem C77_undisturbed_partial {grow : Nat → Nat → Nat} (hg : ∀ c n, n ≤ grow c n) {ops : List ModelOp} {W : Watched}
    (h : Watched.new.ops grow ops = .ok W) {c : Collection} (hc : c.Exists W.m.g) {body : Nat → Nat → List ModelOp}
    (hb : ∀ i v, ∀ o ∈ body i v, c.Leaves o) {m' : PyModel} {bs : List Bool}
    (hrun : W.m.attemptsPython ((c.of W.m.g).zipIdx.flatMap fun e => body e.2 e.1) = .ok (m', bs)) :
    ∃ W', W.forEach grow c body = .ok (W', c.of W.m.g) ∧ W'.m = m' := by
  obtain ⟨hf, hr⟩ := reach hg h
  have k : Keeps c (fun m => m.Inv ∧ c.Exists m.g) c.Leaves := by
    constructor
    · rintro m m1 o b ⟨hi, he⟩ hl ha
      obtain ⟨_, hp, hm⟩ := attemptPython_ok hi ha
      have hi1 := (perform_inv hi hp).1
      cases b with
      | true =>
        obtain rfl := hm rfl
        exact ⟨⟨hi, he⟩, rfl⟩
      | false =>
        have hs : m.step o = .ok m1 := by
          have := (attemptPython_ok hi ha).1
          unfold attempt at this
          cases hs : m.step o with
          | ok m2 =>
            rw [hs] at this
            simp only [Res.ok.injEq, Prod.mk.injEq, and_true] at this
            rw [this]
          | throw =>
            rw [hs] at this
            simp only at this
            split_ifs at this
            · simp only [Res.bind_eq_ok, Res.ok.injEq, Prod.mk.injEq] at this
              obtain ⟨_, _, _, h⟩ := this
              cases h
            · simp at this
          | ub => rw [hs] at this; cases this
        obtain ⟨e1, e2⟩ := c.leaves_step hi he hl hs
        exact ⟨⟨hi1, e2⟩, e1⟩
    · exact fun ⟨hi, he⟩ => ⟨he, c.of_mem hi.wf he⟩
  have := k.loop hg hb (L := c.of W.m.g) (it := W.start c) rfl (c.of W.m.g).length 0 (by simp) hf ⟨reachable hr, hc⟩ rfl rfl
    (m' := m') (bs := bs) (by simpa using hrun)
  simpa [forEach, Watched.start] using this

/-- C77.  In a locked model, if the body does not call `unlock()`, such a loop goes through exactly the symbols of the collection,
whatever the body does.  Not for constraints, which can be added to a locked model. -/
theorem C77_locked {grow : Nat → Nat → Nat} (hg : ∀ c n, n ≤ grow c n) {ops : List ModelOp} {W : Watched}
    (h : Watched.new.ops grow ops = .ok W) (hl : W.m.isLocked = true) {c : Collection} (hc : c.Exists W.m.g) (hcon : c ≠ .constraints)
    {body : Nat → Nat → List ModelOp} (hb : ∀ i v, ModelOp.unlock ∉ body i v) {m' : PyModel} {bs : List Bool}
    (hrun : W.m.attemptsPython ((c.of W.m.g).zipIdx.flatMap fun e => body e.2 e.1) = .ok (m', bs)) :
    ∃ W', W.forEach grow c body = .ok (W', c.of W.m.g) ∧ W'.m = m' := by
  obtain ⟨hf, hr⟩ := reach hg h
  have k : Keeps c (fun m => (∃ ops, PyModel.new.run ops = .ok m) ∧ m.isLocked = true ∧ c.Exists m.g) (fun o => o ≠ .unlock) := by
    constructor
    · rintro m m1 o b ⟨⟨os, ho⟩, hlk, he⟩ hne ha
      have hi := reachable ho
      obtain ⟨_, hp, _⟩ := attemptPython_ok hi ha
      obtain ⟨hn, hd, hm⟩ := C18_locked_same ho ((C18_lock_count ho).1.1 hlk) hp
      have hcnt := (perform_inv hi hp).2.2
      have hlk1 : m1.isLocked = true := by
        simp only [isLocked, decide_eq_true_eq] at hlk ⊢
        rw [hcnt]
        cases o <;> simp only [lockEffect] <;> first | exact hlk | omega | exact absurd rfl hne
      refine ⟨⟨⟨os ++ [o], by rw [run_append, ho, Res.ok_bind]; simp [run, hp]⟩, hlk1, ?_⟩, ?_⟩
      · cases c <;> simp_all [Collection.Exists]
      · cases c <;> simp_all [Collection.of]
    · exact fun ⟨⟨_, ho⟩, _, he⟩ => ⟨he, c.of_mem (reachable ho).wf he⟩
  have := k.loop hg (fun i v o ho e => hb i v (e ▸ ho)) (L := c.of W.m.g) (it := W.start c) rfl (c.of W.m.g).length 0 (by simp) hf
    ⟨⟨ops, hr⟩, hl, hc⟩ rfl rfl (m' := m') (bs := bs) (by simpa using hrun)
  simpa [forEach, Watched.start] using this

theorem forEach_ub {W : Res Watched} {c : Collection} {body : Nat → Nat → List ModelOp} {p : Watched → Bool}
    (h : (match W with
      | .ok W => p W && (match W.forEach doubling c body with | .ub => true | _ => false)
      | _ => false) = true) : ∃ V, W = .ok V ∧ p V = true ∧ V.forEach doubling c body = .ub := by
  cases W with
  | ok V =>
    simp only [Bool.and_eq_true] at h
    refine ⟨V, rfl, h.1, ?_⟩
    revert h
    cases V.forEach doubling c body <;> simp
  | throw => simp at h
  | ub => simp at h

/-- C77 fails for new symbols: with `x` and `y` in the model, `for s in model.iter_symbols(): -s` reads memory that has been given back,
although the same operations without the loop do no harm.  (Python refuses this for dictionaries and sets, and allows it for lists.) -/
theorem C77_new_symbols_fails : ∃ ops W body, Watched.new.ops doubling ops = .ok W ∧
    (∃ r, W.m.attemptsPython ((Collection.symbols.of W.m.g).zipIdx.flatMap fun e => body e.2 e.1) = .ok r) ∧
    W.forEach doubling .symbols body = .ub := by
  obtain ⟨W, h1, h2, h3⟩ := forEach_ub (W := Watched.new.ops doubling [.decision 0, .decision 1]) (c := .symbols)
    (body := fun _ v => [.node (v + 2) [v] true])
    (p := fun W => match W.m.attemptsPython ((Collection.symbols.of W.m.g).zipIdx.flatMap fun e => [.node (e.1 + 2) [e.1] true]) with
      | .ok _ => true | _ => false) (by decide +kernel)
  refine ⟨_, W, _, h1, ?_, h3⟩
  revert h2
  cases W.m.attemptsPython ((Collection.symbols.of W.m.g).zipIdx.flatMap fun e => [.node (e.1 + 2) [e.1] true]) with
  | ok r => exact fun _ => ⟨r, rfl⟩
  | throw => simp
  | ub => simp

/-- C77 fails for successors: `for s in x.iter_successors(): x + s` reads memory that has been given back. -/
theorem C77_successors_fails : ∃ ops W body, Watched.new.ops doubling ops = .ok W ∧
    (∃ r, W.m.attemptsPython (((Collection.successors 0).of W.m.g).zipIdx.flatMap fun e => body e.2 e.1) = .ok r) ∧
    (Collection.successors 0).Exists W.m.g ∧ W.forEach doubling (.successors 0) body = .ub := by
  obtain ⟨W, h1, h2, h3⟩ := forEach_ub (W := Watched.new.ops doubling [.decision 0, .node 1 [0] true, .node 2 [0] true])
    (c := .successors 0) (body := fun _ v => [.node (v + 2) [0, v] true])
    (p := fun W => decide ((Collection.successors 0).Exists W.m.g) &&
      match W.m.attemptsPython (((Collection.successors 0).of W.m.g).zipIdx.flatMap fun e => [.node (e.1 + 2) [0, e.1] true]) with
      | .ok _ => true | _ => false) (by decide +kernel)
  simp only [Bool.and_eq_true, decide_eq_true_eq] at h2
  refine ⟨_, W, _, h1, ?_, h2.1, h3⟩
  have h2 := h2.2
  revert h2
  cases W.m.attemptsPython (((Collection.successors 0).of W.m.g).zipIdx.flatMap fun e => [.node (e.1 + 2) [0, e.1] true]) with
  | ok r => exact fun _ => ⟨r, rfl⟩
  | throw => simp
  | ub => simp

/-- C77 fails for removal: `for s in model.iter_symbols(): model.remove_unused_symbols()` reads an element that is no longer there. -/
theorem C77_removed_fails : ∃ ops W, Watched.new.ops doubling ops = .ok W ∧
    W.forEach doubling .symbols (fun _ _ => [.removeUnused]) = .ub := by
  obtain ⟨W, h1, _, h3⟩ := forEach_ub (W := Watched.new.ops doubling [.decision 0, .node 1 [0] true, .node 2 [1] true])
    (c := .symbols) (body := fun _ _ => [.removeUnused]) (p := fun _ => true) (by decide +kernel)
  exact ⟨_, W, h1, h3⟩

/-- C77 fails for `lock()`: with `x`, `-x` and a later decision `y` in the model, locking it in the body for the second symbol sorts the
symbols, and the loop goes through `-x` twice and never through `y`. -/
theorem C77_lock_fails : ∃ ops W body W' L, Watched.new.ops doubling ops = .ok W ∧
    W.forEach doubling .symbols body = .ok (W', L) ∧ W'.m.g.nodes.Perm W.m.g.nodes ∧ ¬ L.Nodup ∧ ∃ v ∈ W.m.g.nodes, v ∉ L := by
  have h : (match Watched.new.ops doubling [.decision 0, .node 1 [0] true, .decision 2] with
    | .ok W => (match W.forEach doubling .symbols (fun i _ => if i = 1 then [.lock] else []) with
      | .ok r => decide (W.m.g.nodes = [0, 1, 2] ∧ r.1.m.g.nodes = [0, 2, 1] ∧ r.2 = [0, 1, 1])
      | _ => false)
    | _ => false) = true := by decide +kernel
  revert h
  cases hW : Watched.new.ops doubling [.decision 0, .node 1 [0] true, .decision 2] with
  | ok W =>
    simp only
    cases hr : W.forEach doubling .symbols (fun i _ => if i = 1 then [.lock] else []) with
    | ok r =>
      intro h
      obtain ⟨e1, e2, e3⟩ := of_decide_eq_true h
      refine ⟨_, W, _, r.1, r.2, hW, hr, ?_, ?_, 2, ?_, ?_⟩
      · rw [e1, e2]; decide
      · rw [e3]; decide
      · rw [e1]; decide
      · rw [e3]; decide
    | throw => simp
    | ub => simp
  | throw => simp
  | ub => simp

/-- Loops that are covered: new constraints while iterating over the decisions, and new symbols while iterating over the constraints. -/
example : (match Watched.new.ops doubling [.decision 0, .decision 1, .node 2 [0, 1] true, .addConstraint 2, .addConstraint 1] with
    | .ok W => (match W.forEach doubling .decisions (fun i v => [.node (i + 3) [v] true, .addConstraint (i + 3), .lock, .unlock]),
        W.forEach doubling .constraints (fun i v => [.node (i + 3) [v] true, .removeUnused]) with
      | .ok r, .ok q => decide (r.2 = [0, 1] ∧ r.1.m.g.constraints = [2, 1, 3, 4] ∧ q.2 = [2, 1])
      | _, _ => false)
    | _ => false) = true := by decide +kernel

/-- A locked model: everything is refused, and the loop goes through all symbols. -/
example : (match Watched.new.ops doubling [.decision 0, .node 1 [0] true, .decision 2, .lock] with
    | .ok W => (match W.forEach doubling .symbols (fun i v => [.node (i + 3) [v] true, .removeUnused, .lock]) with
      | .ok r => decide (W.m.isLocked = true ∧ r.2 = [0, 2, 1])
      | _ => false)
    | _ => false) = true := by decide +kernel

end Verif
