import Verif.Model.DefaultMove
import Verif.Lemmas.CatalogDecisions

set_option linter.unusedSectionVars false
set_option linter.unusedSimpArgs false
set_option linter.unusedVariables false

/-!
# C46: random moves stay within the solution space
-/

namespace Verif

theorem pick_lt {n : Nat} (h : 0 < n) (r : Nat) : pick n r < n := by
  unfold pick
  rw [if_neg (by omega)]
  exact Nat.mod_lt _ h

/-- If the default move can be made in all valid states, every history stays in valid states. -/
theorem DecisionLaw.solve {N : NodeSem Val Dif} {step : N.σ → Move → Res N.σ} (L : DecisionLaw N step)
    {plan : N.σ → Rng → Res (List Move)}
    (total : ∀ {s x y} (r : Rng), L.Rel s x y → N.ok [y] →
      ∃ ms s', plan s r = .ok ms ∧ ms.foldlM step s = .ok s') (ops : List SolverOp) :
    ∀ {s : N.σ} {x y : Val}, L.Rel s x y → N.ok [x] → N.ok [y] →
      ∃ s', Verif.solve step plan s ops = .ok s' ∧ N.ok [N.view s'] := by
  induction ops with
  | nil =>
    intro s x y h hx hy
    exact ⟨s, rfl, by rw [L.view h]; exact hy⟩
  | cons op ops ih =>
    intro s x y h hx hy
    cases op with
    | random r =>
      obtain ⟨ms, s1, e1, e2⟩ := total r h hy
      obtain ⟨z, hz, hr⟩ := L.moves ms h hy e2
      obtain ⟨s2, e3, h3⟩ := ih hr hx hz
      exact ⟨s2, by simp [Verif.solve, e1, e2, e3], h3⟩
    | commit =>
      obtain ⟨c, e1, hr, _⟩ := L.commit h
      obtain ⟨s2, e3, h3⟩ := ih hr hy hy
      exact ⟨s2, by simp [Verif.solve, e1, e3], h3⟩
    | revert =>
      obtain ⟨c, e1, hr, _⟩ := L.revert h
      obtain ⟨s2, e3, h3⟩ := ih hr hx hx
      exact ⟨s2, by simp [Verif.solve, e1, e3], h3⟩

/-- Histories from an initial value. -/
theorem DecisionLaw.solve_init {N : NodeSem Val Dif} {step : N.σ → Move → Res N.σ} (L : DecisionLaw N step)
    {plan : N.σ → Rng → Res (List Move)}
    (total : ∀ {s x y} (r : Rng), L.Rel s x y → N.ok [y] →
      ∃ ms s', plan s r = .ok ms ∧ ms.foldlM step s = .ok s') {x : Val} (hx : N.ok [x]) (ops : List SolverOp) :
    ∃ s0 s, N.init [x] = .ok s0 ∧ Verif.solve step plan s0 ops = .ok s ∧ N.ok [N.view s] := by
  obtain ⟨s0, e0, h0, _⟩ := L.init hx
  obtain ⟨s, e, h⟩ := L.solve total ops h0 hx hx
  exact ⟨s0, s, e0, e, h⟩

/-! ## Numbers -/

/-- C46 for integers with a non-negative lower bound: from every valid value, all histories of default moves (for all
outcomes of the random generator), commits and reverts run without undefined behaviour, and all elements stay integers
within the bounds.  Missing: negative lower bounds and empty arrays, for which it is false
(`C46_integer_negative_fails`, `C46_integer_empty_fails`). -/
theorem C46_integer_partial (shape : List Int) {n : Nat} {lo? hi? : Option Int} {c : NumNode}
    (hc : NumNode.make n lo? hi? = .ok c) (hn : 0 < n) (hlo : 0 ≤ c.lo) {values : List Rat}
    (hl : values.length = c.size) (hv : ∀ v ∈ values, InBounds c.lo c.hi v) (ops : List SolverOp) :
    ∃ s0 s, c.init values = .ok s0 ∧
      solve (N := numberNode shape c) (fun s m => m.integer c s) c.defaultMove s0 ops = .ok s ∧
      s.buffer.length = c.size ∧ ∀ v ∈ s.buffer, InBounds c.lo c.hi v := by
  have hc2 : c.lo ≤ c.hi ∧ c.size = n := by
    simp only [NumNode.make] at hc
    obtain ⟨_, h1, h2⟩ := Res.bind_eq_ok.1 hc
    obtain ⟨_, h3, h4⟩ := Res.bind_eq_ok.1 h2
    have h1 := guardThrow_eq_ok.1 h1
    simp only [Res.pure_eq, Res.ok.injEq] at h4
    subst h4
    exact ⟨by simp only; omega, rfl⟩
  obtain ⟨s0, s, e0, e, data, h1, h2, h3⟩ := (integerLaw shape c).solve_init (plan := c.defaultMove) (by
    rintro s x y r ⟨com, cur, rfl, rfl, h⟩ ⟨data, hd, h2, h3⟩
    obtain rfl : cur = data := by simpa using hd
    have hb : s.buffer = cur := h.rep.buf
    have hi : pick s.buffer.length (r.int 0) < cur.length := by
      rw [hb]; exact pick_lt (by omega) _
    have hval : c.isValid ((c.lo + (r.int 1 : Int) % (c.hi - c.lo + 1) : Int) : Rat) = true := by
      have h1 := Int.emod_nonneg (r.int 1 : Int) (show c.hi - c.lo + 1 ≠ 0 by omega)
      have h2 := Int.emod_lt_of_pos (r.int 1 : Int) (show 0 < c.hi - c.lo + 1 by omega)
      exact isValid_iff.2 ⟨_, rfl, by omega, by omega⟩
    obtain ⟨s', e, _⟩ := h.set hi ((c.lo + (r.int 1 : Int) % (c.hi - c.lo + 1) : Int) : Rat)
    refine ⟨_, s', by
      unfold NumNode.defaultMove
      rw [(guardUB_eq_ok.2 hlo : guardUB _ = .ok ())]
      rfl, ?_⟩
    simp only [List.foldlM_cons, List.foldlM_nil, Move.integer, NumNode.run1, NumNode.caught, NumNode.setValue, hval,
      not_true, if_false, e]
    rfl) (x := [⟨shape, values⟩]) ⟨values, rfl, hl, hv⟩ ops
  simp only [List.cons.injEq, Arr.mk.injEq, true_and, and_true] at h1
  subst h1
  exact ⟨s0, s, e0, e, h2, h3⟩

/-- C46 for binary variables: as for integers, except for empty arrays. -/
theorem C46_binary_partial (shape : List Int) (n : Nat) (hn : 0 < n) {values : List Rat}
    (hl : values.length = n) (hv : ∀ v ∈ values, v = 0 ∨ v = 1) (ops : List SolverOp) :
    ∃ s0 s, (⟨n, 0, 1⟩ : NumNode).init values = .ok s0 ∧
      solve (N := numberNode shape ⟨n, 0, 1⟩) (fun s m => m.binary ⟨n, 0, 1⟩ s) NumNode.defaultFlip s0 ops = .ok s ∧
      s.buffer.length = n ∧ ∀ v ∈ s.buffer, v = 0 ∨ v = 1 := by
  obtain ⟨s0, s, e0, e, data, h1, h2, h3⟩ := (binaryLaw shape n).solve_init (plan := NumNode.defaultFlip) (by
    rintro s x y r ⟨com, cur, rfl, rfl, h⟩ ⟨data, hd, h2, h3⟩
    obtain rfl : cur = data := by simpa using hd
    have hb : s.buffer = cur := h.rep.buf
    have hi : pick s.buffer.length (r.int 0) < cur.length := by
      rw [hb]; exact pick_lt (by simp only at h2; omega) _
    have hg : s.get (pick s.buffer.length (r.int 0)) = .ok cur[pick s.buffer.length (r.int 0)] := by
      unfold ArrayState.get
      simp only [hb] at hi ⊢
      rw [List.getElem?_eq_getElem hi]
    by_cases h0 : cur[pick s.buffer.length (r.int 0)] ≠ 0
    · obtain ⟨s', e, _⟩ := h.set hi 0
      refine ⟨_, s', rfl, ?_⟩
      simp only [List.foldlM_cons, List.foldlM_nil, Move.binary, NumNode.runBin1, hg, Res.ok_bind, if_pos h0, e]
      rfl
    · obtain ⟨s', e, _⟩ := h.set hi 1
      refine ⟨_, s', rfl, ?_⟩
      simp only [List.foldlM_cons, List.foldlM_nil, Move.binary, NumNode.runBin1, hg, Res.ok_bind, if_neg h0, e]
      rfl) (x := [⟨shape, values⟩]) ⟨values, rfl, hl, fun v h => by
        rcases hv v h with rfl | rfl
        · exact ⟨0, by simp, by simp, by simp⟩
        · exact ⟨1, by simp, by simp, by simp⟩⟩ ops
  simp only [List.cons.injEq, Arr.mk.injEq, true_and, and_true] at h1
  subst h1
  refine ⟨s0, s, e0, e, h2, fun v h => ?_⟩
  obtain ⟨k, rfl, h4, h5⟩ := h3 v h
  simp only at h4 h5
  obtain rfl | rfl : k = 0 ∨ k = 1 := by omega
  · left; simp
  · right; simp

/-! ## Lists and sets -/

theorem coll_exchange_total {c : CollNode} {s : CollState Rat} {i j : Nat} (hi : i < s.elements.length)
    (hj : j < s.elements.length) : ∃ s', c.run1 s (.exchange i j) = .ok s' ∧ s'.size = s.size ∧
      s'.elements.length = s.elements.length := by
  simp only [CollNode.run1]
  by_cases h : i = j
  · exact ⟨s, by rw [if_pos h], rfl, rfl⟩
  · rw [if_neg h]
    unfold CollState.exchange
    rw [List.getElem?_eq_getElem hi, List.getElem?_eq_getElem hj]
    exact ⟨_, rfl, rfl, by simp⟩

/-- C46 for lists with a positive minimum size: from every valid list, all histories of default moves, commits and
reverts keep it a list of distinct numbers below `n`, of an admissible length.  Missing: lists that can be empty, for
which it is false (`C46_list_empty_fails`). -/
theorem C46_list_partial {n lo hi : Int} {c : CollNode} (hc : CollNode.make n lo hi = .ok c) (hlo : 0 < c.minSize)
    {values : List Rat} (hv : ValidCollection c.maxValue c.minSize c.maxSize values) (ops : List SolverOp) :
    ∃ s0 s, c.initExplicit values = .ok s0 ∧
      solve (N := collectionNode c) (fun s m => m.collection c s) CollNode.defaultList s0 ops = .ok s ∧
      ValidCollection c.maxValue c.minSize c.maxSize (s.elements.take s.size) := by
  obtain ⟨s0, s, e0, e, data, h1, h2, h3, h4, h5⟩ := (collectionLaw hc).solve_init (plan := CollNode.defaultList) (by
    rintro s x y r ⟨com, cur, rfl, rfl, h, _, _, hok, _⟩ _
    have hlt : 0 < s.size := by rw [h.size]; exact lt_of_lt_of_le hlo hok.ge
    have hle : s.size ≤ s.elements.length := by rw [h.size, h.elems]; exact h.curle
    obtain ⟨s', e, _⟩ := coll_exchange_total (c := c) (lt_of_lt_of_le (pick_lt hlt (r.int 0)) hle)
      (lt_of_lt_of_le (pick_lt hlt (r.int 1)) hle)
    refine ⟨_, s', rfl, ?_⟩
    simp only [List.foldlM_cons, List.foldlM_nil, Move.collection, e]
    rfl) (x := [⟨collShape c, values⟩]) ⟨values, rfl, hv.1, hv.2, hv.3, hv.4⟩ ops
  simp only [List.cons.injEq, Arr.mk.injEq, true_and, and_true] at h1
  subst h1
  exact ⟨s0, s, e0, e, h2, h3, h4, h5⟩

/-- C46 for sets. -/
theorem C46_set {n lo hi : Int} {c : CollNode} (hc : CollNode.make n lo hi = .ok c)
    {values : List Rat} (hv : ValidCollection c.maxValue c.minSize c.maxSize values) (ops : List SolverOp) :
    ∃ s0 s, c.initExplicit values = .ok s0 ∧
      solve (N := collectionNode c) (fun s m => m.collection c s) c.defaultSet s0 ops = .ok s ∧
      ValidCollection c.maxValue c.minSize c.maxSize (s.elements.take s.size) := by
  obtain ⟨s0, s, e0, e, data, h1, h2, h3, h4, h5⟩ := (collectionLaw hc).solve_init (plan := c.defaultSet) (by
    rintro s x y r ⟨com, cur, rfl, rfl, h, _, _, hok, _⟩ _
    have hmax : c.maxSize ≤ c.maxValue := by
      simp only [CollNode.make] at hc
      obtain ⟨_, h1, h2⟩ := Res.bind_eq_ok.1 hc
      obtain ⟨_, h3, h4⟩ := Res.bind_eq_ok.1 h2
      obtain ⟨_, h5, h6⟩ := Res.bind_eq_ok.1 h4
      have h1 := guardThrow_eq_ok.1 h1
      have h5 := guardThrow_eq_ok.1 h5
      simp only [Res.pure_eq, Res.ok.injEq] at h6
      subst h6
      simp only
      omega
    have hlen : s.elements.length = c.maxValue := by
      rw [h.elems, hok.perm.length_eq]; simp [CollNode.ints]
    have hge : c.minSize ≤ s.size := by rw [h.size]; exact hok.ge
    have hle : s.size ≤ c.maxSize := by rw [h.size]; exact hok.le
    unfold CollNode.defaultSet
    by_cases hg : s.size < c.maxSize ∧ r.int 0 % 2 = 1
    · rw [if_pos hg]
      have hm := Nat.mod_lt (r.int 1) (show c.maxSize - s.size > 0 by omega)
      obtain ⟨s1, e1, h1, h2⟩ := coll_exchange_total (c := c) (s := s) (i := s.size)
        (j := s.size + r.int 1 % (c.maxSize - s.size)) (by omega) (by omega)
      have hd : c.dynamic = true := by
        unfold CollNode.dynamic
        simp only [ne_eq, decide_not, Bool.not_eq_true', decide_eq_false_iff_not]
        omega
      obtain ⟨s2, e2⟩ : ∃ s2, c.run1 s1 .grow = .ok s2 := by
        simp only [CollNode.run1]
        rw [(guardUB_eq_ok.2 hd : guardUB _ = .ok ()),
          (guardUB_eq_ok.2 (by omega : s1.size < c.maxSize) : guardUB _ = .ok ())]
        simp only [Res.ok_bind]
        unfold CollState.grow
        rw [List.getElem?_eq_getElem (show s1.size < s1.elements.length by omega)]
        exact ⟨_, rfl⟩
      refine ⟨_, s2, rfl, ?_⟩
      simp only [List.foldlM_cons, List.foldlM_nil, Move.collection, e1, Res.ok_bind, e2]
      rfl
    · rw [if_neg hg]
      by_cases hs : c.minSize < s.size
      · rw [if_pos hs]
        have hd : c.dynamic = true := by
          unfold CollNode.dynamic
          simp only [ne_eq, decide_not, Bool.not_eq_true', decide_eq_false_iff_not]
          omega
        obtain ⟨s2, e2⟩ : ∃ s2, c.run1 s .shrink = .ok s2 := by
          simp only [CollNode.run1]
          rw [(guardUB_eq_ok.2 hd : guardUB _ = .ok ()), (guardUB_eq_ok.2 hs : guardUB _ = .ok ())]
          simp only [Res.ok_bind]
          unfold CollState.shrink
          rw [if_neg (by omega), List.getElem?_eq_getElem (show s.size - 1 < s.elements.length by omega)]
          exact ⟨_, rfl⟩
        refine ⟨_, s2, rfl, ?_⟩
        simp only [List.foldlM_cons, List.foldlM_nil, Move.collection, Res.ok_bind, e2]
        rfl
      · rw [if_neg hs]
        exact ⟨_, s, rfl, rfl⟩) (x := [⟨collShape c, values⟩]) ⟨values, rfl, hv.1, hv.2, hv.3, hv.4⟩ ops
  simp only [List.cons.injEq, Arr.mk.injEq, true_and, and_true] at h1
  subst h1
  exact ⟨s0, s, e0, e, h2, h3, h4, h5⟩

/-! ## Disjoint bit sets -/

/-- C46 for disjoint bit sets of at least one element.  Missing: no elements, for which it is false
(`C46_bit_sets_empty_fails`). -/
theorem C46_bit_sets_partial {P N : Nat} (hP : 0 < P) (hN : 0 < N) {sets : List (List Rat)} (hn : sets.length = N)
    (hv : IsBitPartition P sets) (ops : List SolverOp) :
    ∃ s0 s, BitSetsState.mkExplicit P N sets = .ok s0 ∧
      solve (N := bitSetsNode P N) (fun s m => m.bitSets s) BitSetsState.defaultMove s0 ops = .ok s ∧
      s.num = N ∧ IsBitPartition P ((List.range s.num).map s.view) := by
  obtain ⟨s0, s, e0, e, data, h1, h2, h3⟩ := (bitSetsLaw P N).solve_init (plan := BitSetsState.defaultMove) (by
    rintro s x y r ⟨com, cur, rfl, rfl, h, hl⟩ _
    have hf : pick s.num (r.int 0) < N := by rw [h.num]; exact pick_lt hN _
    have ht : pick s.num (r.int 1) < N := by rw [h.num]; exact pick_lt hN _
    have he : pick s.primary (r.int 2) < cur.length := by rw [h.prim]; exact pick_lt (by omega) _
    obtain ⟨s', e, _⟩ := h.swap hf ht (List.getElem?_eq_getElem he)
    refine ⟨_, s', rfl, ?_⟩
    simp only [List.foldlM_cons, List.foldlM_nil, Move.bitSets, BitSetsState.run1]
    rw [(guardUB_eq_ok.2 ⟨by rw [h.num] at hf ⊢; exact hf, by rw [h.num] at ht ⊢; exact ht,
      by rw [h.prim] at he ⊢; exact he⟩ : guardUB _ = .ok ()), Res.ok_bind, e]
    rfl) (x := sets.map fun l => ⟨[(P : Int)], l⟩) ⟨sets, rfl, hn, hv⟩ ops
  have h1 : (List.range s.num).map (fun k => (⟨[(P : Int)], s.view k⟩ : Arr Rat)) =
      data.map fun l => ⟨[(P : Int)], l⟩ := by simpa using h1
  have h4 := congrArg (List.map Arr.data) h1
  simp only [List.map_map, Function.comp_def, List.map_id'] at h4
  refine ⟨s0, s, ?_, e, ?_, ?_⟩
  · rw [← e0]
    simp [bitSetsNode, List.map_map, Function.comp_def]
  · have := congrArg List.length h4
    simp at this
    omega
  · exact h4 ▸ h3

/-! ## Disjoint lists -/

theorem choose_cases (r : Rng) (ls : List (ArrayState Rat)) : ∀ k items chosen used,
    Lists.choose r ls k items chosen used = chosen ∨
      ∃ j l, ls[j]? = some l ∧ 0 < l.buffer.length ∧ Lists.choose r ls k items chosen used = k + j := by
  induction ls with
  | nil => exact fun _ _ _ _ => .inl rfl
  | cons l ls ih =>
    intro k items chosen used
    have step : ∀ items chosen' used, (chosen' = chosen ∨ chosen' = k ∧ 0 < l.buffer.length) →
        Lists.choose r ls (k + 1) items chosen' used = chosen ∨ ∃ j l', (l :: ls)[j]? = some l' ∧
          0 < l'.buffer.length ∧ Lists.choose r ls (k + 1) items chosen' used = k + j := by
      intro items chosen' used hch
      rcases ih (k + 1) items chosen' used with h | ⟨j, l', h1, h2, h3⟩
      · rcases hch with rfl | ⟨rfl, hl⟩
        · exact .inl h
        · exact .inr ⟨0, l, rfl, hl, by rw [h]; rfl⟩
      · exact .inr ⟨j + 1, l', h1, h2, by rw [h3]; omega⟩
    unfold Lists.choose
    by_cases h0 : l.buffer.length > 0
    · rw [if_pos h0]
      by_cases hu : r.real used ≤ (l.buffer.length : Rat) / ((items + l.buffer.length : Nat) : Rat)
      · rw [if_pos hu]
        exact step _ _ _ (.inr ⟨rfl, h0⟩)
      · rw [if_neg hu]
        exact step _ _ _ (.inl rfl)
    · rw [if_neg h0]
      exact step _ _ _ (.inl rfl)

/-- The list chosen is not empty, if there is one that is not. -/
theorem choose_nonempty (r : Rng) (ls : List (ArrayState Rat)) : ∀ k chosen used,
    (∃ l ∈ ls, 0 < l.buffer.length) →
      ∃ j l, ls[j]? = some l ∧ 0 < l.buffer.length ∧ Lists.choose r ls k 0 chosen used = k + j := by
  induction ls with
  | nil => rintro _ _ _ ⟨l, hl, _⟩; simp at hl
  | cons l ls ih =>
    rintro k chosen used ⟨l', hl', hpos⟩
    unfold Lists.choose
    by_cases h0 : l.buffer.length > 0
    · rw [if_pos h0]
      have hq : (0 : Rat) < (l.buffer.length : Rat) := by exact_mod_cast h0
      rw [if_pos (by rw [Nat.zero_add, div_self hq.ne']; exact r.le_one _)]
      rcases choose_cases r ls (k + 1) (0 + l.buffer.length) k (used + 1) with h | ⟨j, l2, h1, h2, h3⟩
      · exact ⟨0, l, rfl, h0, by rw [h]; rfl⟩
      · exact ⟨j + 1, l2, h1, h2, by rw [h3]; omega⟩
    · rw [if_neg h0]
      rcases List.mem_cons.1 hl' with rfl | hl'
      · omega
      · obtain ⟨j, l2, h1, h2, h3⟩ := ih (k + 1) chosen used ⟨l', hl', hpos⟩
        exact ⟨j + 1, l2, h1, h2, by rw [h3]; omega⟩

/-- C46 for disjoint lists of at least one element.  Missing: no elements, for which it is false
(`C46_lists_empty_fails`). -/
theorem C46_lists_partial {P N : Nat} (hP : 0 < P) (hN : 0 < N) {lists : List (List Rat)} (hn : lists.length = N)
    (hv : lists.flatten.Perm ((List.range P).map fun i : Nat => (i : Rat))) (ops : List SolverOp) :
    ∃ s0 s, Lists.mkExplicit P N lists = .ok s0 ∧
      solve (N := listsNode P N) (fun s m => m.lists s) Lists.defaultMove s0 ops = .ok s ∧
      s.length = N ∧ (s.map ArrayState.buffer).flatten.Perm ((List.range P).map fun i : Nat => (i : Rat)) := by
  obtain ⟨s0, s, e0, e, data, h1, h2, h3⟩ := (listsLaw P N).solve_init (plan := Lists.defaultMove) (by
    rintro s x y r ⟨com, cur, rfl, rfl, h⟩ ⟨data, hy, hl, hp⟩
    obtain rfl : cur = data := map_mk_inj (by simpa using hy)
    have hcur : s.map ArrayState.buffer = cur := (LRep.shows h).lists
    have hsl : s.length = N := by rw [← h.lenc, hl]
    have hex : ∃ l ∈ s, 0 < l.buffer.length := by
      by_contra hne
      push Not at hne
      have : cur.flatten = [] := by
        rw [← hcur, List.flatten_eq_nil_iff]
        intro b hb
        obtain ⟨l, hl, rfl⟩ := List.mem_map.1 hb
        exact List.length_eq_zero_iff.1 (Nat.le_zero.1 (hne l hl))
      rw [this] at hp
      have := hp.length_eq
      simp at this
      omega
    obtain ⟨i, li, hli, hpos, hch⟩ := choose_nonempty r s 0 0 0 hex
    rw [Nat.zero_add] at hch
    have hj : pick s.length (r.int 0) < s.length := pick_lt (by omega) _
    have hci : cur[i]? = some li.buffer := by rw [← hcur, List.getElem?_map, hli]; rfl
    have hcj : cur[pick s.length (r.int 0)]? = some s[pick s.length (r.int 0)].buffer := by
      rw [← hcur, List.getElem?_map, List.getElem?_eq_getElem hj]; rfl
    have p1 := pick_lt hpos (r.int 1)
    have p2 := pick_lt hpos (r.int 2)
    have p3 := Nat.mod_lt (r.int 2) (show s[pick s.length (r.int 0)].buffer.length + 1 > 0 by omega)
    unfold Lists.defaultMove
    rw [hch, hli, List.getElem?_eq_getElem hj]
    simp only
    by_cases hne : i ≠ pick s.length (r.int 0)
    · rw [if_pos hne]
      have hr := lists_run1 h (.pop i (pick li.buffer.length (r.int 1)) (pick s.length (r.int 0))
        (r.int 2 % (s[pick s.length (r.int 0)].buffer.length + 1)))
      have heff : ∃ c', (ListsOp.pop i (pick li.buffer.length (r.int 1)) (pick s.length (r.int 0))
          (r.int 2 % (s[pick s.length (r.int 0)].buffer.length + 1))).effect (com, cur) = some (com, c') := by
        simp only [ListsOp.effect, ListsOp.effect1, hci, hcj, Option.bind_eq_bind, Option.bind_some,
          List.getElem?_eq_getElem p1]
        rw [if_pos (by omega), List.getElem?_set_ne hne, hcj]
        exact ⟨_, rfl⟩
      obtain ⟨c', hc'⟩ := heff
      rw [hc'] at hr
      obtain ⟨s', e, _⟩ := hr
      refine ⟨_, s', rfl, ?_⟩
      simp only [List.foldlM_cons, List.foldlM_nil, Move.lists, e]
      rfl
    · rw [if_neg hne]
      have hr := lists_run1 h (.swap i (pick li.buffer.length (r.int 1)) (pick li.buffer.length (r.int 2)))
      have heff : ∃ c', (ListsOp.swap i (pick li.buffer.length (r.int 1))
          (pick li.buffer.length (r.int 2)) : ListsOp Rat).effect (com, cur) = some (com, c') := by
        simp only [ListsOp.effect, ListsOp.effect1, hci, Option.bind_eq_bind, Option.bind_some,
          List.getElem?_eq_getElem p1, List.getElem?_eq_getElem p2]
        split_ifs <;> exact ⟨_, rfl⟩
      obtain ⟨c', hc'⟩ := heff
      rw [hc'] at hr
      obtain ⟨s', e, _⟩ := hr
      refine ⟨_, s', rfl, ?_⟩
      simp only [List.foldlM_cons, List.foldlM_nil, Move.lists, e]
      rfl) (x := lists.map fun l => ⟨[-1], l⟩) ⟨lists, rfl, hn, hv⟩ ops
  have h1 : s.map (fun l => (⟨[-1], l.buffer⟩ : Arr Rat)) = data.map fun l => ⟨[-1], l⟩ := by simpa using h1
  have h4 : s.map ArrayState.buffer = data := by
    have := congrArg (List.map Arr.data) h1
    simpa [List.map_map, Function.comp_def] using this
  refine ⟨s0, s, ?_, e, ?_, h4 ▸ h3⟩
  · rw [← e0]
    simp [listsNode, List.map_map, Function.comp_def]
  · have := congrArg List.length h4
    simp at this
    omega

/-! ## Where it is false -/

/-- An integer symbol with a negative lower bound, however large: its default move is undefined for every outcome of
the random generator. -/
theorem C46_integer_negative_fails (n : Nat) (lo hi : Int) (h : lo < 0) (s : ArrayState Rat) (r : Rng) :
    (⟨n, lo, hi⟩ : NumNode).defaultMove s r = .ub := by
  unfold NumNode.defaultMove guardUB
  rw [if_neg (by simp only; omega)]
  rfl

/-- Default moves of empty arrays of integers or binary variables access an element that does not exist. -/
theorem C46_integer_empty_fails (r : Rng) {c : NumNode} (hlo : 0 ≤ c.lo) (hle : c.lo ≤ c.hi) (s : ArrayState Rat)
    (hs : s.buffer = []) :
    (∃ ms, c.defaultMove s r = .ok ms ∧ ms.foldlM (fun s m => m.integer c s) s = .ub) ∧
    ∃ ms, NumNode.defaultFlip s r = .ok ms ∧ ms.foldlM (fun s m => m.binary c s) s = .ub := by
  have hval : c.isValid ((c.lo + (r.int 1 : Int) % (c.hi - c.lo + 1) : Int) : Rat) = true := by
    have h1 := Int.emod_nonneg (r.int 1 : Int) (show c.hi - c.lo + 1 ≠ 0 by omega)
    have h2 := Int.emod_lt_of_pos (r.int 1 : Int) (show 0 < c.hi - c.lo + 1 by omega)
    exact isValid_iff.2 ⟨_, rfl, by omega, by omega⟩
  refine ⟨⟨_, by
      unfold NumNode.defaultMove
      rw [(guardUB_eq_ok.2 hlo : guardUB _ = .ok ())]
      rfl, ?_⟩, _, rfl, ?_⟩
  · simp only [List.foldlM_cons, List.foldlM_nil, Move.integer, NumNode.run1, NumNode.caught, NumNode.setValue, hval,
      not_true, if_false, ArrayState.set, hs, List.getElem?_nil]
    rfl
  · simp only [List.foldlM_cons, List.foldlM_nil, Move.binary, NumNode.runBin1, ArrayState.get, hs, List.getElem?_nil]
    rfl

/-- Outcomes of the random generator for the counterexamples. -/
def Rng.of (is : List Nat) : Rng := ⟨fun k => is.getD k 0, fun _ => 0, fun _ => le_rfl, fun _ => zero_le_one⟩

/-- The default move of an empty list of a symbol that may be empty exchanges two random positions, in general beyond
the end of its memory. -/
theorem C46_list_empty_fails : ∃ (c : CollNode) (s : CollState Rat) (r : Rng) (ms : List Move),
    CollNode.make 3 0 2 = .ok c ∧ c.initExplicit [] = .ok s ∧ CollNode.defaultList s r = .ok ms ∧
    ms.foldlM (fun s m => m.collection c s) s = .ub :=
  ⟨⟨3, 0, 2⟩, ⟨[0, 1, 2], [], [], 0, 0⟩, Rng.of [0, 7], _, rfl, by decide +kernel, rfl, by decide +kernel⟩

/-- Disjoint bit sets of no elements: every default move is undefined. -/
theorem C46_bit_sets_empty_fails (N : Nat) (hN : 0 < N) (r : Rng) : ∃ (s : BitSetsState) (ms : List Move),
    BitSetsState.mkDefault 0 N = .ok s ∧ s.defaultMove r = .ok ms ∧ ms.foldlM (fun s m => m.bitSets s) s = .ub := by
  refine ⟨⟨0, N, [], List.replicate N []⟩, _, by simp [BitSetsState.mkDefault], rfl, ?_⟩
  simp only [List.foldlM_cons, List.foldlM_nil, Move.bitSets, guardUB]
  rw [if_neg (by simp)]
  rfl

/-- Disjoint lists of no elements. -/
theorem C46_lists_empty_fails : ∃ (s : List (ArrayState Rat)) (r : Rng) (ms : List Move),
    Lists.mkDefault 0 2 = .ok s ∧ Lists.defaultMove s r = .ok ms ∧ ms.foldlM (fun s m => m.lists s) s = .ub :=
  ⟨_, Rng.of [1], [.popTo 0 0 1 0], rfl, by decide +kernel, by decide +kernel⟩

/-- Helper: the elements beyond the first `maxSize` are where they were at the beginning. -/
structure CollTail (c : CollNode) (k : CollContents Rat) : Prop where
  perm : k.elements.Perm (CollNode.ints c.maxValue)
  ge : c.minSize ≤ k.size
  le : k.size ≤ c.maxSize
  tail : k.elements.drop c.maxSize = (CollNode.ints c.maxValue).drop c.maxSize

def CollKept (c : CollNode) (s : CollState Rat) : Prop :=
  ∃ com cur, CollState.Rep s com cur ∧ CollState.OnlyChanges s ∧ CollTail c com ∧ CollTail c cur

def CollOp.within (M : Nat) : CollOp → Prop
  | .exchange i j => i < M ∧ j < M
  | .rotate _ _ => False
  | _ => True

theorem CollKept.step {c : CollNode} (hm : c.maxSize ≤ c.maxValue) {s s' : CollState Rat} (h : CollKept c s)
    {op : CollOp} (hop : op.within c.maxSize) (e : c.run1 s op = .ok s') : CollKept c s' := by
  obtain ⟨com, cur, hr, ho, hk, hk'⟩ := h
  have h1 := coll_run1_refines c hr ho op
  cases he : CollOp.effect c.minSize c.maxSize (com, cur) op with
  | none => rw [he] at h1; simp only at h1; rw [h1] at e; cases e
  | some q =>
    obtain ⟨com', cur'⟩ := q
    rw [he] at h1
    obtain ⟨s1, e1, r1, o1⟩ := h1
    rw [e] at e1
    simp only [Res.ok.injEq] at e1
    subst e1
    have hinv := collEffect_inv c.minSize c.maxSize (CollNode.ints c.maxValue)
      (by simpa [CollNode.ints] using hm) he ⟨hk.perm, hk.ge, hk.le⟩ ⟨hk'.perm, hk'.ge, hk'.le⟩
    refine ⟨com', cur', r1, o1, ⟨hinv.1.1, hinv.1.2.1, hinv.1.2.2, ?_⟩, ⟨hinv.2.1, hinv.2.2.1, hinv.2.2.2, ?_⟩⟩
    · cases op with
      | exchange i j =>
        simp only [CollOp.effect] at he
        split_ifs at he
        · cases he; exact hk.tail
        · split at he
          · cases he; exact hk.tail
          · cases he
      | rotate d e => exact hop.elim
      | grow => simp only [CollOp.effect] at he; split_ifs at he; cases he; exact hk.tail
      | shrink => simp only [CollOp.effect] at he; split_ifs at he; cases he; exact hk.tail
      | commit => cases he; exact hk'.tail
      | revert => cases he; exact hk.tail
    · cases op with
      | exchange i j =>
        simp only [CollOp.effect] at he
        split_ifs at he
        · cases he; exact hk'.tail
        · split at he
          · cases he
            simp only
            rw [List.drop_set_of_lt hop.2, List.drop_set_of_lt hop.1]
            exact hk'.tail
          · cases he
      | rotate d e => exact hop.elim
      | grow => simp only [CollOp.effect] at he; split_ifs at he; cases he; exact hk'.tail
      | shrink => simp only [CollOp.effect] at he; split_ifs at he; cases he; exact hk'.tail
      | commit => cases he; exact hk'.tail
      | revert => cases he; exact hk.tail

theorem CollKept.solve {c : CollNode} (hm : c.maxSize ≤ c.maxValue) (ops : List SolverOp) :
    ∀ {s s' : CollState Rat}, CollKept c s →
      Verif.solve (N := collectionNode c) (fun s m => m.collection c s) c.defaultSet s ops = .ok s' →
      CollKept c s' := by
  induction ops with
  | nil => intro s s' h e; cases e; exact h
  | cons op ops ih =>
    intro s s' h e
    cases op with
    | random r =>
      simp only [Verif.solve] at e
      obtain ⟨ms, e1, e2⟩ := Res.bind_eq_ok.1 e
      obtain ⟨s1, e3, e4⟩ := Res.bind_eq_ok.1 e2
      refine ih ?_ e4
      unfold CollNode.defaultSet at e1
      by_cases hg : s.size < c.maxSize ∧ r.int 0 % 2 = 1
      · rw [if_pos hg] at e1
        cases e1
        simp only [List.foldlM_cons, List.foldlM_nil, Move.collection] at e3
        obtain ⟨s2, e5, e6⟩ := Res.bind_eq_ok.1 e3
        obtain ⟨s3, e7, e8⟩ := Res.bind_eq_ok.1 e6
        cases e8
        have hmod := Nat.mod_lt (r.int 1) (show c.maxSize - s.size > 0 by omega)
        exact (h.step hm (op := .exchange s.size (s.size + r.int 1 % (c.maxSize - s.size)))
          ⟨hg.1, by omega⟩ e5).step hm (op := .grow) trivial e7
      · rw [if_neg hg] at e1
        split_ifs at e1
        · cases e1
          simp only [List.foldlM_cons, List.foldlM_nil, Move.collection] at e3
          obtain ⟨s2, e5, e6⟩ := Res.bind_eq_ok.1 e3
          cases e6
          exact h.step hm (op := .shrink) trivial e5
        · cases e1
          cases e3
          exact h
    | commit =>
      simp only [Verif.solve] at e
      obtain ⟨s1, e1, e2⟩ := Res.bind_eq_ok.1 e
      exact ih (h.step hm (op := .commit) trivial e1) e2
    | revert =>
      simp only [Verif.solve] at e
      obtain ⟨s1, e1, e2⟩ := Res.bind_eq_ok.1 e
      exact ih (h.step hm (op := .revert) trivial e1) e2

/-- The elements that a set can get by default moves are the first `maxSize` ones of its memory: no outcome of the
random generator brings in any of the others.  (So a set of at most two numbers below five, started by default, will
only ever contain 0 and 1.) -/
theorem C46_set_never_reaches {n lo hi : Int} {c : CollNode} (hc : CollNode.make n lo hi = .ok c)
    (ops : List SolverOp) {s : CollState Rat}
    (hs : solve (N := collectionNode c) (fun s m => m.collection c s) c.defaultSet c.initSet ops = .ok s) (k : Nat)
    (hk : hi ≤ k) : (k : Rat) ∉ s.elements.take s.size := by
  have hcs : c.minSize ≤ c.maxSize ∧ c.maxSize ≤ c.maxValue ∧ (c.maxSize : Int) = hi := by
    simp only [CollNode.make] at hc
    obtain ⟨_, h1, h2⟩ := Res.bind_eq_ok.1 hc
    obtain ⟨_, h3, h4⟩ := Res.bind_eq_ok.1 h2
    obtain ⟨_, h5, h6⟩ := Res.bind_eq_ok.1 h4
    have h1 := guardThrow_eq_ok.1 h1
    have h3 := guardThrow_eq_ok.1 h3
    have h5 := guardThrow_eq_ok.1 h5
    simp only [Res.pure_eq, Res.ok.injEq] at h6
    subst h6
    simp only
    omega
  obtain ⟨hm1, hm, hhi⟩ := hcs
  have h0 : CollKept c c.initSet := by
    have ht : CollTail c ⟨CollNode.ints c.maxValue, c.minSize⟩ := ⟨List.Perm.refl _, le_rfl, hm1, rfl⟩
    refine ⟨_, _, CollState.Rep.mk'_ ?_, ?_, ht, ht⟩
    · simp [CollNode.ints]; omega
    · simp [CollState.OnlyChanges, CollNode.initSet, CollState.mk']
  obtain ⟨com, cur, hr, _, _, hk'⟩ := CollKept.solve hm ops h0 hs
  intro hmem
  rw [hr.elems, hr.size] at hmem
  have hmem2 : (k : Rat) ∈ cur.elements.take c.maxSize :=
    (List.take_subset_take_left _ hk'.le) hmem
  have hkn : k < c.maxValue := by
    obtain ⟨j, hj, hjk⟩ := mem_ints.1 (hk'.perm.mem_iff.1 (List.mem_of_mem_take hmem2))
    have : k = j := by exact_mod_cast hjk
    omega
  have hdrop : (k : Rat) ∈ cur.elements.drop c.maxSize := by
    rw [hk'.tail]
    refine List.mem_iff_getElem.2 ⟨k - c.maxSize, ?_, ?_⟩
    · simp [CollNode.ints]; omega
    · have : c.maxSize + (k - c.maxSize) = k := by omega
      simp [CollNode.ints, this]
  have hnd : (cur.elements.take c.maxSize ++ cur.elements.drop c.maxSize).Nodup := by
    rw [List.take_append_drop]
    exact hk'.perm.nodup_iff.2 (ints_nodup _)
  exact (List.nodup_append.1 hnd).2.2 _ hmem2 _ hdrop rfl

/-! ## Concrete histories -/

/-- A set of one to three of five numbers: grow with element 2, grow with element 1, revert, stay, shrink. -/
example : (match (⟨5, 1, 3⟩ : CollNode).initExplicit [3] with
    | .ok s => (match solve (N := collectionNode ⟨5, 1, 3⟩) (fun s m => m.collection ⟨5, 1, 3⟩ s)
        (CollNode.defaultSet ⟨5, 1, 3⟩) s
        [.random (Rng.of [1, 1]), .commit, .random (Rng.of [1, 0]), .revert] with
      | .ok s => s.elements.take s.size
      | _ => [])
    | _ => []) = [3, 1] := by
  decide +kernel

/-- Two disjoint lists of the numbers 0, 1, 2: element 1 goes to the second list. -/
example : (match Lists.mkExplicit 3 2 [[0, 1, 2], []] with
    | .ok s => (match solve (N := listsNode 3 2) (fun s m => m.lists s) Lists.defaultMove s
        [.random (Rng.of [1, 1, 0])] with
      | .ok s => s.map ArrayState.buffer
      | _ => [])
    | _ => []) = [[0, 2], [1]] := by
  decide +kernel

/-- Integers from 2 to 4. -/
example : (match (⟨2, 2, 4⟩ : NumNode).init [2, 4] with
    | .ok s => (match solve (N := numberNode [2] ⟨2, 2, 4⟩) (fun s m => m.integer ⟨2, 2, 4⟩ s)
        (NumNode.defaultMove ⟨2, 2, 4⟩) s [.random (Rng.of [3, 4]), .commit, .random (Rng.of [0, 2])] with
      | .ok s => s.buffer
      | _ => [])
    | _ => []) = [4, 3] := by
  decide +kernel

end Verif
