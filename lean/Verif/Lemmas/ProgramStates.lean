import Verif.Lemmas.ProgramFileWhole
import Verif.Spec.ProgramStates

/-! Helper lemmas: the states of a saved program. -/

namespace Verif

open Graph PyModel Draft

theorem filter_range_count {Q : Nat → Bool} : ∀ (n t w : Nat), ((List.range n).filter Q)[t]? = some w →
    w < n ∧ Q w = true ∧ (List.range w).countP Q = t := by
  intro n
  induction n with
  | zero => intro t w h; simp at h
  | succ n ih =>
    intro t w h
    rw [List.range_succ, List.filter_append] at h
    by_cases ht : t < ((List.range n).filter Q).length
    · rw [List.getElem?_append_left ht] at h
      obtain ⟨h1, h2, h3⟩ := ih t w h
      exact ⟨by omega, h2, h3⟩
    · rw [List.getElem?_append_right (by omega)] at h
      by_cases hq : Q n = true
      · rw [List.filter_cons, if_pos hq, List.filter_nil] at h
        have h0 : t - ((List.range n).filter Q).length = 0 := by
          by_contra hc
          rw [List.getElem?_eq_none (by simp; omega)] at h
          cases h
        rw [h0] at h
        simp only [List.getElem?_cons_zero, Option.some.injEq] at h
        subst h
        exact ⟨by omega, hq, by rw [List.countP_eq_length_filter]; omega⟩
      · rw [List.filter_cons, if_neg hq, List.filter_nil] at h
        simp at h

namespace Script

variable {M : Generated} {m : PyModel} {isList : Nat → Bool}

theorem users_length {s : Script} {v : Nat} : (s.users v).length = s.countP fun r => v ∈ r.ops := by
  have hl : s = (List.range s.length).map s.row := by
    conv_lhs => rw [← List.take_length (l := s)]
    exact take_rows (le_refl _)
  unfold users
  rw [← List.countP_eq_length_filter]
  conv_rhs => rw [hl, List.countP_map]
  rfl

/-- The parts of a disjoint decision are numbered in the order in which they were made. -/
theorem Source.numbered (h : Source M m isList) {v : Nat} (ha : (M.rows.row v).built.asKind.isArray = false) {t w : Nat}
    (hw : (M.rows.users v)[t]? = some w) : (M.rows.row w).built = .kind (.output t) := by
  obtain ⟨h1, h2, h3⟩ := filter_range_count _ _ _ hw
  have h2 : v ∈ (M.rows.row w).ops := by simpa using h2
  obtain ⟨j, e1, e2⟩ := h.part h1 h2 ha
  have hpy := h.python w h1
  unfold Row.FromPython at hpy
  rw [e1] at hpy
  have := hpy.2.1 j rfl
  rw [e1, this, e2, take_rows h1.le, List.countP_map]
  congr 2

/-- What is saved for a state is loaded as the state. -/
theorem Source.state (h : Source M m isList) {L : Script} {f : Nat → Nat} {i : Nat} (hi : f i < M.rows.length)
    (hl : Row.Loads f (L.row i) (M.rows.row (f i))) (hdec : (M.rows.row (f i)).decision = true) {A : Option Val}
    (hA : M.rows.StateFits (f i) A) : L.loadState i (M.rows.savedState A (f i)) = .ok A := by
  have hkind : ∃ k shapes, (M.rows.row (f i)).built = .kind k ∧ k.isDecision = true ∧ k.make ((M.rows.row (f i)).ins.map Info.shapes) = .ok shapes ∧
      (M.rows.row (f i)).out.shapes = shapes := by
    have hd : (M.rows.row (f i)).built.decision = true := hdec
    obtain ⟨_, _, _, _, how⟩ := h.made.how hi
    cases how with
    | kind e _ _ e3 e4 => rw [e] at hd; exact ⟨_, _, e, hd, e3, by rw [e4]⟩
    | basic e => rw [e] at hd; cases hd
    | advanced e => rw [e] at hd; cases hd
    | permutation e => rw [e] at hd; cases hd
  obtain ⟨k, shapes, hb, hd, hmake, hout⟩ := hkind
  have hk : (M.rows.row (f i)).built.asKind = k := by rw [hb]; rfl
  have hnode : (M.rows.row (f i)).node = k.node ((M.rows.row (f i)).ins.map Info.shapes) shapes := by
    show (M.rows.row (f i)).built.node (M.rows.row (f i)).ins (M.rows.row (f i)).out = _
    rw [hb, ← hout]
  unfold loadState savedState
  rw [hl.kind.isArray, hl.kind.numParts, hl.same.node hdec, hl.same.decision, hk]
  unfold StateFits at hA
  rw [hk, hnode] at hA
  rw [hnode]
  cases A with
  | none =>
    have hA' : k.isArray = true := by
      by_contra hc
      exact (hA.2 (by simpa using hc)).1 rfl
    simp only [hA', if_true]
  | some x =>
    obtain ⟨h1, h2, s, hs1, hs2⟩ := decision_state hd hmake (hA.1 x rfl)
    by_cases hA' : k.isArray = true
    · obtain ⟨a, rfl⟩ := h1 hA'
      simp only [hA', if_true, List.take_succ_cons, List.take_zero]
      rw [guardThrow_true hdec, Res.ok_bind, hs1, Res.ok_bind, hs2]
    · have hA'' : k.isArray = false := by simpa using hA'
      have hlen := h2 hA''
      have hul := (hA.2 hA'').2
      rw [← users_length] at hul
      have hfiles : ((M.rows.users (f i)).map fun w => match (M.rows.row w).built with
          | .kind (.output j) => x.getD j ⟨[], []⟩
          | _ => (⟨[], []⟩ : Arr Rat)) = x := by
        refine List.ext_getElem? fun j => ?_
        rw [List.getElem?_map]
        by_cases hj : j < x.length
        · have hjs : j < (M.rows.users (f i)).length := by omega
          rw [List.getElem?_eq_getElem hjs, Option.map_some, List.getElem?_eq_getElem hj,
            h.numbered (by rw [hk]; exact hA'') (List.getElem?_eq_getElem hjs)]
          simp [List.getD_eq_getElem?_getD, hj]
        · rw [List.getElem?_eq_none (by omega), List.getElem?_eq_none (by omega)]; rfl
      simp only [hA'', Bool.false_eq_true, if_false]
      generalize hF : List.map _ (M.rows.users (f i)) = F
      have hF' : F = x := by rw [← hF]; exact hfiles
      rw [hF', guardThrow_true (by omega), Res.ok_bind, List.take_of_length_le (by omega), hs1, Res.ok_bind, hs2]

/-- The sizes of states. -/
theorem Loading.stateSize {L : Script} (h : Source M m isList) (hL : Loading M m M.rows.length L) {i : Nat} (hi : i < M.rows.length) :
    L.stateSize i = M.rows.stateSize ((M.draft m).at_ i) := by
  have w : (M.draft m).m.g.WF := h.whole.inv.wf
  have hlen : (M.draft m).m.g.nodes.length = M.rows.length := h.count
  have hl := hL.loads i hi
  have hR : Renames (fun j => j < M.rows.length) (M.draft m).at_ L.sizes M.rows.sizes := by
    refine ⟨fun a ha b hb he => at_inj w (by omega) (by omega) he, fun j hj => (hL.loads j hj).same.size, ?_, ?_, ?_⟩
    · intro j hj a ha
      have := hL.made.size_down (by rw [hL.length]; exact hj) ha
      omega
    · intro j hj a ha
      exact hL.made.size_down (by rw [hL.length]; exact hj) ha
    · intro j hj a ha
      exact h.made.size_down (h.at_lt hj) ha
  have hcls : ∀ b : Built, b.pyClass.isArray = b.asKind.isArray := by
    intro b
    cases b with
    | kind k =>
      cases k <;> try rfl
      case unary op => cases op <;> rfl
      case collection n lo hi => simp only [Built.pyClass, Built.asKind, Kind.isArray]; split <;> rfl
    | basic _ _ _ => rfl
    | advanced _ _ _ => rfl
    | permutation _ => rfl
  have hf : (M.rows.followedSize ((M.draft m).at_ i) >>= fun t => sizeOfMax t.max) = (L.followedSize i >>= fun t => sizeOfMax t.max) := by
    unfold followedSize
    rw [← hR.size i hi, hL.length]
    have e : ((L.sizes i).rename (M.draft m).at_).array ≠ some ((M.draft m).at_ i) ↔ (L.sizes i).array ≠ some i := by
      simp only [SizeInfo.rename, ne_eq, not_iff_not]
      constructor
      · intro e
        obtain ⟨a, ha, e⟩ := Option.map_eq_some_iff.1 e
        rw [ha, hR.inj a (hR.closed i hi a ha) i hi e]
      · intro e
        rw [e]
        rfl
    by_cases c : (L.sizes i).array ≠ some i
    · rw [if_pos (e.2 c), if_pos c, hR.substitute _ (fun a ha => hR.closed i hi a ha)]
      cases (L.sizes i).substitute L.sizes M.rows.length <;> rfl
    · rw [if_neg (fun hc => c (e.1 hc)), if_neg c]
      rfl
  have hshape : (L.row i).out.shape = (M.rows.row ((M.draft m).at_ i)).out.shape := by
    unfold Info.shape
    rw [hl.same.shapes]
  show (if (L.row i).built.pyClass.isArray = false then _ else _) = (if _ then _ else _)
  rw [hcls, hcls, hl.kind.isArray, hshape]
  by_cases c1 : (M.rows.row ((M.draft m).at_ i)).built.asKind.isArray = false
  · rw [if_pos c1, if_pos c1]
  · rw [if_neg c1, if_neg c1]
    by_cases c2 : dynamicShape (M.rows.row ((M.draft m).at_ i)).out.shape = false
    · rw [if_pos c2, if_pos c2]
    · rw [if_neg c2, if_neg c2]
      exact hf.symm

theorem Loading.stateSizes {L : Script} (h : Source M m isList) (hL : Loading M m M.rows.length L) {l : List Nat}
    (hl : ∀ i ∈ l, i < M.rows.length) : L.stateSizes l = M.rows.stateSizes (l.map (M.draft m).at_) := by
  unfold Script.stateSizes
  rw [List.mapM_map, mapM_congr fun i hi => hL.stateSize h (hl i hi)]
  rfl

/-- In the loaded program the decisions come first. -/
theorem Loading.decisions {L : Script} (h : Source M m isList) (hL : Loading M m M.rows.length L) :
    (∀ i < M.rows.length, (L.row i).decision = decide (i < m.g.decisions.length)) ∧ m.g.decisions.length ≤ M.rows.length ∧
      m.g.decisions = (List.range m.g.decisions.length).map (M.draft m).at_ := by
  have wf : (M.draft m).m.g.WF := h.whole.inv.wf
  have hs : (M.draft m).m.g.sorted = true := h.whole.sorted
  have hlen : (M.draft m).m.g.nodes.length = M.rows.length := h.count
  obtain ⟨hle, hd⟩ := decisions_at wf hs
  rw [hlen] at hle
  refine ⟨fun i hi => ?_, hle, ?_⟩
  · rw [(hL.loads i hi).same.decision, Bool.eq_iff_iff, ← h.whole.decisions _ (h.at_lt hi), decide_eq_true_eq]
    exact decision_iff wf hs (by rw [hlen]; exact hi)
  · conv_lhs => rw [show m.g.decisions = _ from hd]
    exact take_at (by rw [hlen]; exact hle)

theorem count_first {L : Script} {n k : Nat} (hn : n ≤ L.length) (h : ∀ i < L.length, (L.row i).decision = decide (i < k)) :
    (L.take n).countP Row.decision = min n k := by
  rw [take_rows hn, List.countP_map]
  induction n with
  | zero => simp
  | succ n ih =>
    rw [List.range_succ, List.countP_append, ih (by omega), List.countP_singleton]
    have : (Row.decision ∘ L.row) n = decide (n < k) := h n (by omega)
    rw [this]
    by_cases c : n < k
    · simp [c]; omega
    · simp [c]; omega

end Script
end Verif
