import Verif.Lemmas.ArchiveClaims

set_option linter.unusedSectionVars false
set_option linter.unusedSimpArgs false
set_option linter.unusedVariables false

/-!
# Loading a whole file
-/

namespace Verif

open Graph PyModel

namespace Draft

variable {decl : Symbols → Graph → Nat → Claim} {isList : Nat → Bool} {d : Draft}

theorem loading_new (d : Draft) : Loading 0 Draft.new d where
  made := made_new
  orderly := orderly_new
  unsorted := rfl
  mirror := ⟨rfl, by omega, by omega, by omega, by omega, by omega, by simp [Draft.new, PyModel.new, Graph.empty]⟩
  objective := rfl
  constraints := rfl

/-- Class and line of a symbol. -/
def entry (d : Draft) (isList : Nat → Bool) (i : Nat) : (ClassName × List Char) × Nat :=
  (((d.item isList (d.at_ i)).1, adjLine i (d.operands (d.at_ i))), i)

/-- The loop, from any point. -/
theorem load_from (hloc : LocalDecl decl) (hd : d.Savable decl isList) {payload : Nat → Payload}
    (hpay : ∀ i, payload i = (d.item isList (d.at_ i)).2) {k : Nat} (hk : k ≤ d.m.g.nodes.length) (n : Nat) :
    ∀ (i : Nat) (d' : Draft), i + n = k → Loading i d' d →
      ∃ d'', ((List.range' i n).map (d.entry isList)).foldlM (loadLine decl payload) d' = .ok d'' ∧
        Loading k d'' d := by
  induction n with
  | zero =>
    intro i d' hi h
    obtain rfl : i = k := by omega
    exact ⟨d', rfl, h⟩
  | succ n ih =>
    intro i d' hi h
    obtain ⟨d1, e1, h1⟩ := h.step hloc hd (show i < d.m.g.nodes.length by omega) (hpay i)
    obtain ⟨d2, e2, h2⟩ := ih (i + 1) d1 (by omega) h1
    refine ⟨d2, ?_, h2⟩
    rw [List.range'_succ, List.map_cons, List.foldlM_cons]
    have : loadLine decl payload d' (d.entry isList i) = .ok d1 := e1
    rw [this, Res.ok_bind]
    exact e2

/-- What the file says about the symbols. -/
theorem entries (w : d.m.g.WF) (hs : d.m.g.sorted = true) {k : Nat} (hk : k ≤ d.m.g.nodes.length) :
    (((d.m.g.nodes.take k).map fun v => (d.item isList v).1).zip
      (splitLines ((d.m.g.nodes.take k).flatMap fun v => adjLine (d.pos v).toNat (d.operands v)))).zipIdx =
      (List.range' 0 k).map (d.entry isList) := by
  rw [splitLines_adj, take_at hk, List.zip_map', List.map_map]
  refine List.ext_getElem? fun i => ?_
  rw [List.getElem?_zipIdx]
  by_cases hi : i < k
  · have hn : i < d.m.g.nodes.length := by omega
    rw [List.getElem?_map, List.getElem?_map, List.getElem?_range hi, List.getElem?_range' hi]
    simp [entry, pos_at w hs hn]
  · rw [List.getElem?_eq_none (by simp; omega), List.getElem?_eq_none (by simp; omega)]
    rfl

/-- A loaded model, whatever its objective and constraints. -/
structure Rebuilt (k : Nat) (d' d : Draft) : Prop where
  made : d'.Made
  orderly : d'.Orderly
  unsorted : d'.m.g.sorted = false
  mirror : Mirror k d' d

theorem Rebuilt.minimize {k : Nat} {d' : Draft} (h : Rebuilt k d' d) {i : Nat} (hi : i < k)
    (hsc : d.S.scalar (d.at_ i) = true) :
    ∃ d'', d'.must decl (.minimize i) = .ok d'' ∧ Rebuilt k d'' d ∧ d''.m.g.objective = some i ∧
      d''.m.g.constraints = d'.m.g.constraints := by
  have hsc' : d'.S.scalar i = true := by rw [← hsc]; simp only [Symbols.scalar, h.mirror.shapes i hi]
  have hin : i ∈ d'.m.g.nodes := by rw [h.mirror.nodes]; simpa using hi
  have he : d'.perform decl (.minimize i) =
      ({ d' with m := { d'.m with g := { d'.m.g with objective := some i } } }, .ok ()) := by
    simp only [perform, hsc', if_true, onModel, PyModel.step, setObjective]
    rw [guardUB_true (by simpa using hin), guardThrow_true (by simp)]
    rfl
  refine ⟨_, by rw [must, he], ⟨h.made.perform he, h.orderly.perform h.made he, h.unsorted,
    ⟨h.mirror.nodes, h.mirror.le, h.mirror.kind, h.mirror.shapes, h.mirror.preds, h.mirror.below,
      h.mirror.decisions⟩⟩, rfl, rfl⟩

theorem Rebuilt.constrain (hloc : LocalDecl decl) (hn : d.m.g.nodes.Nodup) {k : Nat} {d' : Draft}
    (h : Rebuilt k d' d) {i : Nat} (hi : i < k) (hsc : d.S.scalar (d.at_ i) = true)
    (hlg : (decl d.S d.m.g (d.at_ i)).logical = true) :
    ∃ d'', d'.must decl (.constraint i) = .ok d'' ∧ Rebuilt k d'' d ∧ d''.m.g.objective = d'.m.g.objective ∧
      d''.m.g.constraints = d'.m.g.constraints ++ [i] := by
  have hsc' : d'.S.scalar i = true := by rw [← hsc]; simp only [Symbols.scalar, h.mirror.shapes i hi]
  have hlg' : (decl d'.S d'.m.g i).logical = true := by rw [hloc k d' d h.mirror hn i hi]; exact hlg
  have hin : i ∈ d'.m.g.nodes := by rw [h.mirror.nodes]; simpa using hi
  have he : d'.perform decl (.constraint i) =
      ({ d' with m := { d'.m with g := { d'.m.g with constraints := d'.m.g.constraints ++ [i] } } }, .ok ()) := by
    simp only [perform, hsc', hlg', Bool.and_self, if_true, onModel, PyModel.step, addConstraint]
    rw [guardUB_true hin, guardThrow_true trivial]
    rfl
  refine ⟨_, by rw [must, he], ⟨h.made.perform he, h.orderly.perform h.made he, h.unsorted,
    ⟨h.mirror.nodes, h.mirror.le, h.mirror.kind, h.mirror.shapes, h.mirror.preds, h.mirror.below,
      h.mirror.decisions⟩⟩, rfl, rfl⟩

theorem Rebuilt.objective (w : d.m.g.WF) (hs : d.m.g.sorted = true) (ht : d.Targets decl) {k : Nat} {d' : Draft}
    (h : Rebuilt k d' d) (ho : d'.m.g.objective = none) :
    ∃ d'', d'.loadObjective decl ((d.m.g.objective.filter fun o => decide (d.pos o < k)).map d.pos) = .ok d'' ∧
      Rebuilt k d'' d ∧
      d''.m.g.objective.map d.at_ = d.m.g.objective.filter (fun o => decide (o ∈ d.m.g.nodes.take k)) ∧
      d''.m.g.constraints = d'.m.g.constraints := by
  cases hob : d.m.g.objective with
  | none => exact ⟨d', rfl, h, by rw [ho]; rfl, rfl⟩
  | some o =>
    have hon := w.objMem o hob
    obtain ⟨h1, h2, h3⟩ := at_pos w hs hon
    have hmem : o ∈ d.m.g.nodes.take k ↔ d.pos o < k := by
      rw [take_at h.mirror.le]
      constructor
      · intro hm
        obtain ⟨j, hj, e⟩ := List.mem_map.1 hm
        have hj := List.mem_range.1 hj
        have := h.mirror.le
        rw [← e, pos_at w hs (by omega)]
        omega
      · intro hlt
        exact List.mem_map.2 ⟨(d.pos o).toNat, List.mem_range.2 (by omega), h3⟩
    by_cases c : d.pos o < k
    · have hi : (d.pos o).toNat < k := by omega
      have hat := h.mirror.at_ hi
      obtain ⟨hA, hsc⟩ := ht.objective o hob
      obtain ⟨d2, e2, r2, o2, c2⟩ := h.minimize (decl := decl) hi (by rw [h3]; exact hsc)
      refine ⟨d2, ?_, r2, ?_, c2⟩
      · simp only [Option.filter_some, decide_eq_true c, if_true, Option.map_some, loadObjective]
        rw [guardThrow_true (by rw [h.mirror.nodes]; simpa using c), Res.ok_bind, guardUB_true h1, Res.ok_bind, hat,
          guardThrow_true (by rw [(h.mirror.kind _ hi).isArray, h3]; exact hA), Res.ok_bind, e2]
      · rw [o2, Option.filter_some, if_pos (by simpa using hmem.2 c), Option.map_some, h3]
    · refine ⟨d', ?_, h, ?_, rfl⟩
      · simp only [Option.filter_some, decide_eq_false c, Bool.false_eq_true, if_false, Option.map_none, loadObjective]
      · rw [ho, Option.filter_some, if_neg (by simpa using fun hm => c (hmem.1 hm))]; rfl

theorem Rebuilt.constraints (hloc : LocalDecl decl) (w : d.m.g.WF) (hs : d.m.g.sorted = true) (ht : d.Targets decl)
    {k : Nat} (cs : List Nat) : ∀ {d' : Draft}, (∀ c ∈ cs, c ∈ d.m.g.constraints) → Rebuilt k d' d →
    ∃ d'', ((cs.filter fun c => decide (d.pos c < k)).map d.pos).foldlM (loadConstraint decl) d' = .ok d'' ∧
      Rebuilt k d'' d ∧ d''.m.g.objective = d'.m.g.objective ∧
      d''.m.g.constraints.map d.at_ =
        d'.m.g.constraints.map d.at_ ++ cs.filter fun c => decide (c ∈ d.m.g.nodes.take k) := by
  induction cs with
  | nil => intro d' _ h; exact ⟨d', rfl, h, rfl, by simp⟩
  | cons o cs ih =>
    intro d' hcs h
    have hoc := hcs o (by simp)
    have hon := w.conMem o hoc
    obtain ⟨h1, h2, h3⟩ := at_pos w hs hon
    have hmem : o ∈ d.m.g.nodes.take k ↔ d.pos o < k := by
      rw [take_at h.mirror.le]
      constructor
      · intro hm
        obtain ⟨j, hj, e⟩ := List.mem_map.1 hm
        have hj := List.mem_range.1 hj
        have := h.mirror.le
        rw [← e, pos_at w hs (by omega)]
        omega
      · intro hlt
        exact List.mem_map.2 ⟨(d.pos o).toNat, List.mem_range.2 (by omega), h3⟩
    by_cases c : d.pos o < k
    · have hi : (d.pos o).toNat < k := by omega
      have hat := h.mirror.at_ hi
      obtain ⟨hA, hsc, hlg⟩ := ht.constraints o hoc
      obtain ⟨d2, e2, r2, o2, c2⟩ := h.constrain hloc w.nodup hi (by rw [h3]; exact hsc) (by rw [h3]; exact hlg)
      obtain ⟨d3, e3, r3, o3, c3⟩ := ih (fun c hc => hcs c (by simp [hc])) r2
      refine ⟨d3, ?_, r3, o3.trans o2, ?_⟩
      · rw [List.filter_cons, if_pos (by simpa using c), List.map_cons, List.foldlM_cons]
        have : loadConstraint decl d' (d.pos o) = .ok d2 := by
          unfold loadConstraint
          rw [guardUB_true ⟨h1, by rw [h.mirror.nodes]; simpa using hi⟩, Res.ok_bind, hat,
            guardThrow_true (by rw [(h.mirror.kind _ hi).isArray, h3]; exact hA), Res.ok_bind, e2]
        rw [this, Res.ok_bind, e3]
      · rw [c3, c2, List.filter_cons, if_pos (by simpa using hmem.2 c), List.map_append, List.map_cons, h3]
        simp
    · obtain ⟨d3, e3, r3, o3, c3⟩ := ih (fun c hc => hcs c (by simp [hc])) h
      refine ⟨d3, ?_, r3, o3, ?_⟩
      · rw [List.filter_cons, if_neg (by simpa using c), e3]
      · rw [c3, List.filter_cons, if_neg (by simpa using fun hm => c (hmem.1 hm))]

/-! ## States -/

/-- A valid value of a decision is accepted and kept. -/
theorem decision_state {k : Kind} {ps : List (List (List Int))} {out : List (List Int)} (hd : k.isDecision = true)
    (hm : k.make ps = .ok out) {x : Val} (hx : (k.node ps out).ok [x]) :
    (k.isArray = true → ∃ a, x = [a]) ∧ (k.isArray = false → x.length = k.numParts) ∧
      ∃ s, (k.node ps out).init [x] = .ok s ∧ (k.node ps out).view s = x := by
  cases k <;> simp only [Kind.isDecision, Bool.false_eq_true] at hd
  case integer shape lo hi =>
    obtain ⟨s, e, r, _⟩ := (integerLaw shape (Kind.numNode shape lo hi)).init hx
    refine ⟨fun _ => ?_, fun h => (by cases h), s, e, (integerLaw shape (Kind.numNode shape lo hi)).view r⟩
    obtain ⟨data, h, _⟩ := hx
    exact ⟨⟨shape, data⟩, by simpa using h⟩
  case binaryVar shape =>
    obtain ⟨s, e, r, _⟩ := (binaryLaw shape shape.prod.toNat).init hx
    refine ⟨fun _ => ?_, fun h => (by cases h), s, e, (binaryLaw shape shape.prod.toNat).view r⟩
    obtain ⟨data, h, _⟩ := hx
    exact ⟨⟨shape, data⟩, by simpa using h⟩
  case collection n lo hi =>
    have hc : ∃ c, CollNode.make n lo hi = .ok c := by
      match ps with
      | [] =>
        simp only [Kind.make, Res.bind_eq_ok] at hm
        obtain ⟨c, hc, _⟩ := hm
        exact ⟨c, hc⟩
      | _ :: _ => simp [Kind.make] at hm
    obtain ⟨c, hc⟩ := hc
    have e0 : Kind.collNode n lo hi = c := by
      have hc' := hc
      simp only [CollNode.make] at hc'
      obtain ⟨_, _, hc'⟩ := Res.bind_eq_ok.1 hc'
      obtain ⟨_, _, hc'⟩ := Res.bind_eq_ok.1 hc'
      obtain ⟨_, _, hc'⟩ := Res.bind_eq_ok.1 hc'
      simp only [Res.pure_eq, Res.ok.injEq] at hc'
      exact hc'
    simp only [Kind.node, e0] at hx ⊢
    obtain ⟨s, e, r, _⟩ := (collectionLaw hc).init hx
    refine ⟨fun _ => ?_, fun h => (by cases h), s, e, (collectionLaw hc).view r⟩
    obtain ⟨data, h, _⟩ := hx
    exact ⟨⟨_, data⟩, by simpa using h⟩
  case disjointLists P N =>
    obtain ⟨s, e, r, _⟩ := (listsLaw P.toNat N.toNat).init hx
    refine ⟨fun h => (by cases h), fun _ => ?_, s, e, (listsLaw P.toNat N.toNat).view r⟩
    obtain ⟨lists, h, hl, _⟩ := hx
    obtain rfl : x = _ := by simpa using h
    simpa [Kind.numParts] using hl
  case disjointBitSets P N =>
    obtain ⟨s, e, r, _⟩ := (bitSetsLaw P.toNat N.toNat).init hx
    refine ⟨fun h => (by cases h), fun _ => ?_, s, e, (bitSetsLaw P.toNat N.toNat).view r⟩
    obtain ⟨lists, h, hl, _⟩ := hx
    obtain rfl : x = _ := by simpa using h
    simpa [Kind.numParts] using hl

theorem Mirror.sem {k : Nat} {d' : Draft} (h : Mirror k d' d) {i : Nat} (hi : i < k)
    (hd : (d.S.kind (d.at_ i)).isDecision = true) : d'.S.sem d'.m.g i = d.S.sem d.m.g (d.at_ i) := by
  have hk := h.kind i hi
  have e : d'.S.inShapes d'.m.g i = d.S.inShapes d.m.g (d.at_ i) := by
    unfold Symbols.inShapes
    rw [h.preds i hi, List.map_map]
    exact List.map_congr_left fun p hp => h.shapes p (by have := h.below i hi p hp; omega)
  unfold Symbols.sem
  rw [hk.node (by rw [hk.isDecision]; exact hd), e, h.shapes i hi]

theorem Rebuilt.state (w : d.m.g.WF) (hM : d.Made) (hO : d.Orderly) {k : Nat} {d' : Draft}
    (h : Rebuilt k d' d) {i : Nat} (hi : i < k) (hdec : d.at_ i ∈ d.m.g.decisions) {A : Option Val}
    (hA : d.StateFits (d.at_ i) A) : d'.loadState i (d.savedState A (d.at_ i)) = .ok A := by
  have hin : i < d.m.g.nodes.length := by have := h.mirror.le; omega
  have hv := at_mem hin
  have hd : (d.S.kind (d.at_ i)).isDecision = true := (hM.decisions _ hv).1 hdec
  have hk := h.mirror.kind i hi
  have hsem := h.mirror.sem hi hd
  unfold loadState savedState
  rw [hk.isArray, hsem, hk.isDecision, hk.numParts]
  cases A with
  | none =>
    have hA' : (d.S.kind (d.at_ i)).isArray = true := by
      by_contra hc
      exact (hA.2 (by simpa using hc)).1 rfl
    simp only [hA', if_true]
  | some x =>
    obtain ⟨h1, h2, s, hs1, hs2⟩ := decision_state hd (hM.made _ hv) (hA.1 x rfl)
    by_cases hA' : (d.S.kind (d.at_ i)).isArray = true
    · obtain ⟨a, rfl⟩ := h1 hA'
      simp only [hA', if_true, List.take_succ_cons, List.take_zero]
      rw [guardThrow_true hd, Res.ok_bind, hs1, Res.ok_bind, hs2]
    · have hA'' : (d.S.kind (d.at_ i)).isArray = false := by simpa using hA'
      have hlen := h2 hA''
      have hsl := (hA.2 hA'').2
      have hfiles : ((d.m.g.mem (d.at_ i)).succs.map fun w => match d.S.kind w with
          | .output j => x.getD j ⟨[], []⟩
          | _ => (⟨[], []⟩ : Arr Rat)) = x := by
        refine List.ext_getElem? fun j => ?_
        rw [List.getElem?_map]
        by_cases hj : j < x.length
        · have hjs : j < (d.m.g.mem (d.at_ i)).succs.length := by omega
          rw [List.getElem?_eq_getElem hjs, Option.map_some, List.getElem?_eq_getElem hj,
            hO.numbered _ hv hA'' j _ (List.getElem?_eq_getElem hjs)]
          simp [List.getD_eq_getElem?_getD, hj]
        · rw [List.getElem?_eq_none (by omega), List.getElem?_eq_none (by omega)]; rfl
      simp only [hA'', Bool.false_eq_true, if_false]
      generalize hF : List.map _ (d.m.g.mem (d.at_ i)).succs = F
      have hF' : F = x := by rw [← hF]; exact hfiles
      rw [hF', guardThrow_true (by omega), Res.ok_bind, List.take_of_length_le (by omega), hs1, Res.ok_bind, hs2]

/-! ## The header -/

theorem mapM_congr {α β : Type} {f g : α → Res β} : ∀ {l : List α}, (∀ x ∈ l, f x = g x) → l.mapM f = l.mapM g
  | [], _ => rfl
  | x :: l, h => by
    rw [List.mapM_cons, List.mapM_cons, h x (by simp), mapM_congr fun y hy => h y (by simp [hy])]

theorem Mirror.sizeOfStates {k : Nat} {d' : Draft} (h : Mirror k d' d) (hn : d.m.g.nodes.Nodup) {l : List Nat}
    (hl : ∀ i ∈ l, i < k ∧ ((d.S.kind (d.at_ i)).isArray = true → k = d.m.g.nodes.length ∨
      (∃ n lo hi, d.S.kind (d.at_ i) = .collection n lo hi) ∨
      dynamicShape (Kind.shape1 (d.S.shapes (d.at_ i))) = false)) :
    d'.S.sizeOfStates d'.m.g l = d.S.sizeOfStates d.m.g (l.map d.at_) := by
  unfold Symbols.sizeOfStates
  rw [List.mapM_map, mapM_congr fun i hi => h.stateSize hn (hl i hi).1 (hl i hi).2]
  rfl

theorem not_dynamic {s : List Int} (h : ∀ n ∈ s, 0 ≤ n) : dynamicShape s = false := by
  cases s with
  | nil => rfl
  | cons a s => have := h a (by simp); simp [dynamicShape]; omega

theorem decision_size {k : Kind} {out : List (List Int)} {ps : List (List (List Int))} (hd : k.isDecision = true)
    (hm : k.make ps = .ok out) {a b : Bool} (hp : k.FromPython a b) (hA : k.isArray = true) :
    (∃ n lo hi, k = .collection n lo hi) ∨ dynamicShape (Kind.shape1 out) = false := by
  cases k <;> simp only [Kind.isDecision, Kind.isArray, Bool.false_eq_true] at hd hA
  case integer shape lo hi =>
    match ps, hm with
    | [], hm =>
      simp only [Kind.make, Res.bind_eq_ok, Res.ok.injEq] at hm
      obtain ⟨_, _, hm⟩ := hm
      subst hm
      exact .inr (not_dynamic hp)
  case binaryVar shape =>
    match ps, hm with
    | [], hm =>
      simp only [Kind.make, Res.bind_eq_ok, Res.ok.injEq] at hm
      obtain ⟨_, _, hm⟩ := hm
      subst hm
      exact .inr (not_dynamic hp)
  case collection n lo hi => exact .inl ⟨n, lo, hi, rfl⟩

theorem Rebuilt.header (w : d.m.g.WF) (hd : d.Savable decl isList) {only : Bool} {d' : Draft}
    (h : Rebuilt (d.stop only) d' d) (n : Nat) : d'.headerData false n = d.headerData only n := by
  obtain ⟨hle, hdn⟩ := decisions_at w hd.sorted
  have w' := h.made.inv.wf
  have hdl : ∀ i ∈ d'.m.g.decisions, i < d.stop only := by
    intro i hi
    have := w'.decMem i hi
    rw [h.mirror.nodes] at this
    simpa using this
  have hsz : ∀ i < d.stop only, d.at_ i ∈ d.m.g.decisions → (d.S.kind (d.at_ i)).isArray = true →
      d.stop only = d.m.g.nodes.length ∨
      (∃ n lo hi, d.S.kind (d.at_ i) = .collection n lo hi) ∨
      dynamicShape (Kind.shape1 (d.S.shapes (d.at_ i))) = false := by
    intro i hi hdec hA
    have hv := at_mem (show i < d.m.g.nodes.length by have := h.mirror.le; omega)
    exact .inr (decision_size ((hd.made.decisions _ hv).1 hdec) (hd.made.made _ hv) (hd.python _ hv) hA)
  have hle2 : d.m.g.decisions.length ≤ d.stop only := by
    unfold stop; split
    · exact le_refl _
    · exact hle
  have hdm : d'.m.g.decisions.map d.at_ = d.m.g.decisions := by
    rw [h.mirror.decisions, List.take_of_length_le hle2]
  have hdd : d'.S.sizeOfStates d'.m.g d'.m.g.decisions = d.S.sizeOfStates d.m.g d.m.g.decisions := by
    rw [h.mirror.sizeOfStates w.nodup (fun i hi => ⟨hdl i hi, hsz i (hdl i hi) ?_⟩), hdm]
    rw [← hdm]
    exact List.mem_map_of_mem hi
  unfold headerData
  rw [hdd]
  have hnn : d'.S.sizeOfStates d'.m.g d'.m.g.nodes = d.S.sizeOfStates d.m.g (d.m.g.nodes.take (d.stop only)) := by
    rw [h.mirror.nodes, h.mirror.sizeOfStates w.nodup (fun i hi => ⟨List.mem_range.1 hi, ?_⟩), take_at h.mirror.le]
    intro hA
    cases only with
    | false => exact .inl rfl
    | true =>
      refine hsz i (List.mem_range.1 hi) ?_ hA
      have hi := List.mem_range.1 hi
      exact (decision_iff w hd.sorted (by have := h.mirror.le; omega)).2 hi
  have e : ∀ x, d'.savedSize false x = d'.S.sizeOfStates d'.m.g d'.m.g.nodes := fun x => rfl
  have hlen : d'.m.g.nodes.length = d.stop only := by rw [h.mirror.nodes, List.length_range]
  simp only [e, hnn, hlen]
  cases only with
  | false =>
    have : d.stop false = d.m.g.nodes.length := rfl
    rw [this, List.take_length]
    rfl
  | true =>
    have : d.stop true = d.m.g.decisions.length := rfl
    rw [this, ← hdn]
    cases d.S.sizeOfStates d.m.g d.m.g.decisions <;> rfl

/-! ## The whole file -/

theorem save_load (hloc : LocalDecl decl) (hd : d.Savable decl isList) (ht : d.Targets decl) {only : Bool}
    {numStates : Nat} {states : Nat → Nat → Option Val}
    (hst : ∀ j < numStates, ∀ v ∈ d.m.g.decisions, d.StateFits v (states j v)) {a : Archive}
    (hsv : d.save isList only numStates states = .ok a) (check : Bool) :
    ∃ l, a.load decl check = .ok l ∧ Rebuilt (d.stop only) l.d d ∧
      l.d.m.g.objective.map d.at_ =
        d.m.g.objective.filter (fun o => decide (o ∈ d.m.g.nodes.take (d.stop only))) ∧
      l.d.m.g.constraints.map d.at_ =
        d.m.g.constraints.filter (fun c => decide (c ∈ d.m.g.nodes.take (d.stop only))) ∧
      l.numStates = numStates ∧
      l.states = (List.range d.m.g.decisions.length).map fun i =>
        (List.range numStates).map fun j => states j (d.at_ i) := by
  have w := hd.made.inv.wf
  obtain ⟨hle, hdn⟩ := decisions_at w hd.sorted
  have hk : d.stop only ≤ d.m.g.nodes.length := by
    unfold stop; split
    · exact hle
    · exact le_refl _
  have hle2 : d.m.g.decisions.length ≤ d.stop only := by
    unfold stop; split
    · exact le_refl _
    · exact hle
  unfold save at hsv
  obtain ⟨hdr, hh, hsv⟩ := Res.bind_eq_ok.1 hsv
  simp only [Res.ok.injEq] at hsv
  have hnn : 0 ≤ hdr.numNodes ∧ hdr.numStates = numStates := by
    unfold headerData at hh
    obtain ⟨_, _, hh⟩ := Res.bind_eq_ok.1 hh
    obtain ⟨_, _, hh⟩ := Res.bind_eq_ok.1 hh
    simp only [Res.ok.injEq] at hh
    subst hh
    refine ⟨?_, rfl⟩
    dsimp only
    split <;> omega
  obtain ⟨d1, e1, h1⟩ := load_from hloc hd (payload := fun i => (d.item isList (d.at_ i)).2) (fun i => rfl) hk
    (d.stop only) 0 Draft.new (by omega) (loading_new d)
  obtain ⟨d2, e2, r2, o2, c2⟩ := Rebuilt.objective w hd.sorted ht
    (⟨h1.made, h1.orderly, h1.unsorted, h1.mirror⟩ : Rebuilt (d.stop only) d1 d) h1.objective
  obtain ⟨d3, e3, r3, o3, c3⟩ := Rebuilt.constraints hloc w hd.sorted ht d.m.g.constraints (fun c hc => hc) r2
  have w3 := r3.made.inv.wf
  have hdm : d3.m.g.decisions.map d.at_ = d.m.g.decisions := by
    rw [r3.mirror.decisions, List.take_of_length_le hle2]
  have hdl : d3.m.g.decisions.length = d.m.g.decisions.length := by rw [← hdm, List.length_map]
  have hd3 : d3.m.g.decisions = List.range d.m.g.decisions.length := by
    have hlt : ∀ i ∈ d3.m.g.decisions, i < d.stop only := by
      intro i hi
      have := w3.decMem i hi
      rw [r3.mirror.nodes] at this
      simpa using this
    refine List.ext_getElem (by rw [hdl, List.length_range]) fun i h1 h2 => ?_
    have hi : i < d.m.g.decisions.length := by omega
    obtain ⟨hin, e⟩ := decision_at w hd.sorted hi
    have e2 : d.at_ d3.m.g.decisions[i] = d.m.g.decisions[i] := by
      have : (d3.m.g.decisions.map d.at_)[i]? = d.m.g.decisions[i]? := by rw [hdm]
      rw [List.getElem?_map, List.getElem?_eq_getElem h1, List.getElem?_eq_getElem hi] at this
      simpa using this
    have := r3.mirror.inj w.nodup _ (hlt _ (List.getElem_mem h1)) i (by omega) (e2.trans e)
    simpa using this
  have hpos : ∀ i < d.m.g.decisions.length, d3.pos i = i := by
    intro i hi
    have hi3 : i < d3.m.g.decisions.length := by omega
    have := w3.decTopo i hi3
    have e : d3.m.g.decisions[i] = i := by simp [hd3]
    rw [e] at this
    exact this
  have e4 : ((d3.m.g.nodes.take d3.m.g.decisions.length).mapM fun v =>
      (List.range numStates).mapM fun j => d3.loadState v (a.state (d3.pos v) j)) =
      .ok ((List.range d.m.g.decisions.length).map fun i =>
        (List.range numStates).map fun j => states j (d.at_ i)) := by
    rw [hdl, r3.mirror.nodes]
    have : (List.range (d.stop only)).take d.m.g.decisions.length = List.range d.m.g.decisions.length := by
      rw [List.take_range, Nat.min_eq_left hle2]
    rw [this]
    refine mapM_ok _ _ _ fun i hi => ?_
    have hi := List.mem_range.1 hi
    refine mapM_ok _ _ _ fun j hj => ?_
    have hj := List.mem_range.1 hj
    have hdec : d.at_ i ∈ d.m.g.decisions := (decision_iff w hd.sorted (by omega)).2 hi
    rw [hpos i hi, ← hsv]
    simp only [Int.toNat_natCast]
    rw [if_pos ⟨by omega, hi, hj⟩]
    exact r3.state w hd.made hd.orderly (by omega) hdec (hst j hj _ hdec)
  refine ⟨⟨d3, numStates, (List.range d.m.g.decisions.length).map fun i =>
    (List.range numStates).map fun j => states j (d.at_ i)⟩, ?_, r3, ?_, ?_, rfl, rfl⟩
  · have hi : a.info = hdr := by rw [← hsv]
    have hhd : a.header = hdr := by rw [← hsv]
    have ht : (a.types.zip (splitLines a.adj)).zipIdx = (List.range' 0 (d.stop only)).map (d.entry isList) := by
      rw [← entries w hd.sorted hk, ← hsv]
      rfl
    have hp : a.payload = fun i => (d.item isList (d.at_ i)).2 := by rw [← hsv]; rfl
    have ho : a.objective = (d.m.g.objective.filter fun o => decide (d.pos o < d.stop only)).map d.pos := by
      rw [← hsv]
      simp only [stop]
      cases only <;> rfl
    have hc : a.constraints = (d.m.g.constraints.filter fun o => decide (d.pos o < d.stop only)).map d.pos := by
      rw [← hsv]
      simp only [stop]
      cases only <;> rfl
    unfold Archive.load
    rw [hi, hhd, ht, hp, ho, hc, hnn.2, guardThrow_true hnn.1, Res.ok_bind, e1, Res.ok_bind, e2, Res.ok_bind, e3,
      Res.ok_bind, guardThrow_true (by omega), Res.ok_bind]
    simp only [Int.toNat_natCast]
    rw [e4, Res.ok_bind]
    cases check with
    | false => rfl
    | true =>
      rw [if_pos rfl, r3.header w hd numStates, hh, Res.ok_bind, guardThrow_true rfl]
      rfl
  · rw [o3, o2]
  · rw [c3, c2, h1.constraints]
    rfl

end Draft
end Verif
