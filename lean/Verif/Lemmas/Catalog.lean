import Verif.Lemmas.CatalogDecisions
import Verif.Props.Unary
import Verif.Props.Binary
import Verif.Props.Nary
import Verif.Props.PartialReduce
import Verif.Props.Reduce
import Verif.Props.ReshapeSize
import Verif.Props.Where
import Verif.Props.Quadratic

set_option linter.unusedSectionVars false
set_option linter.unusedSimpArgs false
set_option linter.unusedVariables false

/-! Helper lemmas: every kind of symbol of the catalog keeps its contract and fits to the others. -/

namespace Verif

/-- The value has the given shapes, and as many elements as they say. -/
def HasShapes (ss : List (List Int)) (v : Val) : Prop := v.map Arr.shape = ss ∧ ∀ a ∈ v, a.WF

theorem HasShapes.one {s : List Int} {v : Val} (h : HasShapes [s] v) :
    ∃ a, v = [a] ∧ a.shape = s ∧ a.WF := by
  obtain ⟨h1, h2⟩ := h
  obtain ⟨a, rfl, ha⟩ := map_shape_one h1
  exact ⟨a, rfl, ha, h2 a (by simp)⟩

theorem hasShapes_single {a : Arr Rat} (h : a.WF) : HasShapes [a.shape] [a] := ⟨rfl, by simpa using h⟩

/-- What is needed of a symbol that is not a decision. -/
structure NodeFacts (N : NodeSem Val Dif) (ps : List (List (List Int))) (out : List (List Int)) : Prop where
  contract : ∃ C : Settled [] N, C.Propagates ValRel
  out : ∀ xs, N.ok xs → HasShapes out (N.f xs)
  accepts : ∀ xs, List.Forall₂ HasShapes ps xs → N.ok xs

/-- What is needed of a decision. -/
structure DecisionFacts (N : NodeSem Val Dif) (step : N.σ → Move → Res N.σ) (out : List (List Int)) :
    Prop where
  law : Nonempty (DecisionLaw N step)
  out : ∀ xs, N.ok xs → HasShapes out (N.f xs)

/-- Array symbols over array symbols. -/
theorem liftFacts {N : NodeSem (Arr Rat) (List (Update Rat))} (C : Contract ArrRel [] N)
    {ss : List (List Int)} {s : List Int}
    (hout : ∀ xs, (∀ x ∈ xs, x.WF) → N.ok xs → (N.f xs).shape = s ∧ (N.f xs).WF)
    (hacc : ∀ xs : List (Arr Rat), xs.map Arr.shape = ss → (∀ x ∈ xs, x.WF) → N.ok xs) :
    NodeFacts (liftNode N) (ss.map fun s => [s]) [s] := by
  refine ⟨⟨(liftContract C).toSettled, (liftContract C).propagates⟩, ?_, ?_⟩
  · rintro xs ⟨h1, h2⟩
    obtain ⟨h3, h4⟩ := hout (xs.map single) (by
      intro a ha
      obtain ⟨x, hx, rfl⟩ := List.mem_map.1 ha
      exact (h1 x hx).2) h2
    refine ⟨by simp [h3], by simpa using h4⟩
  · intro xs h
    have key : ∀ {ss : List (List Int)} {xs : List Val}, List.Forall₂ HasShapes (ss.map fun s => [s]) xs →
        (∀ x ∈ xs, x.length = 1 ∧ (single x).WF) ∧ (xs.map single).map Arr.shape = ss := by
      intro ss
      induction ss with
      | nil => intro xs h; cases h; simp
      | cons s ss ih =>
        intro xs h
        rw [List.map_cons] at h
        cases h with
        | cons h1 h2 =>
          obtain ⟨a, rfl, ha, hw⟩ := h1.one
          obtain ⟨k1, k2⟩ := ih h2
          refine ⟨?_, by simp only [List.map_cons, k2]; simp [single, ha]⟩
          intro x hx
          rcases List.mem_cons.1 hx with rfl | hx
          · exact ⟨rfl, hw⟩
          · exact k1 x hx
    obtain ⟨k1, k2⟩ := key h
    refine ⟨k1, hacc _ k2 ?_⟩
    intro a ha
    obtain ⟨x, hx, rfl⟩ := List.mem_map.1 ha
    exact (k1 x hx).2

theorem arrayShape_ok {p : List (List Int)} {s : List Int} (h : Kind.arrayShape p = .ok s) : p = [s] := by
  match p, h with
  | [t], h => simp [Kind.arrayShape] at h; rw [h]

theorem wf_scalar (v : Rat) : (⟨[], [v]⟩ : Arr Rat).WF := by
  simp [Arr.WF, Arr.dynamic, dynamicShape]

/-- `WF` only looks at shape and length. -/
theorem wf_of_length {a b : Arr Rat} (hs : a.shape = b.shape) (hl : a.data.length = b.data.length)
    (h : a.WF) : b.WF := by
  unfold Arr.WF Arr.dynamic at *
  rw [← hs, ← hl]; exact h

/-! ## Broadcasting with a one-element array -/

theorem prod_one_of_nonneg : ∀ {s : List Int}, (∀ d ∈ s, 0 ≤ d) → s.prod = 1 → ∀ d ∈ s, d = 1
  | [], _, _ => by simp
  | e :: s, h, hp => by
    rw [List.prod_cons] at hp
    have h0 := h e List.mem_cons_self
    have h1 : e = 1 := by
      rcases Int.mul_eq_one_iff_eq_one_or_neg_one.1 hp with h | h
      · exact h.1
      · omega
    intro d hd
    rcases List.mem_cons.1 hd with rfl | hd
    · exact h1
    · refine prod_one_of_nonneg (fun d hd => h d (List.mem_cons_of_mem _ hd)) ?_ d hd
      rw [h1] at hp; simpa using hp

theorem broadcastRev_ones : ∀ {l r s : List Int}, (∀ d ∈ l, d = 1) → broadcastRev l r = .ok s →
    s = r ++ List.replicate (l.length - r.length) 1
  | [], r, s, _, h => by
    cases r <;> (simp [broadcastRev] at h; simp [← h])
  | e :: l, [], s, h1, h => by
    simp [broadcastRev] at h
    rw [← h]
    simp only [List.nil_append]
    exact List.eq_replicate_iff.2 ⟨by simp, h1⟩
  | e :: l, r :: rs, s, h1, h => by
    have he := h1 e List.mem_cons_self
    have hl : ∀ d ∈ l, d = 1 := fun d hd => h1 d (List.mem_cons_of_mem _ hd)
    simp only [broadcastRev] at h
    subst he
    by_cases h2 : 1 = r
    · rw [if_pos h2] at h
      subst h2
      obtain ⟨t, ht, h⟩ := Res.bind_eq_ok.1 h
      simp at h; subst h
      rw [broadcastRev_ones hl ht]
      simp
    · rw [if_neg h2, if_pos rfl] at h
      obtain ⟨t, ht, h⟩ := Res.bind_eq_ok.1 h
      simp at h; subst h
      rw [broadcastRev_ones hl ht]
      simp

theorem broadcastRev_comm : ∀ {l r s : List Int}, broadcastRev l r = .ok s → broadcastRev r l = .ok s
  | [], [], s, h => h
  | [], r :: rs, s, h => by simpa [broadcastRev] using h
  | e :: l, [], s, h => by simpa [broadcastRev] using h
  | e :: l, r :: rs, s, h => by
    simp only [broadcastRev] at h ⊢
    have key : ∀ x, (broadcastRev l rs >>= fun t => Res.ok (x :: t)) = Res.ok s →
        (broadcastRev rs l >>= fun t => Res.ok (x :: t)) = Res.ok s := by
      intro x hx
      obtain ⟨t, ht, he⟩ := Res.bind_eq_ok.1 hx
      rw [broadcastRev_comm ht]; exact he
    by_cases h1 : e = r
    · rw [if_pos h1] at h
      rw [if_pos h1.symm, ← h1]; exact key e h
    · rw [if_neg h1] at h
      rw [if_neg (Ne.symm h1)]
      by_cases h2 : e = 1
      · rw [if_pos h2] at h
        by_cases h3 : r = 1
        · exact absurd (h2.trans h3.symm) h1
        · rw [if_neg h3, if_pos h2]; exact key r h
      · rw [if_neg h2] at h
        by_cases h3 : r = 1
        · rw [if_pos h3] at h
          rw [if_pos h3]; exact key e h
        · rw [if_neg h3] at h; cases h

theorem broadcastRev_self : ∀ {l s : List Int}, broadcastRev l l = .ok s → s = l
  | [], s, h => by simp [broadcastRev] at h; exact h
  | e :: l, s, h => by
    simp only [broadcastRev, if_true] at h
    obtain ⟨t, ht, he⟩ := Res.bind_eq_ok.1 h
    simp at he; subst he
    rw [broadcastRev_self ht]

/-- Broadcast against a one-element array `l`: the shape of `r` with ones in front (none if `r` is
dynamic). -/
theorem wf_broadcast {l r s : List Int} (hg : GoodShape l) (h1 : sizeOne l = true)
    (h : broadcastRev l.reverse r.reverse = .ok s) (hd : dynamicShape r = true → l.length < r.length)
    {a : Arr Rat} (ha : a.shape = r) (hw : a.WF) {data : List Rat} (hl : data.length = a.data.length) :
    (⟨s.reverse, data⟩ : Arr Rat).WF := by
  simp only [sizeOne, Bool.and_eq_true, Bool.not_eq_true', decide_eq_true_eq] at h1
  have hones : ∀ d ∈ l, d = 1 := by
    refine prod_one_of_nonneg ?_ h1.2
    intro d hd
    cases l with
    | nil => cases hd
    | cons e l =>
      have := h1.1
      simp only [dynamicShape, decide_eq_false_iff_not, not_lt] at this
      rcases List.mem_cons.1 hd with rfl | hd
      · exact this
      · exact hg.1 d (by simpa using hd)
  have hs := broadcastRev_ones (by intro d hd; exact hones d (by simpa using hd)) h
  have hs' : s.reverse = List.replicate (l.length - r.length) 1 ++ r := by
    rw [hs]; simp
  rw [hs']
  cases hr : dynamicShape r with
  | true =>
    have := hd hr
    rw [show l.length - r.length = 0 by omega]
    exact wf_of_length (a := a) (by simpa using ha) hl.symm hw
  | false =>
    have hlen := hw.length_fixed (show dynamicShape a.shape = false by rw [ha]; exact hr)
    have hdyn : dynamicShape (List.replicate (l.length - r.length) 1 ++ r) = false := by
      cases hk : l.length - r.length with
      | zero => simpa using hr
      | succ k => simp [List.replicate_succ, dynamicShape]
    simp only [Arr.WF, Arr.dynamic, hdyn, List.prod_append, List.prod_replicate, one_pow, one_mul]
    rw [if_neg (by simp), hl, hlen, ha]

theorem binary_out {func : Rat → Rat → Rat} {ls rs shape : List Int} (h : BinaryShapes ls rs shape)
    (gl : GoodShape ls) (gr : GoodShape rs) {l r : Arr Rat} (hl : l.shape = ls) (hr : r.shape = rs)
    (wl : l.WF) (wr : r.WF) : (⟨shape, binaryValue func l r⟩ : Arr Rat).WF := by
  obtain ⟨t, ht, hg⟩ := Res.bind_eq_ok.1 h.accepted
  obtain ⟨_, hc, he⟩ := Res.bind_eq_ok.1 hg
  have hc := guardThrow_eq_ok.1 hc
  simp only [Res.ok.injEq] at he
  subst he
  obtain ⟨u, hu, he⟩ := Res.bind_eq_ok.1 ht
  simp only [Res.ok.injEq] at he
  subst he
  unfold binaryValue
  by_cases h1 : sizeOne ls = true
  · rw [hl, if_pos h1]
    exact wf_broadcast gl h1 hu h.right hr wr (by simp)
  · rw [hl, if_neg h1]
    by_cases h2 : sizeOne rs = true
    · rw [hr, if_pos h2]
      exact wf_broadcast gr h2 (broadcastRev_comm hu) h.left hl wl (by simp)
    · rw [hr, if_neg h2]
      obtain ⟨h3, h4⟩ := (hc.resolve_left h1).resolve_left h2
      subst h4
      have := broadcastRev_self hu
      subst this
      have hdyn : dynamicShape ls = false := by
        cases hd : dynamicShape ls with
        | false => rfl
        | true => exact absurd (Or.inl hd) h3
      have e1 := wl.length_fixed (show dynamicShape l.shape = false by rw [hl]; exact hdyn)
      have e2 := wr.length_fixed (show dynamicShape r.shape = false by rw [hr]; exact hdyn)
      rw [hl] at e1
      rw [hr] at e2
      refine wf_of_length (a := l) (by simpa using hl) ?_ wl
      simp only [List.length_zipWith]
      omega

theorem dims_pos {s : List Int} (hg : GoodShape s) (hd : dynamicShape s = false) (hp : 1 ≤ s.prod) :
    ∀ d ∈ s, 0 < d := by
  intro d hm
  have h0 : 0 ≤ d := by
    cases s with
    | nil => cases hm
    | cons e s =>
      simp only [dynamicShape, decide_eq_false_iff_not, not_lt] at hd
      rcases List.mem_cons.1 hm with rfl | hm
      · exact hd
      · exact hg.1 d (by simpa using hm)
  rcases Int.lt_or_eq_of_le h0 with h | h
  · exact h
  · have : s.prod = 0 := by
      obtain ⟨a, b, rfl⟩ := List.append_of_mem hm
      simp [← h]
    omega

theorem prod_nonneg_list : ∀ {s : List Int}, (∀ d ∈ s, 0 ≤ d) → 0 ≤ s.prod
  | [], _ => by simp
  | e :: s, h => by
    rw [List.prod_cons]
    exact Int.mul_nonneg (h e List.mem_cons_self) (prod_nonneg_list fun d hd => h d (List.mem_cons_of_mem _ hd))

theorem GoodShape.prod_nonneg {s : List Int} (hg : GoodShape s) (hd : dynamicShape s = false) : 0 ≤ s.prod := by
  apply prod_nonneg_list
  intro d hm
  cases s with
  | nil => cases hm
  | cons e s =>
    simp only [dynamicShape, decide_eq_false_iff_not, not_lt] at hd
    rcases List.mem_cons.1 hm with rfl | hm
    · exact hd
    · exact hg.1 d (by simpa using hm)

/-! ## Every kind -/

theorem number_out {shape : List Int} (hg : GoodShape shape) (hd : dynamicShape shape = false) (lo hi : Int) :
    ∀ xs, (numberNode shape ⟨shape.prod.toNat, lo, hi⟩).ok xs →
      HasShapes [shape] ((numberNode shape ⟨shape.prod.toNat, lo, hi⟩).f xs) := by
  rintro xs ⟨data, rfl, hl, _⟩
  refine ⟨rfl, ?_⟩
  intro a ha
  obtain rfl : a = ⟨shape, data⟩ := by simpa using ha
  have := hg.prod_nonneg hd
  have hl : data.length = shape.prod.toNat := hl
  simp only [Arr.WF, Arr.dynamic, hd]
  rw [if_neg (by simp), hl]
  omega

theorem collection_out {c : CollNode} : ∀ xs, (collectionNode c).ok xs →
    HasShapes [collShape c] ((collectionNode c).f xs) := by
  rintro xs ⟨data, rfl, _, _, h1, h2⟩
  refine ⟨rfl, ?_⟩
  intro a ha
  obtain rfl : a = ⟨collShape c, data⟩ := by simpa using ha
  simp only [Arr.WF, Arr.dynamic, collShape_dynamic]
  cases hd : c.dynamic with
  | true => simp [collShape, hd, rowSize]
  | false =>
    have : c.minSize = c.maxSize := by simpa [CollNode.dynamic] using hd
    rw [if_neg (by simp)]
    simp only [collShape, hd, Bool.false_eq_true, if_false, List.prod_cons, List.prod_nil, mul_one]
    omega

theorem lists_out {P N : Nat} : ∀ xs, (listsNode P N).ok xs →
    HasShapes (List.replicate N [-1]) ((listsNode P N).f xs) := by
  rintro xs ⟨lists, rfl, rfl, _⟩
  refine ⟨?_, ?_⟩
  · show (lists.map fun l => (⟨[-1], l⟩ : Arr Rat)).map Arr.shape = _
    rw [List.map_map]
    exact List.map_const'
  · intro a ha
    obtain ⟨l, _, rfl⟩ := List.mem_map.1 (show a ∈ lists.map fun l => (⟨[-1], l⟩ : Arr Rat) from ha)
    simp [Arr.WF, Arr.dynamic, dynamicShape, rowSize]

theorem bitSets_out {P N : Nat} : ∀ xs, (bitSetsNode P N).ok xs →
    HasShapes (List.replicate N [(P : Int)]) ((bitSetsNode P N).f xs) := by
  rintro xs ⟨sets, rfl, rfl, hp⟩
  refine ⟨?_, ?_⟩
  · show (sets.map fun l => (⟨[(P : Int)], l⟩ : Arr Rat)).map Arr.shape = _
    rw [List.map_map]
    exact List.map_const'
  · intro a ha
    obtain ⟨l, hl, rfl⟩ := List.mem_map.1 (show a ∈ sets.map fun l => (⟨[(P : Int)], l⟩ : Arr Rat) from ha)
    have := (hp.1 l hl).1
    simp [Arr.WF, Arr.dynamic, dynamicShape, this]

theorem forall_mem_one {p : Arr Rat → Prop} {x : Arr Rat} (h : ∀ y ∈ [x], p y) : p x := h x (by simp)

theorem reduce_facts {E : Type} {f : List Rat → Rat} {ok : Arr Rat → Prop} {init : List Rat → Res (Rat × E)}
    {propagate : Rat × E → List Rat → List (Update Rat) → Res (Rat × E)}
    (C : Contract ArrRel [] (reduceNode E f ok init propagate)) {s : List Int}
    (h : ∀ x : Arr Rat, x.shape = s → x.WF → ok x) :
    NodeFacts (liftNode (reduceNode E f ok init propagate)) [[s]] [[]] := by
  refine liftFacts C (ss := [s]) (fun xs _ _ => ⟨rfl, wf_scalar _⟩) ?_
  intro xs hs hw
  obtain ⟨x, rfl, hx⟩ := map_shape_one hs
  exact ⟨x, rfl, h x hx (forall_mem_one hw)⟩

theorem nary_facts {func : Rat → Rat → Rat} {inv : Option (Rat → Rat → Option Rat)} {s : List Int}
    (C : Contract ArrRel [] (naryNode func inv s)) {ss : List (List Int)} (hne : ss ≠ [])
    (hs : ∀ t ∈ ss, t = s) : NodeFacts (liftNode (naryNode func inv s)) (ss.map fun s => [s]) [s] := by
  refine liftFacts C ?_ ?_
  · rintro xs hw ⟨hne, hx⟩
    refine ⟨rfl, ?_⟩
    cases xs with
    | nil => exact absurd rfl hne
    | cons x xs =>
      have := hx x List.mem_cons_self
      refine wf_of_length (a := x) this.1 ?_ this.2
      show x.data.length = (naryValue func (x :: xs)).length
      simp [naryValue]
  · intro xs h1 h2
    refine ⟨?_, ?_⟩
    · rintro rfl; exact hne (by simpa using h1.symm)
    · intro x hx
      refine ⟨hs _ ?_, h2 x hx⟩
      rw [← h1]; exact List.mem_map_of_mem hx

theorem naryShape_ok {ss : List (List Int)} {s : List Int} (h : naryShape ss = .ok s) :
    ss ≠ [] ∧ (∀ t ∈ ss, t = s) ∧ dynamicShape s = false := by
  cases ss with
  | nil => cases h
  | cons t rest =>
    simp only [naryShape] at h
    obtain ⟨_, h1, h2⟩ := Res.bind_eq_ok.1 h
    simp at h2; subst h2
    have key : ∀ (l : List (List Int)), (l.forM fun u => do
        guardThrow (dynamicShape u = false)
        guardThrow (t = u)) = Res.ok () → ∀ u ∈ l, dynamicShape u = false ∧ t = u := by
      intro l
      induction l with
      | nil => simp
      | cons u l ih =>
        intro h v hv
        simp only [List.forM] at h
        obtain ⟨_, h1, h2⟩ := Res.bind_eq_ok.1 h
        obtain ⟨_, h3, h4⟩ := Res.bind_eq_ok.1 h1
        rcases List.mem_cons.1 hv with rfl | hv
        · exact ⟨guardThrow_eq_ok.1 h3, guardThrow_eq_ok.1 h4⟩
        · exact ih h2 v hv
    have := key _ h1
    exact ⟨by simp, fun u hu => (this u hu).2.symm, (this t List.mem_cons_self).1⟩

theorem mapM_arrayShape : ∀ {ps : List (List (List Int))} {ss : List (List Int)},
    ps.mapM Kind.arrayShape = .ok ss → ps = ss.map fun s => [s]
  | [], ss, h => by simp at h; subst h; rfl
  | p :: ps, ss, h => by
    rw [List.mapM_cons] at h
    obtain ⟨s, h1, h⟩ := Res.bind_eq_ok.1 h
    obtain ⟨ss', h2, h⟩ := Res.bind_eq_ok.1 h
    simp at h; subst h
    rw [arrayShape_ok h1, mapM_arrayShape h2]
    rfl

/-- Every symbol whose constructor accepts its arguments, under the conditions of `Regular`. -/
theorem kind_facts {k : Kind} {ps : List (List (List Int))} {out : List (List Int)}
    (hm : k.make ps = .ok out) (hr : k.Regular ps) (hg : ∀ p ∈ ps, ∀ s ∈ p, GoodShape s)
    (hgo : ∀ s ∈ out, GoodShape s) :
    (k.isDecision = false → NodeFacts (k.node ps out) ps out) ∧
      (k.isDecision = true → DecisionFacts (k.node ps out) (k.step ps out) out) := by
  cases k with
  | integer shape lo? hi? =>
    refine ⟨fun h => by simp [Kind.isDecision] at h, fun _ => ?_⟩
    match ps, hm with
    | [], hm =>
      simp only [Kind.make] at hm
      obtain ⟨_, _, hm⟩ := Res.bind_eq_ok.1 hm
      simp at hm; subst hm
      exact ⟨⟨integerLaw shape _⟩, number_out (hgo shape (by simp)) hr _ _⟩
  | binaryVar shape =>
    refine ⟨fun h => by simp [Kind.isDecision] at h, fun _ => ?_⟩
    match ps, hm with
    | [], hm =>
      simp only [Kind.make] at hm
      obtain ⟨_, _, hm⟩ := Res.bind_eq_ok.1 hm
      simp at hm; subst hm
      exact ⟨⟨binaryLaw shape _⟩, number_out (hgo shape (by simp)) hr _ _⟩
  | collection n lo hi =>
    refine ⟨fun h => by simp [Kind.isDecision] at h, fun _ => ?_⟩
    match ps, hm with
    | [], hm =>
      simp only [Kind.make] at hm
      obtain ⟨c, hc, hm⟩ := Res.bind_eq_ok.1 hm
      simp at hm; subst hm
      have hcc : c = Kind.collNode n lo hi := by
        have hc' := hc
        simp only [CollNode.make] at hc'
        obtain ⟨_, _, hc'⟩ := Res.bind_eq_ok.1 hc'
        obtain ⟨_, _, hc'⟩ := Res.bind_eq_ok.1 hc'
        obtain ⟨_, _, hc'⟩ := Res.bind_eq_ok.1 hc'
        simp only [Res.pure_eq, Res.ok.injEq] at hc'
        exact hc'.symm
      subst hcc
      exact ⟨⟨collectionLaw hc⟩, collection_out⟩
  | disjointLists P N =>
    refine ⟨fun h => by simp [Kind.isDecision] at h, fun _ => ?_⟩
    match ps, hm with
    | [], hm =>
      simp only [Kind.make] at hm
      obtain ⟨_, _, hm⟩ := Res.bind_eq_ok.1 hm
      obtain ⟨_, _, hm⟩ := Res.bind_eq_ok.1 hm
      simp at hm; subst hm
      exact ⟨⟨listsLaw _ _⟩, lists_out⟩
  | disjointBitSets P N =>
    refine ⟨fun h => by simp [Kind.isDecision] at h, fun _ => ?_⟩
    match ps, hm with
    | [], hm =>
      simp only [Kind.make] at hm
      obtain ⟨_, hP, hm⟩ := Res.bind_eq_ok.1 hm
      obtain ⟨_, _, hm⟩ := Res.bind_eq_ok.1 hm
      have hP := guardThrow_eq_ok.1 hP
      simp at hm; subst hm
      refine ⟨⟨bitSetsLaw _ _⟩, ?_⟩
      have := bitSets_out (P := P.toNat) (N := N.toNat)
      rwa [show ((P.toNat : Nat) : Int) = P by omega] at this
  | constant a =>
    refine ⟨fun _ => ?_, fun h => by simp [Kind.isDecision] at h⟩
    match ps, hm with
    | [], hm =>
      simp only [Kind.make, Res.ok.injEq] at hm
      subst hm
      refine ⟨⟨(constantContract a).toSettled, (constantContract a).propagates⟩, ?_, ?_⟩
      · intro xs _; exact hasShapes_single hr
      · intro xs h; cases h; rfl
  | output i =>
    refine ⟨fun _ => ?_, fun h => by simp [Kind.isDecision] at h⟩
    match ps, hm with
    | [p], hm0 =>
      simp only [Kind.make] at hm0
      obtain ⟨_, hi, hm⟩ := Res.bind_eq_ok.1 hm0
      have hi := guardThrow_eq_ok.1 hi
      simp only [Res.ok.injEq] at hm
      subst hm
      refine ⟨⟨(outputContract i _).toSettled, (outputContract i _).propagates⟩, ?_, ?_⟩
      · rintro xs ⟨x, rfl, h1, h2, h3⟩
        exact ⟨by simpa [Kind.shape1] using h2, by simpa using h3⟩
      · intro xs h
        cases h with
        | cons h1 h2 =>
          cases h2
          obtain ⟨rfl, hw⟩ := h1
          rw [List.length_map] at hi
          refine ⟨_, rfl, hi, ?_, ?_⟩
          · simp [Kind.shape1, List.getD_eq_getElem?_getD, hi]
          · simp only [List.getD_eq_getElem?_getD, List.getElem?_eq_getElem hi, Option.getD_some]
            exact hw _ (List.getElem_mem hi)
  | unary op =>
    refine ⟨fun _ => ?_, fun h => by simp [Kind.isDecision] at h⟩
    match ps, hm with
    | [p], hm0 =>
      simp only [Kind.make] at hm0
      obtain ⟨s, hs, hm⟩ := Res.bind_eq_ok.1 hm0
      obtain rfl := arrayShape_ok hs
      simp at hm; subst hm
      refine liftFacts (unaryContract op.func s) (ss := [s]) ?_ ?_
      · intro xs hw hx
        obtain ⟨x, rfl, hx'⟩ := map_shape_one hx
        exact ⟨rfl, wf_of_length (a := x) hx' (by simp [unaryNode, arrayNode]) (forall_mem_one hw)⟩
      · intro xs h1 _; exact h1
  | binary op =>
    refine ⟨fun _ => ?_, fun h => by simp [Kind.isDecision] at h⟩
    match ps, hm with
    | [p, q], hm0 =>
      simp only [Kind.make] at hm0
      obtain ⟨l, hl, hm⟩ := Res.bind_eq_ok.1 hm0
      obtain ⟨r, hr', hm⟩ := Res.bind_eq_ok.1 hm
      obtain ⟨s, hs, hz⟩ := Res.bind_eq_ok.1 hm
      obtain rfl := arrayShape_ok hl
      obtain rfl := arrayShape_ok hr'
      simp at hz; subst hz
      have hb : BinaryShapes l r s := ⟨hs, hr.1, hr.2⟩
      refine liftFacts (binaryContract op.func hb) (ss := [l, r]) ?_ ?_
      · rintro xs hw ⟨hx, _⟩
        obtain ⟨x, y, rfl, hx, hy⟩ := map_shape_two hx
        exact ⟨rfl, binary_out hb (hg [l] (by simp) l (by simp)) (hg [r] (by simp) r (by simp)) hx hy
          (hw x (by simp)) (hw y (by simp))⟩
      · intro xs h1 h2; exact ⟨h1, h2⟩
  | nary op =>
    refine ⟨fun _ => ?_, fun h => by simp [Kind.isDecision] at h⟩
    have hm : (do
        let ss ← ps.mapM Kind.arrayShape
        let s ← naryShape ss
        Res.ok [s]) = .ok out := hm
    obtain ⟨ss, hss, hm⟩ := Res.bind_eq_ok.1 hm
    obtain ⟨s, hs, hm⟩ := Res.bind_eq_ok.1 hm
    simp at hm; subst hm
    obtain rfl := mapM_arrayShape hss
    obtain ⟨h1, h2, h3⟩ := naryShape_ok hs
    cases op with
    | add => exact nary_facts (naryContractInverse plus_laws h3) h1 h2
    | multiply => exact nary_facts (naryContractInverse times_laws h3) h1 h2
    | maximum => exact nary_facts (naryContractRecompute max h3) h1 h2
    | minimum => exact nary_facts (naryContractRecompute min h3) h1 h2
  | reduce op init =>
    refine ⟨fun _ => ?_, fun h => by simp [Kind.isDecision] at h⟩
    match ps, hm with
    | [p], hm0 =>
      simp only [Kind.make] at hm0
      obtain ⟨s, hs, hm⟩ := Res.bind_eq_ok.1 hm0
      obtain rfl := arrayShape_ok hs
      simp at hm; subst hm
      cases op with
      | all => exact reduce_facts (allContract init) (fun _ _ _ => trivial)
      | any => exact reduce_facts (anyContract init) (fun _ _ _ => trivial)
      | sum => exact reduce_facts (sumContract init) (fun _ _ _ => trivial)
      | prod => exact reduce_facts (prodContract init) (fun _ _ _ => trivial)
  | fold op init =>
    refine ⟨fun _ => ?_, fun h => by simp [Kind.isDecision] at h⟩
    match ps, hm with
    | [p], hm0 =>
      simp only [Kind.make] at hm0
      obtain ⟨s, hs, hm⟩ := Res.bind_eq_ok.1 hm0
      obtain ⟨_, hi, hm⟩ := Res.bind_eq_ok.1 hm
      obtain rfl := arrayShape_ok hs
      have hi := guardThrow_eq_ok.1 hi
      simp at hm; subst hm
      have : ∀ x : Arr Rat, x.shape = s → x.WF → reduceOperand init x := by
        intro x hx hw
        exact ⟨hw, fun h => by simpa [Arr.dynamic, hx] using hi h⟩
      cases op with
      | max => exact reduce_facts (maxContract init) this
      | min => exact reduce_facts (minContract init) this
  | partialSum axis init =>
    refine ⟨fun _ => ?_, fun h => by simp [Kind.isDecision] at h⟩
    match ps, hm with
    | [p], hm0 =>
      simp only [Kind.make] at hm0
      obtain ⟨s, hs, hm⟩ := Res.bind_eq_ok.1 hm0
      obtain ⟨_, ha, hm⟩ := Res.bind_eq_ok.1 hm
      obtain ⟨_, hd, hm⟩ := Res.bind_eq_ok.1 hm
      obtain ⟨_, hp, hm⟩ := Res.bind_eq_ok.1 hm
      obtain rfl := arrayShape_ok hs
      have ha := guardUB_eq_ok.1 ha
      have hd := guardThrow_eq_ok.1 hd
      have hp := guardThrow_eq_ok.1 hp
      simp at hm; subst hm
      have hpos := dims_pos (hg [s] (by simp) s (by simp)) hd (by omega)
      have hpos' : ∀ d ∈ s.eraseIdx axis, 0 < d := fun d h => hpos d (List.mem_of_mem_eraseIdx h)
      refine liftFacts (partialSumContract init hpos ha hr) (ss := [s]) ?_ ?_
      · rintro xs hw ⟨x, rfl, hx, _⟩
        refine ⟨rfl, ?_⟩
        have hdyn : dynamicShape (s.eraseIdx axis) = false := by
          cases h : s.eraseIdx axis with
          | nil => rfl
          | cons d l =>
            have := hpos' d (by simp [h])
            simp only [dynamicShape, decide_eq_false_iff_not]; omega
        simp only [Arr.WF, Arr.dynamic, hdyn]
        rw [if_neg (by simp)]
        have := length_allCoords hpos'
        rw [shapeProd_eq] at this
        rw [← this]
        simp [partialSumValue]
      · intro xs h1 h2
        obtain ⟨x, rfl, hx⟩ := map_shape_one h1
        exact ⟨x, rfl, hx, forall_mem_one h2⟩
  | reshape shape =>
    refine ⟨fun _ => ?_, fun h => by simp [Kind.isDecision] at h⟩
    match ps, hm with
    | [p], hm0 =>
      simp only [Kind.make] at hm0
      obtain ⟨s, hs, hm⟩ := Res.bind_eq_ok.1 hm0
      obtain ⟨t, ht, hm⟩ := Res.bind_eq_ok.1 hm
      obtain rfl := arrayShape_ok hs
      simp at hm; subst hm
      have ht' := ht
      unfold reshapeShape at ht'
      obtain ⟨_, h1, ht'⟩ := Res.bind_eq_ok.1 ht'
      obtain ⟨_, h2, ht'⟩ := Res.bind_eq_ok.1 ht'
      obtain ⟨_, h3, ht'⟩ := Res.bind_eq_ok.1 ht'
      have h1 := guardThrow_eq_ok.1 h1
      have h2 := guardThrow_eq_ok.1 h2
      have h3 := guardThrow_eq_ok.1 h3
      simp at ht'; subst ht'
      refine liftFacts (reshapeContract s shape ht) (ss := [s]) ?_ ?_
      · rintro xs hw ⟨x, rfl, hx, hw'⟩
        refine ⟨rfl, ?_⟩
        have := hw'.length_fixed (show dynamicShape x.shape = false by rw [hx]; exact h1)
        simp only [Arr.WF, Arr.dynamic, h2]
        rw [if_neg (by simp), h3, ← hx]
        exact this
      · intro xs h1 h2
        obtain ⟨x, rfl, hx⟩ := map_shape_one h1
        exact ⟨x, rfl, hx, forall_mem_one h2⟩
  | size =>
    refine ⟨fun _ => ?_, fun h => by simp [Kind.isDecision] at h⟩
    match ps, hm with
    | [p], hm0 =>
      simp only [Kind.make] at hm0
      obtain ⟨s, hs, hm⟩ := Res.bind_eq_ok.1 hm0
      obtain rfl := arrayShape_ok hs
      simp at hm; subst hm
      refine liftFacts sizeContract (ss := [s]) (fun xs _ _ => ⟨rfl, wf_scalar _⟩) ?_
      intro xs h1 h2
      obtain ⟨x, rfl, hx⟩ := map_shape_one h1
      exact ⟨x, rfl⟩
  | where_ =>
    refine ⟨fun _ => ?_, fun h => by simp [Kind.isDecision] at h⟩
    match ps, hm with
    | [p, q, r], hm0 =>
      simp only [Kind.make] at hm0
      obtain ⟨c, hc, hm⟩ := Res.bind_eq_ok.1 hm0
      obtain ⟨x, hx, hm⟩ := Res.bind_eq_ok.1 hm
      obtain ⟨y, hy, hm⟩ := Res.bind_eq_ok.1 hm
      obtain ⟨s, hs, hz⟩ := Res.bind_eq_ok.1 hm
      obtain rfl := arrayShape_ok hc
      obtain rfl := arrayShape_ok hx
      obtain rfl := arrayShape_ok hy
      simp at hz; subst hz
      obtain ⟨rfl, rfl⟩ : x = y ∧ s = x := by
        have hs' := hs
        unfold whereShape at hs'
        obtain ⟨_, h1, hs'⟩ := Res.bind_eq_ok.1 hs'
        have h1 := guardThrow_eq_ok.1 h1
        refine ⟨h1, ?_⟩
        split_ifs at hs'
        · simpa using hs'.symm
        · obtain ⟨_, _, hs'⟩ := Res.bind_eq_ok.1 hs'
          obtain ⟨_, _, hs'⟩ := Res.bind_eq_ok.1 hs'
          simpa using hs'.symm
      refine liftFacts (whereContract c s (whereShape_ok hs)) (ss := [c, s, s]) ?_ ?_
      · rintro xs hw ⟨hx, _⟩
        obtain ⟨a, x, y, rfl, ha, hx, hy⟩ := map_shape_three hx
        refine ⟨rfl, ?_⟩
        show (⟨s, whereValue c [a, x, y]⟩ : Arr Rat).WF
        simp only [whereValue]
        split_ifs
        · exact wf_of_length (a := x) hx rfl (hw x (by simp))
        · exact wf_of_length (a := y) hy rfl (hw y (by simp))
        · exact wf_of_length (a := x) hx (by simp) (hw x (by simp))
      · intro xs h1 h2; exact ⟨h1, h2⟩
  | quadratic n ops =>
    refine ⟨fun _ => ?_, fun h => by simp [Kind.isDecision] at h⟩
    match ps, hm with
    | [p], hm0 =>
      simp only [Kind.make] at hm0
      obtain ⟨s, hs, hm⟩ := Res.bind_eq_ok.1 hm0
      obtain ⟨_, ho, hm⟩ := Res.bind_eq_ok.1 hm
      obtain ⟨q, hq, hm⟩ := Res.bind_eq_ok.1 hm
      obtain ⟨t, ht, hm⟩ := Res.bind_eq_ok.1 hm
      obtain rfl := arrayShape_ok hs
      have ho := guardUB_eq_ok.1 ho
      simp at hm; subst hm
      obtain ⟨q', hq', hn, hi⟩ := build_inv n ho
      rw [hq] at hq'
      simp at hq'; subst hq'
      have hqm : Kind.qModel n ops = q := by simp only [Kind.qModel, hq]
      obtain rfl : t = [] := by
        unfold quadraticShape at ht
        obtain ⟨_, _, ht⟩ := Res.bind_eq_ok.1 ht
        simpa using ht.symm
      show NodeFacts (liftNode (quadraticNode (Kind.qModel n ops) fun x =>
        (biasesOf ops).value n fun i => x.getD i 0)) [[s]] [[]]
      rw [hqm, ← hn]
      refine liftFacts (quadraticContract hi (biasesOf_symm ops) (biasesOf_diag ops)) (ss := [s])
        (fun xs _ _ => ⟨rfl, wf_scalar _⟩) ?_
      intro xs h1 h2
      obtain ⟨x, rfl, hx⟩ := map_shape_one h1
      exact ⟨x, rfl, by rw [hx]; exact ht, forall_mem_one h2⟩

end Verif
