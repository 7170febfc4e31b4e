import Verif.Lemmas.ScriptWhole
import Verif.Lemmas.ScriptPermutation

set_option linter.unusedSectionVars false
set_option linter.unusedSimpArgs false
set_option linter.unusedVariables false

/-! Helper lemmas: models with permutations also evaluate incrementally, since orders report nothing outside of their range. -/

namespace Verif

/-- Changes are reported correctly, and arrays of `n` elements never report anything but integers from 0 to n - 1. -/
def OrdersRel (n : Nat) (x : Val) (d : Dif) (y : Val) : Prop :=
  ValRel x d y ∧ ([(n : Int)] ∈ x.map Arr.shape → ∀ u ∈ d, ∀ v ∈ u.2.value, v.den = 1 ∧ 0 ≤ v ∧ v < n)

/-- Changes are reported correctly, and nothing is ever reported but integers from 0 to n - 1. -/
def RangeRel (n : Nat) (x : Val) (d : Dif) (y : Val) : Prop := ValRel x d y ∧ ∀ u ∈ d, ∀ v ∈ u.2.value, v.den = 1 ∧ 0 ≤ v ∧ v < n

theorem RangeRel.orders {n : Nat} {x : Val} {d : Dif} {y : Val} (h : RangeRel n x d y) : OrdersRel n x d y := ⟨h.1, fun _ => h.2⟩

theorem RangeRel.quiet {n : Nat} (x : Val) : RangeRel n x [] x := ⟨ValRel.quiet x, by simp⟩

theorem OrdersRel.quiet {n : Nat} (x : Val) : OrdersRel n x [] x := ⟨ValRel.quiet x, by simp⟩

theorem OrdersRel.ins {n : Nat} {xs ys : List Val} {ins : List (Val × Dif)} (h : Ins (OrdersRel n) xs ins ys) : Ins ValRel xs ins ys := by
  induction h with
  | nil => exact .nil
  | cons h _ ih => exact .cons h.1 ih

/-- Symbols of other sizes. -/
theorem obeys_orders {n : Nat} {N : NodeSem Val Dif} {C : Settled ([] : Dif) N} (hC : C.Propagates ValRel) {out : List (List Int)}
    (hs : ∀ xs, N.ok xs → (N.f xs).map Arr.shape = out) (hn : [(n : Int)] ∉ out) : C.Propagates (OrdersRel n) := by
  intro s xs ins ys h1 h2 h3 h4
  obtain ⟨s', e, hv, hd, hc, hr⟩ := hC h1 h2 h3 (OrdersRel.ins h4)
  exact ⟨s', e, hv, ⟨hd, fun h => absurd (by rwa [hs xs h2] at h) hn⟩, hc, hr⟩

/-- Symbols that never report anything. -/
theorem obeys_silent {n : Nat} {N : NodeSem Val Dif} {C : Settled ([] : Dif) N} {rels : List (Val → Dif → Val → Prop)}
    (hC : C.PropagatesWith rels ValRel) (hd : ∀ s, N.diff s = []) : C.PropagatesWith rels (RangeRel n) := by
  intro s xs ins ys h1 h2 h3 h4
  obtain ⟨s', e, hv, hr, hc, hr'⟩ := hC h1 h2 h3 h4
  exact ⟨s', e, hv, ⟨hr, fun u hu => by rw [hd] at hu; cases hu⟩, hc, hr'⟩

/-- Permutations. -/
theorem obeys_permutation {n : Nat} {r0 r1 : Val → Dif → Val → Prop} (hr1 : ∀ x d y, r1 x d y → OrdersRel n x d y) {x : Arr Rat} (hn : 0 < n) (hbig : 8 * (n * n) ≤ 2 ^ 31) (hs : x.shape = [(n : Int), (n : Int)])
    (hw : x.WF) {out : Info} {ins : List Info} :
    ∃ C : Settled ([] : Dif) ((Built.permutation x).node ins out), C.PropagatesWith [r0, r1] (OrdersRel n) := by
  have hhead : (x.shape.headD 0).toNat = n := by rw [hs]; simp
  have hex : ∀ k, k = n → ∃ C : Settled ([] : Dif) (liftConst x (permNode x (permValue x) (OrderOk k))), 
      C.PropagatesWith [r0, r1] (OrdersRel n) := by
    rintro _ rfl
    refine ⟨liftConstSettled x (permContract hn hbig hs hw).toSettled, ?_⟩
    rintro s _ ins zs hc ⟨ys, rfl, hy, hx⟩ ⟨ys', rfl, hy', hx'⟩ hi
    cases hi with
    | cons _ hi' =>
    obtain ⟨o, ho, hos, _⟩ := id hx
    obtain ⟨y, rfl⟩ : ∃ y, ys = [y] := by
      match ys, ho with
      | [y], _ => exact ⟨y, rfl⟩
    cases hi' with
    | @cons _ _ _ d' y' _ _ _ hr hnil =>
    cases hnil
    have hr := hr1 _ _ _ hr
    obtain ⟨a, rfl⟩ : ∃ a, y = [a] := by
      have := (hy y (by simp)).1
      match y, this with
      | [a], _ => exact ⟨a, rfl⟩
    obtain ⟨b, rfl⟩ : ∃ b, y' = [b] := by
      have := (hy' y' (by simp)).1
      match y', this with
      | [b], _ => exact ⟨b, rfl⟩
    obtain rfl : a = o := by simpa [single] using ho
    obtain ⟨s', e, hv, hd, hc', hr'⟩ := (permContract hn hbig hs hw).propagate (ins := [(b, Dif.at d' 0)]) (ys := [b]) hc hx hx'
      (.cons ⟨hr.1.each 0 a b rfl rfl, fun _ u hu v hv => by
        obtain ⟨p, hp, rfl⟩ := List.mem_map.1 hu
        exact hr.2 (by simp [hos]) p (List.mem_of_mem_filter hp) v hv⟩ .nil)
    refine ⟨s', e, congrArg (fun a => [a]) hv, ⟨valRel_single hd.1, fun h => ?_⟩, hc', hr'⟩
    exact absurd h (by simp [permValue, hs])
  exact hex _ hhead

/-! ### Lists report nothing outside of their range -/

/-- Integers from 0 to n - 1. -/
def InRange (n : Nat) (v : Rat) : Prop := v.den = 1 ∧ 0 ≤ v ∧ v < n

theorem coll_exchange_range {n : Nat} {s s' : CollState Rat} {i j : Nat} (e : s.exchange i j = .ok s')
    (he : ∀ v ∈ s.elements, InRange n v) (h : ∀ u ∈ s.previous, ∀ v ∈ u.value, InRange n v) :
    ∀ u ∈ s'.previous, ∀ v ∈ u.value, InRange n v := by
  unfold CollState.exchange at e
  split at e
  · rename_i a b ha hb
    have h1 : InRange n a := he a (List.mem_of_getElem? ha)
    have h2 : InRange n b := he b (List.mem_of_getElem? hb)
    have c1 : ∀ v ∈ (Update.change i a b).value, InRange n v := by
      intro v hv
      obtain rfl : b = v := by simpa [Update.change] using hv
      exact h2
    have c2 : ∀ v ∈ (Update.change j b a).value, InRange n v := by
      intro v hv
      obtain rfl : a = v := by simpa [Update.change] using hv
      exact h1
    simp only [Res.ok.injEq] at e
    subst e
    intro u hu
    simp only at hu
    split_ifs at hu
    · rcases List.mem_append.1 hu with hu | hu
      · rcases List.mem_append.1 hu with hu | hu
        · exact h u hu
        · rw [List.mem_singleton.1 hu]; exact c1
      · rw [List.mem_singleton.1 hu]; exact c2
    · rcases List.mem_append.1 hu with hu | hu
      · exact h u hu
      · rw [List.mem_singleton.1 hu]; exact c2
    · rcases List.mem_append.1 hu with hu | hu
      · exact h u hu
      · rw [List.mem_singleton.1 hu]; exact c1
    · exact h u hu
  · cases e

theorem coll_rotateStep_range {n : Nat} (is : List Nat) : ∀ {p p' : CollState Rat × Rat},
    is.foldlM CollState.rotateStep p = .ok p' → (∀ v ∈ p.1.elements, InRange n v) → InRange n p.2 →
    (∀ u ∈ p.1.previous, ∀ v ∈ u.value, InRange n v) → ∀ u ∈ p'.1.previous, ∀ v ∈ u.value, InRange n v := by
  induction is with
  | nil => intro p p' e _ _ h; simp at e; subst e; exact h
  | cons i is ih =>
    intro p p' e he hp h
    simp only [List.foldlM_cons] at e
    obtain ⟨q, e1, e2⟩ := Res.bind_eq_ok.1 e
    unfold CollState.rotateStep at e1
    split at e1
    · cases e1
    · rename_i a ha
      simp only [Res.ok.injEq] at e1
      subst e1
      refine ih e2 ?_ (he a (List.mem_of_getElem? ha)) ?_
      · intro v hv
        rcases List.mem_or_eq_of_mem_set hv with hv | rfl
        · exact he v hv
        · exact hp
      · intro u hu
        rcases List.mem_append.1 hu with hu | hu
        · exact h u hu
        · rw [List.mem_singleton.1 hu]
          intro v hv
          obtain rfl : p.2 = v := by simpa [Update.change] using hv
          exact hp

theorem coll_rotate_range {n : Nat} {s s' : CollState Rat} {i j : Nat} (e : s.rotate i j = .ok s')
    (he : ∀ v ∈ s.elements, InRange n v) (h : ∀ u ∈ s.previous, ∀ v ∈ u.value, InRange n v) :
    ∀ u ∈ s'.previous, ∀ v ∈ u.value, InRange n v := by
  unfold CollState.rotate at e
  split at e
  · split at e
    · cases e
    · rename_i a ha
      have h1 : InRange n a := he a (List.mem_of_getElem? ha)
      split at e
      · obtain ⟨p, e1, e2⟩ := Res.bind_eq_ok.1 e
        simp at e2; subst e2
        exact coll_rotateStep_range _ e1 he h1 h
      · split at e
        · obtain ⟨p, e1, e2⟩ := Res.bind_eq_ok.1 e
          simp at e2; subst e2
          exact coll_rotateStep_range _ e1 he h1 h
        · simp at e; subst e; exact h
  · cases e

theorem coll_fixed_range {n : Nat} {c : CollNode} (hd : c.dynamic = false) {s s' : CollState Rat} {op : CollOp}
    (e : c.run1 s op = .ok s') (he : ∀ v ∈ s.elements, InRange n v) (h : ∀ u ∈ s.previous, ∀ v ∈ u.value, InRange n v) :
    ∀ u ∈ s'.previous, ∀ v ∈ u.value, InRange n v := by
  cases op with
  | exchange i j =>
    simp only [CollNode.run1] at e
    split at e
    · simp at e; subst e; exact h
    · exact coll_exchange_range e he h
  | rotate i j =>
    simp only [CollNode.run1] at e
    split at e
    · simp at e; subst e; exact h
    · exact coll_rotate_range e he h
  | grow => simp [CollNode.run1, hd, guardUB] at e
  | shrink => simp [CollNode.run1, hd, guardUB] at e
  | commit => simp [CollNode.run1] at e; subst e; simp [CollState.commit]
  | revert => simp [CollNode.run1] at e; subst e; simp [CollState.revert]

/-- Lists of all of 0, …, n - 1. -/
theorem obeys_list {n : Nat} {c : CollNode} (hc : CollNode.make n n n = .ok c) :
    ∃ L : DecisionLaw (collectionNode c) (fun s m => m.collection c s),
      ∀ s x y, L.Rel s x y → RangeRel n x ((collectionNode c).diff s) y := by
  have hn : c.maxValue = n ∧ c.dynamic = false := by
    simp only [CollNode.make] at hc
    obtain ⟨_, _, hc⟩ := Res.bind_eq_ok.1 hc
    obtain ⟨_, _, hc⟩ := Res.bind_eq_ok.1 hc
    obtain ⟨_, _, hc⟩ := Res.bind_eq_ok.1 hc
    simp only [Res.pure_eq, Res.ok.injEq] at hc
    rw [← hc]
    exact ⟨by simp, by simp [CollNode.dynamic]⟩
  let L := collectionLaw hc
  have helem : ∀ {s x y}, L.Rel s x y → ∀ v ∈ s.elements, InRange n v := by
    rintro s x y ⟨com, cur, _, _, h, _, _, h2, _⟩ v hv
    rw [h.elems] at hv
    obtain ⟨k, hk, rfl⟩ := mem_ints.1 (h2.perm.mem_iff.1 hv)
    rw [hn.1] at hk
    exact ⟨by simp, by positivity, by exact_mod_cast hk⟩
  refine ⟨{
    Rel := fun s x y => L.Rel s x y ∧ ∀ u ∈ s.previous, ∀ v ∈ u.value, InRange n v
    okIs := L.okIs
    same := L.same
    init := fun h => ?_
    view := fun h => L.view h.1
    diff := fun h => L.diff h.1
    commit := fun h => ?_
    revert := fun h => ?_
    move := fun h ho e => ?_
    idle := L.idle }, ?_⟩
  · obtain ⟨s, e, hr, hd⟩ := L.init h
    have hd : s.previous = [] := by simpa [tagged] using hd
    exact ⟨s, e, ⟨hr, by simp [hd]⟩, by simp [tagged, hd]⟩
  · obtain ⟨s, e, hr, hd⟩ := L.commit h.1
    have hd : s.previous = [] := by simpa [tagged] using hd
    exact ⟨s, e, ⟨hr, by simp [hd]⟩, by simp [tagged, hd]⟩
  · obtain ⟨s, e, hr, hd⟩ := L.revert h.1
    have hd : s.previous = [] := by simpa [tagged] using hd
    exact ⟨s, e, ⟨hr, by simp [hd]⟩, by simp [tagged, hd]⟩
  · obtain ⟨z, hz, hr⟩ := L.move h.1 ho e
    rename_i s x y m s'
    refine ⟨z, hz, hr, ?_⟩
    have key : ∀ op : CollOp, c.run1 s op = .ok s' → _ := fun op e => coll_fixed_range hn.2 e (helem h.1) h.2
    cases m with
    | exchange i j => exact key (.exchange i j) e
    | rotate i j => exact key (.rotate i j) e
    | grow => exact key .grow e
    | shrink => exact key .shrink e
    | _ => cases e
  · rintro s x y ⟨h, hu⟩
    refine ⟨L.diff h, fun u hmem v hv => ?_⟩
    obtain ⟨u', hu', rfl⟩ := List.mem_map.1 hmem
    exact hu u' hu' v hv

namespace Script

variable {full : Prop} {P : Nat → Prop} {s s' : Script} {n : Nat}

/-- A symbol of a model in which orders of `n` elements are permuted. -/
def Ordered (n : Nat) (r : Row) : Prop :=
  (r.built = .kind (.collection n n n) ∧ r.ins = [] ∧ r.out.shapes = [[(n : Int)]]) ∨
  (r.decision = false ∧ r.built.isPermutation = false ∧ [(n : Int)] ∉ r.out.shapes) ∨
  (∃ x u v, r.built = .permutation x ∧ r.ops = [u, v] ∧ x.shape = [(n : Int), (n : Int)] ∧ x.WF)

theorem Ordered.obeys {r : Row} (hn : 0 < n) (hbig : 8 * (n * n) ≤ 2 ^ 31) (h : Ordered n r) (hk : r.Keeps full) :
    r.Obeys (r.ops.map fun _ => OrdersRel n) (OrdersRel n) := by
  obtain ⟨b, ops, ins, out⟩ := r
  rcases h with ⟨hb, hi, ho⟩ | ⟨hd, hp, ho⟩ | ⟨x, u, v, hb, hops, hs, hw⟩
  · obtain rfl := hb
    obtain rfl := hi
    refine ⟨fun _ => ?_, fun h => absurd (show true = false from h) (by decide)⟩
    have hc : CollNode.make n n n = .ok (Kind.collNode n n n) := by
      unfold CollNode.make
      rw [guardThrow_true (by omega), guardThrow_true (by omega)]
      rfl
    obtain ⟨L, hL⟩ := obeys_list hc
    exact ⟨L, fun s x y h => (hL s x y h).orders⟩
  · refine ⟨fun h => (by rw [hd] at h; cases h), fun _ => ?_⟩
    obtain ⟨C, h1, h2⟩ := hk.2 hd
    exact ⟨C, Settled.Propagates.same (obeys_orders (h2 (.inr hp)) h1 ho) _⟩
  · obtain rfl := hb
    obtain rfl := hops
    exact ⟨fun h => absurd h Bool.false_ne_true, fun _ => obeys_permutation (fun _ _ _ h => h) hn hbig hs hw⟩

/-- All symbols so far. -/
def AllOrdered (n : Nat) (s : Script) : Prop := ∀ r ∈ s, Ordered n r

theorem add_eq {t : Term} {ops : List Nat} {j : Nat} (e : s.add t ops = .ok (s', j)) :
    ∃ b out, t.construct s.length s.sizes ops (ops.map fun p => (s.row p).out) = .ok (b, out) ∧
      s' = s ++ [⟨b, ops, ops.map fun p => (s.row p).out, out⟩] := by
  unfold Script.add at e
  obtain ⟨_, _, e⟩ := Res.bind_eq_ok.1 e
  obtain ⟨⟨b, out⟩, hc, e⟩ := Res.bind_eq_ok.1 e
  simp only [Res.ok.injEq, Prod.mk.injEq] at e
  exact ⟨b, out, hc, e.1.symm⟩

theorem AllOrdered.add (h : AllOrdered n s) {t : Term} {ops : List Nat} {j : Nat} (e : s.add t ops = .ok (s', j))
    {D : Nat → Prop} {adm : (Nat → Val) → Prop} {info : Info} {v : (Nat → Val) → Val} (N : Next full P s s' D adm info v)
    (hr : ∀ b, t.construct s.length s.sizes ops (ops.map fun p => (s.row p).out) = .ok (b, info) →
      Ordered n ⟨b, ops, ops.map fun p => (s.row p).out, info⟩) : AllOrdered n s' := by
  obtain ⟨b, out, hc, rfl⟩ := add_eq e
  have ho := N.has.out
  rw [row_last] at ho
  obtain rfl : out = info := ho
  intro r hm
  rcases List.mem_append.1 hm with hm | hm
  · exact h r hm
  · rw [List.mem_singleton.1 hm]
    exact hr b hc

theorem kind_built {k : Kind} {self : Nat} {sizes : Nat → SizeInfo} {ops : List Nat} {ins : List Info} {b : Built} {out : Info}
    (e : (Term.kind k).construct self sizes ops ins = .ok (b, out)) : b = .kind k := by
  have e : k.construct self sizes ops ins = .ok (b, out) := e
  unfold Kind.construct at e
  have key : ∀ asked : List Claim, (do
      guardThrow (k.rangeChecks asked)
      let shapes ← k.make (ins.map Info.shapes)
      Res.ok (Built.kind k, (⟨shapes, k.claimFrom sizes ins, k.sizeFrom self shapes ops ins, k.value⟩ : Info))) = .ok (b, out) →
      b = .kind k := by
    intro asked e
    obtain ⟨_, _, e⟩ := Res.bind_eq_ok.1 e
    obtain ⟨_, _, e⟩ := Res.bind_eq_ok.1 e
    simp only [Res.ok.injEq, Prod.mk.injEq] at e
    exact e.1.symm
  cases ha : k.asks with
  | false =>
    rw [ha] at e
    exact key [] e
  | true =>
    rw [ha] at e
    obtain ⟨asked, _, e⟩ := Res.bind_eq_ok.1 e
    exact key asked e

theorem advanced_built {slots : List Bool} {self : Nat} {sizes : Nat → SizeInfo} {ops : List Nat} {ins : List Info} {b : Built}
    {out : Info} (e : (Term.advanced slots).construct self sizes ops ins = .ok (b, out)) :
    b.decision = false ∧ b.isPermutation = false := by
  match ops, ins with
  | [], _ => cases e
  | _ :: _, [] => cases e
  | x :: xs, i :: is =>
    unfold Term.construct at e
    obtain ⟨_, _, e⟩ := Res.bind_eq_ok.1 e
    obtain ⟨_, _, e⟩ := Res.bind_eq_ok.1 e
    obtain ⟨_, _, e⟩ := Res.bind_eq_ok.1 e
    obtain ⟨_, _, e⟩ := Res.bind_eq_ok.1 e
    simp only [Res.ok.injEq, Prod.mk.injEq] at e
    rw [← e.1]
    exact ⟨rfl, rfl⟩

/-- Symbols of the catalog that are no decisions and have another shape. -/
theorem AllOrdered.kind (h : AllOrdered n s) {k : Kind} {ops : List Nat} {j : Nat} (e : s.add (.kind k) ops = .ok (s', j))
    {D : Nat → Prop} {adm : (Nat → Val) → Prop} {info : Info} {v : (Nat → Val) → Val} (N : Next full P s s' D adm info v)
    (hk : k.isDecision = false) (hs : [(n : Int)] ∉ info.shapes) : AllOrdered n s' :=
  h.add e N fun b hb => by
    obtain rfl := kind_built hb
    exact .inr (.inl ⟨hk, rfl, hs⟩)

theorem AllOrdered.advanced (h : AllOrdered n s) {slots : List Bool} {ops : List Nat} {j : Nat}
    (e : s.add (.advanced slots) ops = .ok (s', j))
    {D : Nat → Prop} {adm : (Nat → Val) → Prop} {info : Info} {v : (Nat → Val) → Val} (N : Next full P s s' D adm info v)
    (hs : [(n : Int)] ∉ info.shapes) : AllOrdered n s' :=
  h.add e N fun b hb => .inr (.inl ⟨(advanced_built hb).1, (advanced_built hb).2, hs⟩)

theorem AllOrdered.permutation (h : AllOrdered n s) {x i j : Nat} (e : s.add .permutation [x, i] = .ok (s', j))
    {D : Nat → Prop} {adm : (Nat → Val) → Prop} {info : Info} {v : (Nat → Val) → Val} (N : Next full P s s' D adm info v)
    {a : Arr Rat} (ha : (s.row x).out.const = some a) (hs : a.shape = [(n : Int), (n : Int)]) (hw : a.WF) : AllOrdered n s' :=
  h.add e N fun b hb => .inr (.inr ⟨a, x, i, by
    have hb : (do
      let s' ← Kind.arrayShape (s.row x).out.shapes
      let t ← Kind.arrayShape (s.row i).out.shapes
      let c ← (s.row i).out.claim
      permMake (s.row x).out.const.isSome s' ⟨t, c.integral, c.range.lo, c.range.hi, true⟩
      Res.ok (Built.permutation ((s.row x).out.const.getD ⟨[], []⟩), (⟨[s'], (s.row x).out.claim, .fixed s'.prod, none⟩ : Info))) =
        .ok (b, info) := hb
    obtain ⟨_, _, hb⟩ := Res.bind_eq_ok.1 hb
    obtain ⟨_, _, hb⟩ := Res.bind_eq_ok.1 hb
    obtain ⟨_, _, hb⟩ := Res.bind_eq_ok.1 hb
    obtain ⟨_, _, hb⟩ := Res.bind_eq_ok.1 hb
    simp only [Res.ok.injEq, Prod.mk.injEq] at hb
    show b = _
    rw [← hb.1, ha]
    rfl, rfl, hs, hw⟩)

/-- Models in which orders are permuted evaluate incrementally. -/
theorem Proves.tracks_orders {α : Type} {M : Generated} {p : Problem α} (h : Proves full P M p) (hn : 0 < n)
    (hbig : 8 * (n * n) ≤ 2 ^ 31) (ho : AllOrdered n M.rows) : ∃ m, M.Tracks p m := by
  refine h.tracks_of (rel := OrdersRel n) (fun i hi => ?_) OrdersRel.quiet
  refine Ordered.obeys hn hbig (ho _ ?_) (h.complete.keeps hi)
  unfold row
  rw [List.getD_eq_getElem?_getD, List.getElem?_eq_getElem hi]
  exact List.getElem_mem hi

end Script
end Verif
