import Verif.Lemmas.IndexedCode

set_option linter.unusedSimpArgs false

/-! Helper lemmas: what code with indexing computes. -/

namespace Verif

open MixedIndex Script

/-! ## Trailing `:` -/

theorem separated_trailing : ∀ (l : List Bool) (n : Nat), separated (l ++ List.replicate n false) = separated l := by
  have tail : ∀ n, (List.replicate n false).any id = false := by intro n; induction n <;> simp_all
  have drop : ∀ (l : List Bool) (n : Nat), ((l ++ List.replicate n false).dropWhile id).any id = (l.dropWhile id).any id := by
    intro l n
    induction l with
    | nil =>
      rw [List.nil_append, List.dropWhile_nil, List.any_nil]
      cases n with
      | zero => rfl
      | succ n => rw [List.replicate_succ, List.dropWhile_cons_of_neg (by simp), ← List.replicate_succ, tail]
    | cons a l ih =>
      cases a with
      | true => rw [List.cons_append, List.dropWhile_cons_of_pos rfl, List.dropWhile_cons_of_pos rfl, ih]
      | false =>
        rw [List.cons_append, List.dropWhile_cons_of_neg (by simp), List.dropWhile_cons_of_neg (by simp), ← List.cons_append,
          List.any_append, tail, Bool.or_false]
  intro l n
  induction l with
  | nil =>
    have : ∀ n, (List.replicate n false).dropWhile (!·) = [] := by intro n; induction n <;> simp_all
    unfold separated
    rw [List.nil_append, this]
    rfl
  | cons a l ih =>
    cases a with
    | false => rw [List.cons_append, separated_false, separated_false, ih]
    | true =>
      have h1 : ∀ m : List Bool, (true :: m).dropWhile (!·) = true :: m := fun m => rfl
      unfold separated
      rw [List.cons_append, h1, h1, ← List.cons_append, drop]

theorem leading_trailing (l : List Bool) (n : Nat) (h : true ∈ l) : leading (l ++ List.replicate n false) = leading l := by
  unfold leading
  rw [List.findIdx_append, if_pos]
  exact List.findIdx_lt_length_of_exists ⟨true, h, rfl⟩

theorem SameLayout.padded {idx : List MixedIndex} (h : SameLayout idx) (hm : .array ∈ idx) (n : Nat) : SameLayout (padded idx n) := by
  have e1 : ∀ k, (List.replicate k MixedIndex.all).map advanced = List.replicate k false := by
    intro k; rw [List.map_replicate]; rfl
  have e2 : ∀ k, axisKinds (List.replicate k MixedIndex.all) = List.replicate k false := by
    intro k
    induction k with
    | zero => rfl
    | succ k ih =>
      rw [List.replicate_succ, List.replicate_succ, ← ih]
      rfl
  have e3 : ∀ k, axisKinds (idx ++ List.replicate k MixedIndex.all) = axisKinds idx ++ List.replicate k false := by
    intro k
    rw [← e2]
    exact List.filterMap_append ..
  have hk : true ∈ axisKinds idx := List.mem_filterMap.2 ⟨_, hm, rfl⟩
  unfold SameLayout Verif.MixedIndex.padded
  rw [List.map_append, e1, e3, separated_trailing, separated_trailing, leading_trailing _ _ hk]
  exact h

/-! ## Values -/

/-- All that is needed of the values of the symbols. -/
structure Script.World (t : Script) (vals : Nat → Val) : Prop where
  made : t.Made
  follows : t.Follows vals vals
  shapes : ∀ i < t.length, (vals i).map Arr.shape = (t.row i).out.shapes
  fine : ∀ i < t.length, ∀ a ∈ vals i, a.Fine
  regular : ∀ i < t.length, (t.row i).Regular
  plain : t.PlainWhere
  good : ∀ i < t.length, ∀ sh ∈ (t.row i).out.shapes, GoodShape sh
  item : ∀ {s s' : Script} {x j : Nat} {idx : List PyIndex}, s.getitem x idx = .ok (s', j) → s' <+: t →
    (SameLayout (padded (idx.map PyIndex.mixed) (t.row x).out.shape.length) ∨ ∀ i ∈ PyIndex.symbols idx, (t.row i).out.shape = []) →
    ∃ (v : Arr Rat) (ys : List (Arr Rat)) (z : Arr Rat), vals x = [v] ∧ (PyIndex.symbols idx).map vals = ys.map (fun y => [y]) ∧
      vals j = [z] ∧ numpyGetitem v.present (idx.map PyIndex.mixed) (ys.map Arr.present) = some z.present

/-- An array symbol. -/
structure Script.Shown (t : Script) (vals : Nat → Val) (a : Nat) (x : Arr Rat) : Prop where
  lt : a < t.length
  shape : (t.row a).out.shapes = [x.shape]
  value : vals a = [x]
  fine : x.Fine

namespace Script.World

variable {t : Script} {vals : Nat → Val}

theorem shown (W : t.World vals) {a : Nat} (ha : a < t.length) {x : Arr Rat} (hx : vals a = [x]) : t.Shown vals a x :=
  ⟨ha, by rw [← W.shapes a ha, hx]; rfl, hx, W.fine a ha x (by rw [hx]; simp)⟩

/-- A new symbol of the catalog. -/
theorem kind (W : t.World vals) {s : Script} {k : Kind} {ops : List Nat} {r : Script × Nat} (h : s.add (.kind k) ops = .ok r)
    (hr : r.1 <+: t) : r.2 < t.length ∧
      ∃ out, k.make (ops.map fun p => (t.row p).out.shapes) = .ok out ∧ k.Regular (ops.map fun p => (t.row p).out.shapes) ∧
        k.GivenShapes ∧ k.PlainWhere (ops.map fun p => (t.row p).out.shapes) ∧ (∀ sh ∈ out, GoodShape sh) ∧
        (t.row r.2).out.shapes = out ∧
        (k.isDecision = false → vals r.2 = (k.node (ops.map fun p => (t.row p).out.shapes) out).f (ops.map vals)) := by
  obtain ⟨s', j⟩ := r
  obtain ⟨hj, _, ⟨hops, hb⟩, _⟩ := add_made h hr
  dsimp only at hops hb hj hr ⊢
  obtain ⟨sizes, _, hins, _, how⟩ := W.made.how hj
  have hi : (t.row j).ins.map Info.shapes = ops.map fun p => (t.row p).out.shapes := by
    rw [hins, hops, List.map_map]
    rfl
  cases how with
  | basic hb' => rw [hb] at hb'; cases hb'
  | advanced hb' => rw [hb] at hb'; cases hb'
  | permutation hb' => rw [hb] at hb'; cases hb'
  | @kind k' asked shapes hb' _ _ hm ho =>
    rw [hb] at hb'
    cases hb'
    have hreg := W.regular j hj
    unfold Row.Regular at hreg
    rw [hb] at hreg
    have hpl := W.plain j hj k hb
    have hval := W.follows j hj
    rw [hi] at hm hreg hpl
    have hout : (t.row j).out.shapes = shapes := by rw [ho]
    refine ⟨hj, shapes, hm, hreg.1, hreg.2, hpl, ?_, hout, fun hd => ?_⟩
    · rw [← hout]
      exact W.good j hj
    · have hdec : (t.row j).decision = false := by unfold Row.decision; rw [hb]; exact hd
      rw [hdec] at hval
      simp only [Bool.false_eq_true, if_false] at hval
      rw [hval, hops, ← hi, ← hout]
      unfold Row.node
      rw [hb]

theorem array (W : t.World vals) {s : Script} {k : Kind} {ops : List Nat} {r : Script × Nat} (h : s.add (.kind k) ops = .ok r)
    (hr : r.1 <+: t) (hk : k.isArray = true) : ∃ z, t.Shown vals r.2 z := by
  obtain ⟨hj, out, hm, _, _, _, _, ho, _⟩ := W.kind h hr
  have hl := Kind.make_array hk hm
  have := W.shapes _ hj
  rw [ho] at this
  obtain ⟨z, hz⟩ := List.length_eq_one_iff.1 (by rw [← hl, ← this, List.length_map] : (vals r.2).length = 1)
  exact ⟨z, W.shown hj hz⟩

end Script.World

namespace Code

/-- The names, the objective and the constraints show what the code has computed. -/
structure Shows (s : Code) (t : Script) (vals : Nat → Val) (w : NumPy) : Prop where
  env : ∀ v, w.env v = (s.names v).map fun a => (single (vals a)).present
  objective : w.objective = s.M.objective.map fun a => (single (vals a)).present
  constraints : w.constraints = s.M.constraints.map fun a => (single (vals a)).present
  named : ∀ x a, s.names x = some a → ∃ X, t.Shown vals a X

variable {s : Code} {t : Script} {vals : Nat → Val} {w : NumPy}

theorem Shows.get (h : s.Shows t vals w) {x a : Nat} (hx : s.names x = some a) {X : Arr Rat} (hX : t.Shown vals a X) :
    w.env x = some X.present := by
  rw [h.env, hx, Option.map_some, hX.value]
  rfl

theorem Shows.gets (h : s.Shows t vals w) : ∀ {xs as : List Nat}, List.Forall₂ (fun x a => s.names x = some a) xs as →
    ∃ Xs : List (Arr Rat), List.Forall₂ (fun a X => t.Shown vals a X) as Xs ∧
      List.Forall₂ (fun x X => w.env x = some X) xs (Xs.map Arr.present)
  | [], [], _ => ⟨[], .nil, .nil⟩
  | x :: xs, a :: as, .cons hx hxs => by
    obtain ⟨X, hX⟩ := h.named x a hx
    obtain ⟨Xs, h1, h2⟩ := h.gets hxs
    exact ⟨X :: Xs, .cons hX h1, .cons (h.get hx hX) h2⟩

theorem shown_shapes : ∀ {as : List Nat} {Xs : List (Arr Rat)}, List.Forall₂ (fun a X => t.Shown vals a X) as Xs →
    (as.map fun p => (t.row p).out.shapes) = Xs.map (fun z => [z.shape]) ∧ as.map vals = Xs.map (fun z => [z]) ∧ ∀ z ∈ Xs, z.Fine
  | [], [], _ => ⟨rfl, rfl, by simp⟩
  | a :: as, X :: Xs, .cons h hs => by
    obtain ⟨h1, h2, h3⟩ := shown_shapes hs
    refine ⟨by rw [List.map_cons, h1, h.shape]; rfl, by rw [List.map_cons, h2, h.value]; rfl, fun z hz => ?_⟩
    rcases List.mem_cons.1 hz with rfl | hz
    · exact h.fine
    · exact h3 z hz

/-- The product of `n` times the same. -/
theorem power_call {X : Arr Rat} {n : Nat} {out : List (List Int)} (hX : X.Fine) (hn : 1 ≤ n)
    (hm : (Kind.nary .multiply).make ((List.replicate n X).map fun z => [z.shape]) = .ok out) :
    (single (((Kind.nary .multiply).node ((List.replicate n X).map fun z => [z.shape]) out).f ((List.replicate n X).map fun z => [z]))).present =
      ⟨X.present.shape, X.present.data.map (· ^ n)⟩ := by
  obtain ⟨j, rfl⟩ : ∃ j, n = j + 1 := ⟨n - 1, by omega⟩
  have hf : ∀ z ∈ List.replicate (j + 1) X, z.Fine := fun z hz => by rw [List.eq_of_mem_replicate hz]; exact hX
  rw [nary_f]
  have hm' := hm
  rw [List.replicate_succ] at hm' hf
  obtain ⟨_, ho, _⟩ := nary_call hf hm'
  have e3 : naryValue NaryOp.multiply.numpy (List.replicate (j + 1) X) = X.data.map (· ^ (j + 1)) := naryValue_replicate _ j
  rw [ho, e3, ← unary_present]
  rfl

/-- Right-hand sides. -/
theorem call_value (W : t.World vals) (h : s.Shows t vals w) {c : PyCall} {r : Script × Nat} (hc : s.call c = .ok r) (hr : r.1 <+: t)
    {given : List (Arr Rat)} (hg : given = (vals r.2).map Arr.present) :
    ∃ Z, t.Shown vals r.2 Z ∧ c.numpy (given.headD ⟨[], []⟩) w.env = some Z.present := by
  cases c <;> simp only [call, Res.bind_eq_ok] at hc
  case constant a =>
    obtain ⟨Z, hZ⟩ := W.array hc hr rfl
    obtain ⟨_, out, _, _, hgv, _, _, _, hval⟩ := W.kind hc hr
    have hval := hval rfl
    rw [hZ.value] at hval
    have : Z = a := (List.cons.inj hval).1
    subst this
    exact ⟨Z, hZ, congrArg some (present_fixed (fixed_of_nonneg hgv)).symm⟩
  case decision k =>
    obtain ⟨_, hk, hc⟩ := hc
    have hk := guardThrow_eq_ok.1 hk
    simp only [Bool.and_eq_true] at hk
    obtain ⟨Z, hZ⟩ := W.array hc hr hk.2
    refine ⟨Z, hZ, ?_⟩
    rw [hg, hZ.value]
    rfl
  case name x =>
    obtain ⟨a, hx, hc⟩ := hc
    have hx := lookup_eq hx
    rw [← Res.ok.inj hc]
    obtain ⟨X, hX⟩ := h.named x a hx
    exact ⟨X, hX, h.get hx hX⟩
  case unary op x =>
    obtain ⟨a, hx, hc⟩ := hc
    have hx := lookup_eq hx
    obtain ⟨Z, hZ⟩ := W.array hc hr rfl
    obtain ⟨_, out, hm, _, _, _, _, _, hval⟩ := W.kind hc hr
    have hval := hval rfl
    obtain ⟨X, hX⟩ := h.named x a hx
    have e1 : [a].map (fun p => (t.row p).out.shapes) = [[X.shape]] := by rw [List.map_cons, List.map_nil, hX.shape]
    have e2 : [a].map vals = [[X]] := by rw [List.map_cons, List.map_nil, hX.value]
    rw [e1] at hm hval
    rw [e2, hZ.value] at hval
    refine ⟨Z, hZ, ?_⟩
    show (w.env x).bind _ = _
    rw [h.get hx hX]
    have := unary_call hm
    rw [← hval] at this
    exact congrArg some this.symm
  case binary op x y =>
    obtain ⟨a, hx, b, hy, hc⟩ := hc
    have hx := lookup_eq hx
    have hy := lookup_eq hy
    obtain ⟨Z, hZ⟩ := W.array hc hr rfl
    obtain ⟨_, out, hm, hreg, _, _, _, _, hval⟩ := W.kind hc hr
    have hval := hval rfl
    obtain ⟨X, hX⟩ := h.named x a hx
    obtain ⟨Y, hY⟩ := h.named y b hy
    obtain ⟨e1, e2, _⟩ := shown_shapes (.cons hX (.cons hY .nil))
    rw [e1] at hm hval hreg
    rw [e2, hZ.value] at hval
    simp only [List.map_cons, List.map_nil] at hm hreg
    refine ⟨Z, hZ, ?_⟩
    show (w.env x).bind _ = _
    rw [h.get hx hX]
    show (w.env y).bind _ = _
    rw [h.get hy hY]
    exact (binary_call hX.fine hY.fine hm hreg).trans (congrArg (fun v => some (single v).present) hval.symm)
  case nary op x y z more =>
    obtain ⟨as, hxs, hc⟩ := hc
    have hxs := lookups_eq hxs
    obtain ⟨Z, hZ⟩ := W.array hc hr rfl
    obtain ⟨_, out, hm, _, _, _, _, _, hval⟩ := W.kind hc hr
    have hval := hval rfl
    obtain ⟨Xs, h1, h2⟩ := h.gets hxs
    obtain ⟨e1, e2, e3⟩ := shown_shapes h1
    rw [e1] at hm hval
    rw [e2, hZ.value] at hval
    refine ⟨Z, hZ, ?_⟩
    cases Xs with
    | nil => cases h2
    | cons X Xs =>
      obtain ⟨hz, _⟩ := nary_call e3 hm
      rw [← hval] at hz
      rw [List.map_cons] at h2
      cases h2 with
      | cons hx hys =>
        show (w.env x).bind _ = _
        rw [hx]
        exact (numpy_lookups hys _).trans hz
  case power x n =>
    obtain ⟨a, hx, hc⟩ := hc
    have hx := lookup_eq hx
    obtain ⟨X, hX⟩ := h.named x a hx
    split_ifs at hc with h1 h2
    · rw [← Res.ok.inj hc]
      refine ⟨X, hX, ?_⟩
      show (w.env x).bind _ = _
      rw [h.get hx hX, h1]
      show (if (1 : Int) ≤ 1 then _ else none) = _
      rw [if_pos (le_refl _)]
      simp
    · obtain ⟨Z, hZ⟩ := W.array hc hr rfl
      obtain ⟨_, out, hm, _, _, _, _, _, hval⟩ := W.kind hc hr
      have hval := hval rfl
      have e1 : [a].map (fun p => (t.row p).out.shapes) = [[X.shape]] := by rw [List.map_cons, List.map_nil, hX.shape]
      have e2 : [a].map vals = [[X]] := by rw [List.map_cons, List.map_nil, hX.value]
      rw [e1] at hm hval
      rw [e2, hZ.value] at hval
      refine ⟨Z, hZ, ?_⟩
      show (w.env x).bind _ = _
      rw [h.get hx hX, h2]
      have := unary_call hm
      rw [← hval] at this
      exact congrArg some this.symm
    · simp only [Res.bind_eq_ok] at hc
      obtain ⟨_, hn, _, _, hc⟩ := hc
      have hn := guardThrow_eq_ok.1 hn
      obtain ⟨Z, hZ⟩ := W.array hc hr rfl
      obtain ⟨_, out, hm, _, _, _, _, _, hval⟩ := W.kind hc hr
      have hval := hval rfl
      have e1 : (List.replicate n.toNat a).map (fun p => (t.row p).out.shapes) = (List.replicate n.toNat X).map fun z => [z.shape] := by
        rw [List.map_replicate, List.map_replicate, hX.shape]
      have e2 : (List.replicate n.toNat a).map vals = (List.replicate n.toNat X).map fun z => [z] := by
        rw [List.map_replicate, List.map_replicate, hX.value]
      rw [e1] at hm hval
      rw [e2, hZ.value] at hval
      have := power_call hX.fine (by omega) hm
      rw [← hval] at this
      refine ⟨Z, hZ, ?_⟩
      show (w.env x).bind _ = _
      rw [h.get hx hX]
      show (if 1 ≤ n then _ else none) = _
      rw [if_pos (by omega)]
      exact congrArg some this.symm
  case reduce op x =>
    obtain ⟨a, hx, hc⟩ := hc
    have hx := lookup_eq hx
    obtain ⟨Z, hZ⟩ := W.array hc hr (by cases op <;> rfl)
    obtain ⟨_, out, hm, _, _, _, _, _, hval⟩ := W.kind hc hr
    have hval := hval (by cases op <;> rfl)
    obtain ⟨X, hX⟩ := h.named x a hx
    have e1 : [a].map (fun p => (t.row p).out.shapes) = [[X.shape]] := by rw [List.map_cons, List.map_nil, hX.shape]
    have e2 : [a].map vals = [[X]] := by rw [List.map_cons, List.map_nil, hX.value]
    rw [e1] at hm hval
    rw [e2, hZ.value] at hval
    obtain ⟨z, hz, hf⟩ := PyReduce.numpy_kind hX.fine hm
    rw [hf] at hval
    have : Z = ⟨[], [z]⟩ := (List.cons.inj hval).1
    subst this
    refine ⟨_, hZ, ?_⟩
    show (w.env x).bind _ = _
    rw [h.get hx hX]
    show (op.numpy X.data).bind _ = _
    rw [hz]
    rfl
  case sumAxis x axis =>
    obtain ⟨a, hx, _, hax, hc⟩ := hc
    have hax := guardThrow_eq_ok.1 hax
    have hx := lookup_eq hx
    obtain ⟨Z, hZ⟩ := W.array hc hr rfl
    obtain ⟨_, out, hm, _, _, _, _, _, hval⟩ := W.kind hc hr
    have hval := hval rfl
    obtain ⟨X, hX⟩ := h.named x a hx
    have e1 : [a].map (fun p => (t.row p).out.shapes) = [[X.shape]] := by rw [List.map_cons, List.map_nil, hX.shape]
    have e2 : [a].map vals = [[X]] := by rw [List.map_cons, List.map_nil, hX.value]
    rw [e1] at hm hval
    rw [e2, hZ.value] at hval
    obtain ⟨hl, hz⟩ := sumAxis_call hX.fine hm
    rw [← hval] at hz
    refine ⟨Z, hZ, ?_⟩
    show (w.env x).bind _ = _
    rw [h.get hx hX]
    show (if 0 ≤ axis ∧ axis < (X.present.shape.length : Int) then _ else none) = _
    rw [if_pos ⟨hax.1, by omega⟩]
    exact congrArg some hz.symm
  case reshape x shape =>
    obtain ⟨a, hx, hc⟩ := hc
    have hx := lookup_eq hx
    obtain ⟨Z, hZ⟩ := W.array hc hr rfl
    obtain ⟨_, out, hm, _, _, _, hgood, _, hval⟩ := W.kind hc hr
    have hval := hval rfl
    obtain ⟨X, hX⟩ := h.named x a hx
    have e1 : [a].map (fun p => (t.row p).out.shapes) = [[X.shape]] := by rw [List.map_cons, List.map_nil, hX.shape]
    have e2 : [a].map vals = [[X]] := by rw [List.map_cons, List.map_nil, hX.value]
    rw [e1] at hm hval
    rw [e2, hZ.value] at hval
    obtain ⟨hl, hz⟩ := reshape_call hgood hX.fine hm
    rw [← hval] at hz
    refine ⟨Z, hZ, ?_⟩
    show (w.env x).bind _ = _
    rw [h.get hx hX]
    show (if (∀ d ∈ shape, 0 ≤ d) ∧ shapeProd shape = shapeProd X.present.shape then _ else none) = _
    rw [if_pos hl]
    exact congrArg some hz.symm
  case where_ c x y =>
    obtain ⟨e, hc', a, hx, b, hy, hc⟩ := hc
    have hc' := lookup_eq hc'
    have hx := lookup_eq hx
    have hy := lookup_eq hy
    obtain ⟨Z, hZ⟩ := W.array hc hr rfl
    obtain ⟨_, out, hm, _, _, hpw, _, _, hval⟩ := W.kind hc hr
    have hval := hval rfl
    obtain ⟨C, hC⟩ := h.named c e hc'
    obtain ⟨X, hX⟩ := h.named x a hx
    obtain ⟨Y, hY⟩ := h.named y b hy
    obtain ⟨e1, e2, _⟩ := shown_shapes (.cons hC (.cons hX (.cons hY .nil)))
    rw [e1] at hm hval hpw
    rw [e2, hZ.value] at hval
    simp only [List.map_cons, List.map_nil] at hm hpw
    refine ⟨Z, hZ, ?_⟩
    show (w.env c).bind _ = _
    rw [h.get hc' hC]
    show (w.env x).bind _ = _
    rw [h.get hx hX]
    show (w.env y).bind _ = _
    rw [h.get hy hY]
    exact (where_call hC.fine hX.fine hY.fine hm hpw).trans (congrArg (fun v => some (single v).present) hval.symm)

/-- A name gets a new meaning. -/
theorem Shows.bind (h : s.Shows t vals w) {v : Nat} {r : Script × Nat} {Z : Arr Rat} (hZ : t.Shown vals r.2 Z) :
    (s.bind v r).Shows t vals (w.bind v Z.present) := by
  refine ⟨fun u => ?_, h.objective, h.constraints, fun x a hx => ?_⟩
  · show (if u = v then some Z.present else w.env u) = Option.map _ (if u = v then some r.2 else s.names u)
    split_ifs
    · rw [Option.map_some, hZ.value]; rfl
    · exact h.env u
  · have hx : (if x = v then some r.2 else s.names x) = some a := hx
    split_ifs at hx
    · rw [← Option.some.inj hx]
      exact ⟨Z, hZ⟩
    · exact h.named x a hx

theorem mapM_env {env : Nat → Option (Arr Rat)} : ∀ {xs : List Nat} {as : List (Arr Rat)}, List.Forall₂ (fun x a => env x = some a) xs as →
    xs.mapM env = some as
  | [], [], _ => rfl
  | x :: xs, a :: as, .cons h hs => by
    rw [List.mapM_cons, h, mapM_env hs]
    rfl

/-- `v += x` and `v *= x`. -/
theorem inplace_value (W : t.World vals) (h : s.Shows t vals w) {op : NaryOp} {v x : Nat} {s' : Code} (hs : s.inplace op v x = .ok s')
    (hr : s'.M.rows <+: t) : ∃ A B Z, w.env v = some A ∧ w.env x = some B ∧ numpyZip op.numpy A B = some Z ∧
      s'.Shows t vals (w.bind v Z) := by
  simp only [inplace, Res.bind_eq_ok] at hs
  obtain ⟨a, ha, b, hb, _, _, r, hc, hs⟩ := hs
  rw [← Res.ok.inj hs] at hr ⊢
  have ha := lookup_eq ha
  have hb := lookup_eq hb
  have hr : r.1 <+: t := hr
  obtain ⟨Z, hZ⟩ := W.array hc hr rfl
  obtain ⟨_, out, hm, _, _, _, _, _, hval⟩ := W.kind hc hr
  have hval := hval rfl
  obtain ⟨X, hX⟩ := h.named v a ha
  obtain ⟨Y, hY⟩ := h.named x b hb
  obtain ⟨e1, e2, e3⟩ := shown_shapes (.cons hX (.cons hY .nil))
  rw [e1] at hm hval
  rw [e2, hZ.value] at hval
  obtain ⟨hz, _⟩ := nary_call e3 hm
  rw [← hval] at hz
  refine ⟨_, _, _, h.get ha hX, h.get hb hY, ?_, h.bind hZ⟩
  have e : single [Z] = Z := rfl
  simpa [e] using hz

/-- The outputs of a decision that consists of several arrays. -/
theorem outputs_value (W : t.World vals) {M : Generated} {made : List Nat} {main : Nat} :
    ∀ {vs : List Nat} {i : Nat} {Xs : List (Arr Rat)} {r q : Script × (Nat → Option Nat)} {w : NumPy}, (vals main).drop i = Xs →
      Xs.length = vs.length → outputs main i vs r = .ok q → q.1 <+: t → (⟨{ M with rows := r.1 }, r.2, made⟩ : Code).Shows t vals w →
      (⟨{ M with rows := q.1 }, q.2, made⟩ : Code).Shows t vals (w.bindAll vs (Xs.map Arr.present))
  | [], i, Xs, r, q, w, hX, hl, h, hq, hs => by
    rw [← Res.ok.inj h]
    obtain rfl : Xs = [] := List.length_eq_zero_iff.1 hl
    exact hs
  | v :: vs, i, [], r, q, w, hX, hl, h, hq, hs => by simp at hl
  | v :: vs, i, X :: Xs, r, q, w, hX, hl, h, hq, hs => by
    simp only [outputs, Res.bind_eq_ok] at h
    obtain ⟨p, hp, h⟩ := h
    have hpt : p.1 <+: t := (outputs_grows h).pre.trans hq
    obtain ⟨Z, hZ⟩ := W.array hp hpt rfl
    obtain ⟨_, out, _, _, _, _, _, _, hval⟩ := W.kind hp hpt
    have hval := hval rfl
    rw [hZ.value] at hval
    have hZX : Z = X := by
      have e : Z = (vals main).getD i ⟨[], []⟩ := (List.cons.inj hval).1
      have e2 : (vals main)[i]? = some X := by
        have := congrArg List.head? hX
        rwa [List.head?_drop] at this
      rw [e, List.getD_eq_getElem?_getD, e2]
      rfl
    subst hZX
    refine outputs_value W (i := i + 1) (Xs := Xs) ?_ (by simpa using hl) h hq ⟨fun u => ?_, hs.objective, hs.constraints, fun x a hx => ?_⟩
    · rw [← List.drop_drop, hX]
      rfl
    · show (if u = v then some Z.present else w.env u) = Option.map _ (if u = v then some p.2 else r.2 u)
      split_ifs
      · rw [Option.map_some, hZ.value]; rfl
      · exact hs.env u
    · have hx : (if x = v then some p.2 else r.2 x) = some a := hx
      split_ifs at hx
      · rw [← Option.some.inj hx]
        exact ⟨Z, hZ⟩
      · exact hs.named x a hx

theorem disjoint_value (W : t.World vals) (h : s.Shows t vals w) {k : Kind} {vs : List Nat} {s' : Code} (hs : s.disjoint k vs = .ok s')
    (hk : ∀ ps out, k.make ps = .ok out → out.length = vs.length) (hr : s'.M.rows <+: t) :
    ∃ a, s'.made = s.made ++ [a] ∧ ((vals a).map Arr.present).length = vs.length ∧
      s'.Shows t vals (w.bindAll vs ((vals a).map Arr.present)) := by
  obtain ⟨r, q, hr1, hq, rfl⟩ := disjoint_eq hs
  have hqt : q.1 <+: t := hr
  have hrt : r.1 <+: t := (outputs_grows hq).pre.trans hqt
  obtain ⟨hj, out, hm, _, _, _, _, ho, _⟩ := W.kind hr1 hrt
  have hl : (vals r.2).length = vs.length := by
    have := W.shapes _ hj
    rw [← hk _ _ hm, ← ho, ← this, List.length_map]
  refine ⟨r.2, rfl, by rw [List.length_map, hl], ?_⟩
  exact outputs_value W (i := 0) rfl hl hq hqt ⟨h.env, h.objective, h.constraints, h.named⟩

/-- One statement. -/
theorem step_value (W : t.World vals) (h : s.Shows t vals w) {p : CodeStmt} {s' : Code} (hs : s.step p = .ok s') (hr : s'.M.rows <+: t)
    (hp : PlainLayout [p]) : ∃ a w', s'.made = s.made ++ [a] ∧ p.numpy ((vals a).map Arr.present) w = some w' ∧ s'.Shows t vals w' := by
  cases p <;> simp only [step, Res.bind_eq_ok] at hs
  case assign v c =>
    obtain ⟨r, hc, hs⟩ := hs
    rw [← Res.ok.inj hs] at hr ⊢
    obtain ⟨Z, hZ, hn⟩ := call_value W h hc hr rfl
    refine ⟨r.2, _, rfl, ?_, h.bind hZ⟩
    show (c.numpy _ w.env).bind _ = _
    rw [hn]
    rfl
  case getitem v x idx =>
    obtain ⟨a, hx, is, his, r, hc, hs⟩ := hs
    rw [← Res.ok.inj hs] at hr ⊢
    have hx := lookup_eq hx
    obtain ⟨e, f⟩ := index_eq his
    obtain ⟨X, hX⟩ := h.named x a hx
    obtain ⟨Ys, h1, h2⟩ := h.gets f
    have hl : SameLayout (padded (is.map PyIndex.mixed) (t.row a).out.shape.length) ∨
        ∀ i ∈ PyIndex.symbols is, (t.row i).out.shape = [] := by
      cases hsym : PyIndex.symbols idx with
      | nil =>
        rw [hsym] at f
        right
        rw [List.forall₂_nil_left_iff.1 f]
        simp
      | cons i l =>
        left
        rw [e]
        exact (hp v x idx (by simp) (by rw [hsym]; simp)).padded (PyIndex.array_mem hsym) _
    obtain ⟨r1, j⟩ := r
    obtain ⟨X', Ys', Z, k1, k2, k3, k4⟩ := W.item hc hr hl
    have hj : j < t.length := (getitem_bounds hc hr).2.1
    have eX : X' = X := by
      rw [hX.value] at k1
      exact (List.cons.inj k1).1.symm
    have eY : Ys' = Ys := by
      rw [(shown_shapes h1).2.1] at k2
      have := congrArg (List.map single) k2
      rw [List.map_map, List.map_map] at this
      have e : (single ∘ fun z : Arr Rat => [z]) = id := rfl
      rw [e, List.map_id, List.map_id] at this
      exact this.symm
    rw [eX, eY, e] at k4
    refine ⟨j, _, rfl, ?_, h.bind (r := (r1, j)) (W.shown hj k3)⟩
    show (w.env x).bind _ = _
    rw [h.get hx hX]
    show ((PyIndex.symbols idx).mapM w.env).bind _ = _
    rw [mapM_env h2]
    show (numpyGetitem _ _ _).bind _ = _
    rw [k4]
    rfl
  case size v x =>
    obtain ⟨a, hx, _, _, r, hc, hs⟩ := hs
    rw [← Res.ok.inj hs] at hr ⊢
    have hx := lookup_eq hx
    have hr : r.1 <+: t := hr
    obtain ⟨X, hX⟩ := h.named x a hx
    obtain ⟨Z, hZ⟩ := W.array hc hr rfl
    obtain ⟨_, out, _, _, _, _, _, _, hval⟩ := W.kind hc hr
    have hval := hval rfl
    have e2 : [a].map vals = [[X]] := by rw [List.map_cons, List.map_nil, hX.value]
    rw [e2, hZ.value] at hval
    refine ⟨r.2, _, rfl, ?_, h.bind hZ⟩
    show (w.env x).bind _ = _
    rw [h.get hx hX]
    have : Z = ⟨[], [(X.data.length : Rat)]⟩ := (List.cons.inj hval).1
    rw [this]
    rfl
  case disjointLists vs n =>
    obtain ⟨a, h1, h2, h3⟩ := disjoint_value W h hs (fun ps out hm => by
      cases ps with
      | nil =>
        simp only [Kind.make, Res.bind_eq_ok] at hm
        obtain ⟨_, _, _, _, hm⟩ := hm
        rw [← Res.ok.inj hm]
        simp
      | cons => cases hm) hr
    exact ⟨a, _, h1, if_pos h2, h3⟩
  case disjointBitSets vs n =>
    obtain ⟨a, h1, h2, h3⟩ := disjoint_value W h hs (fun ps out hm => by
      cases ps with
      | nil =>
        simp only [Kind.make, Res.bind_eq_ok] at hm
        obtain ⟨_, _, _, _, hm⟩ := hm
        rw [← Res.ok.inj hm]
        simp
      | cons => cases hm) hr
    exact ⟨a, _, h1, if_pos h2, h3⟩
  case iadd v x =>
    obtain ⟨a, ha⟩ := (step_grows (p := .iadd v x) hs).2.1
    obtain ⟨A, B, Z, h1, h2, h3, h4⟩ := inplace_value W h hs hr
    refine ⟨a, _, ha, ?_, h4⟩
    show (w.env v).bind _ = _
    rw [h1]
    show (w.env x).bind _ = _
    rw [h2]
    show (numpyZip NaryOp.add.numpy A B).bind _ = _
    rw [h3]
    rfl
  case imul v x =>
    obtain ⟨a, ha⟩ := (step_grows (p := .imul v x) hs).2.1
    obtain ⟨A, B, Z, h1, h2, h3, h4⟩ := inplace_value W h hs hr
    refine ⟨a, _, ha, ?_, h4⟩
    show (w.env v).bind _ = _
    rw [h1]
    show (w.env x).bind _ = _
    rw [h2]
    show (numpyZip NaryOp.multiply.numpy A B).bind _ = _
    rw [h3]
    rfl
  case minimize v =>
    obtain ⟨a, hx, M, hM, hs⟩ := hs
    rw [← Res.ok.inj hs]
    have hx := lookup_eq hx
    obtain ⟨rfl, _⟩ := minimize_eq hM
    obtain ⟨X, hX⟩ := h.named v a hx
    refine ⟨a, { w with objective := some X.present }, rfl, ?_, h.env, ?_, h.constraints, h.named⟩
    · show (w.env v).bind _ = _
      rw [h.get hx hX]
      rfl
    · show some X.present = some (single (vals a)).present
      rw [hX.value]
      rfl
  case constraint v =>
    obtain ⟨a, hx, M, hM, hs⟩ := hs
    rw [← Res.ok.inj hs]
    have hx := lookup_eq hx
    obtain ⟨rfl, _⟩ := addConstraint_eq hM
    obtain ⟨X, hX⟩ := h.named v a hx
    refine ⟨a, { w with constraints := w.constraints ++ [X.present] }, rfl, ?_, h.env, h.objective, ?_, h.named⟩
    · show (w.env v).bind _ = _
      rw [h.get hx hX]
      rfl
    · show w.constraints ++ [X.present] = (s.M.constraints ++ [a]).map _
      rw [h.constraints, List.map_append, List.map_cons, List.map_nil, hX.value]
      rfl

/-- All statements. -/
theorem run_value (W : t.World vals) : ∀ {ps : List CodeStmt} {s s' : Code} {w : NumPy}, s.Shows t vals w → s.run ps = .ok s' →
    s'.M.rows <+: t → PlainLayout ps →
    ∃ w', codeNumpy (fun k => (vals (s'.made.getD k 0)).map Arr.present) s.made.length w ps = some w' ∧ s'.Shows t vals w'
  | [], s, s', w, h, hs, hr, hp => by
    rw [← Res.ok.inj hs]
    exact ⟨w, rfl, h⟩
  | p :: ps, s, s', w, h, hs, hr, hp => by
    simp only [run, Res.bind_eq_ok] at hs
    obtain ⟨s1, h1, hs⟩ := hs
    obtain ⟨g1, g2, g3, _⟩ := run_grows hs
    obtain ⟨a, w1, e1, e2, e3⟩ := step_value W h h1 (g1.pre.trans hr) (fun v x idx hm => hp v x idx (by
      rw [List.mem_singleton.1 hm]; simp))
    obtain ⟨w', e4, e5⟩ := run_value W e3 hs hr (fun v x idx hm => hp v x idx (by simp [hm]))
    have ea : s'.made.getD s.made.length 0 = a := by
      obtain ⟨l, hl⟩ := g2
      rw [← hl, e1, List.getD_eq_getElem?_getD, List.append_assoc, List.getElem?_append_right (le_refl _)]
      simp
    refine ⟨w', ?_, e5⟩
    show (p.numpy ((vals (s'.made.getD s.made.length 0)).map Arr.present) w).bind _ = _
    rw [ea, e2]
    show codeNumpy _ _ w1 ps = _
    rw [e1, List.length_append] at e4
    exact e4

end Code
end Verif
