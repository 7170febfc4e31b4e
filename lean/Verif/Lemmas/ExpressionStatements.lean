import Verif.Lemmas.ExpressionSteps

set_option linter.unusedSimpArgs false
set_option linter.unusedVariables false

/-! Helper lemmas: all statements. -/

namespace Verif

open Graph PyModel

namespace Py

theorem lookup_ok {s : Py} {x a : Nat} (h : s.lookup x = .ok a) : s.names x = some a := by
  unfold lookup at h
  cases hx : s.names x with
  | none => rw [hx] at h; cases h
  | some b =>
    rw [hx] at h
    injection h with h
    rw [h]

theorem lookups_ok {s : Py} : ∀ {xs as : List Nat}, xs.mapM s.lookup = .ok as → List.Forall₂ (fun x a => s.names x = some a) xs as
  | [], as, h => by
    injection h with h
    subst h
    exact .nil
  | x :: xs, as, h => by
    rw [List.mapM_cons] at h
    simp only [Res.bind_eq_ok] at h
    obtain ⟨a, ha, as', has, h⟩ := h
    injection h with h
    subst h
    exact .cons (lookup_ok ha) (lookups_ok has)

theorem ended_ok {q : Draft × Res Nat} {r : Draft × Nat} (h : ended q = .ok r) : q = (r.1, .ok r.2) := by
  obtain ⟨d, res⟩ := q
  cases res with
  | ok a =>
    simp only [ended, Res.ok.injEq] at h
    rw [← h]
  | throw => cases h
  | ub => cases h

theorem new_ok {decl : Symbols → Graph → Nat → Claim} {s : Py} {t : Nat} {k : Kind} {ops : List Nat} {r : Draft × Nat}
    (hm : s.d.Made) (ha : k.isArray = true) (ho : ∀ i, k ≠ .output i) (h : s.new decl t k ops = .ok r) :
    r.2 = t ∧ s.d.Grown r.1 t k ops := by
  have h := ended_ok h
  obtain ⟨h1, h2⟩ := Draft.andThen_ok h
  exact ⟨h2, Draft.grown_construct hm ha ho h1⟩

/-- What a symbol that has a name shows. -/
theorem Shows.get {s : Py} {vals : Nat → Val} {w : NumPy} (h : s.Shows vals w) {x a : Nat} (hx : s.names x = some a) :
    w.env x = some (single (vals a)).present := by rw [h.env, hx]; rfl

namespace Follows

variable {s : Py} {N : Names} {ps : List PyStmt} {decl : Symbols → Graph → Nat → Claim}

/-- The right-hand sides that make a new symbol. -/
theorem assigned (h : s.Follows N ps) {c : PyCall} {v : Nat} {r : Draft × Nat} {k : Kind} {ops : List Nat} {fs fp : Bool}
    (hr : r.2 = ps.length ∧ s.d.Grown r.1 ps.length k ops) (hu : ∀ b ∈ ops, ∃ x ∈ c.used, s.names x = some b)
    (hs : k = .nary .add ↔ fs = true) (hp : k = .nary .multiply ↔ fp = true)
    (hn : ∀ vals given w, r.1.Holds vals → s.d.Holds vals → s.Shows vals w →
      (k.isDecision = true → given = (single (vals ps.length)).present) →
      c.numpy given w.env = some (single (vals ps.length)).present) :
    (s.bind v r).Follows ((N.use c.used).bind v true fs fp) (ps ++ [.assign v c]) := by
  obtain ⟨d', a⟩ := r
  obtain ⟨rfl, hg⟩ := hr
  refine h.grow hg hu hs hp fun vals given w h1 h2 h3 h4 => ?_
  show (c.numpy given w.env).bind _ = _
  rw [hn vals given w h1 h2 h3 h4]
  rfl

theorem call (h : s.Follows N ps) {c : PyCall} {v : Nat} {r : Draft × Nat} {N' : Names} (he : c.eval decl s ps.length = .ok r)
    (hN : N.step (.assign v c) = some N') : (s.bind v r).Follows N' (ps ++ [.assign v c]) := by
  cases c with
  | constant a =>
    simp only [Names.step, Option.some.injEq] at hN
    subst hN
    have hr := new_ok h.made rfl (fun _ => by simp) he
    refine h.assigned hr (by simp) (by simp) (by simp) fun vals given w h1 h2 h3 h4 => ?_
    obtain ⟨out, _, _, hgv, _, _, hval⟩ := hr.2.value h1 rfl
    rw [hval]
    exact congrArg some (present_fixed (fixed_of_nonneg hgv)).symm
  | decision k =>
    simp only [Names.step, Option.some.injEq] at hN
    subst hN
    simp only [PyCall.eval, Res.bind_eq_ok] at he
    obtain ⟨_, hk, he⟩ := he
    have hk := guardThrow_eq_ok.1 hk
    simp only [Bool.and_eq_true] at hk
    have hd : ∀ k', Kind.isDecision k' = false → k ≠ k' := fun k' hk' e => by rw [e, hk'] at hk; simp at hk
    have hr := new_ok h.made hk.2 (fun i => hd _ rfl) he
    refine h.assigned hr (by simp) ?_ ?_ fun vals given w h1 h2 h3 h4 => congrArg some (h4 hk.1)
    · exact ⟨fun e => absurd e (hd _ rfl), fun e => by simp at e⟩
    · exact ⟨fun e => absurd e (hd _ rfl), fun e => by simp at e⟩
  | name x =>
    simp only [Names.step, Option.some.injEq] at hN
    subst hN
    simp only [PyCall.eval, Res.bind_eq_ok, Res.ok.injEq] at he
    obtain ⟨a, hx, rfl⟩ := he
    refine h.aliased (lookup_ok hx) fun given w b hb => ?_
    show (w.env x).bind _ = _
    rw [hb]
    rfl
  | unary op x =>
    simp only [Names.step, Option.some.injEq] at hN
    subst hN
    simp only [PyCall.eval, Res.bind_eq_ok] at he
    obtain ⟨a, hx, he⟩ := he
    have hx := lookup_ok hx
    have hr := new_ok h.made rfl (fun _ => by simp) he
    refine h.assigned hr (by simpa [PyCall.used] using hx) (by simp) (by simp) fun vals given w h1 h2 h3 h4 => ?_
    obtain ⟨out, hm, _, _, _, _, hval⟩ := hr.2.value h1 rfl
    have sx := h.shown h2 (h.named x a hx)
    have gx := h3.get hx
    generalize single (vals a) = X at sx gx
    have e1 : [a].map s.d.S.shapes = [[X.shape]] := by rw [List.map_cons, List.map_nil, sx.shape]
    have e2 : [a].map vals = [[X]] := by rw [List.map_cons, List.map_nil, sx.value]
    rw [e1] at hm hval
    rw [e2] at hval
    show (w.env x).bind _ = _
    rw [gx, hval, unary_call hm]
    rfl
  | binary op x y =>
    simp only [Names.step, Option.some.injEq] at hN
    subst hN
    simp only [PyCall.eval, Res.bind_eq_ok] at he
    obtain ⟨a, hx, b, hy, he⟩ := he
    have hx := lookup_ok hx
    have hy := lookup_ok hy
    have hr := new_ok h.made rfl (fun _ => by simp) he
    refine h.assigned hr (by simp [PyCall.used, hx, hy]) (by simp) (by simp) fun vals given w h1 h2 h3 h4 => ?_
    obtain ⟨out, hm, hreg, _, _, _, hval⟩ := hr.2.value h1 rfl
    have sx := h.shown h2 (h.named x a hx)
    have sy := h.shown h2 (h.named y b hy)
    simp only [List.map_cons, List.map_nil, sx.shape, sy.shape] at hm hval hreg
    rw [sx.value, sy.value] at hval
    show (w.env x).bind _ = _
    rw [h3.get hx]
    show (w.env y).bind _ = _
    rw [h3.get hy, hval]
    exact binary_call sx.fine sy.fine hm hreg
  | nary op x y z more =>
    simp only [Names.step, Option.some.injEq] at hN
    subst hN
    simp only [PyCall.eval, Res.bind_eq_ok] at he
    obtain ⟨as, hxs, he⟩ := he
    have hxs := lookups_ok hxs
    have hr := new_ok h.made rfl (fun _ => by simp) he
    have hu : ∀ {xs as : List Nat}, List.Forall₂ (fun x a => s.names x = some a) xs as → ∀ b ∈ as, ∃ x ∈ xs, s.names x = some b := by
      intro xs as hf
      induction hf with
      | nil => simp
      | cons h1 _ ih =>
        intro b hb
        rcases List.mem_cons.1 hb with rfl | hb
        · exact ⟨_, by simp, h1⟩
        · obtain ⟨x, hx, h2⟩ := ih b hb
          exact ⟨x, by simp [hx], h2⟩
    refine h.assigned (c := .nary op x y z more) hr (hu hxs) (by simp) (by simp) fun vals given w h1 h2 h3 h4 => ?_
    obtain ⟨out, hm, _, _, _, _, hval⟩ := hr.2.value h1 rfl
    have hmem : ∀ b ∈ as, b ∈ s.d.m.g.nodes := fun b hb => by
      obtain ⟨x, _, hx⟩ := hu hxs b hb
      exact h.named x b hx
    have e1 : as.map s.d.S.shapes = (as.map fun a => single (vals a)).map fun z => [z.shape] := by
      rw [List.map_map]
      exact List.map_congr_left fun b hb => (h.shown h2 (hmem b hb)).shape
    have e2 : as.map vals = (as.map fun a => single (vals a)).map fun z => [z] := by
      rw [List.map_map]
      exact List.map_congr_left fun b hb => (h.shown h2 (hmem b hb)).value
    rw [e1] at hm hval
    rw [e2] at hval
    have hfine : ∀ z ∈ as.map fun a => single (vals a), z.Fine := by
      intro z hz
      obtain ⟨b, hb, rfl⟩ := List.mem_map.1 hz
      exact (h.shown h2 (hmem b hb)).fine
    cases hxs with
    | @cons _ a _ bs hx hys =>
      obtain ⟨hz, _⟩ := nary_call hfine hm
      rw [hval]
      rw [← List.map_cons (f := fun a => single (vals a))] at hz
      show (w.env x).bind _ = _
      rw [h3.get hx]
      have hf : List.Forall₂ (fun y b => w.env y = some b) (y :: z :: more) ((bs.map fun a => single (vals a)).map Arr.present) := by
        rw [List.map_map, List.forall₂_map_right_iff]
        exact hys.imp fun y b hy => h3.get hy
      exact (numpy_lookups hf _).trans hz
  | power x n =>
    simp only [PyCall.eval, Res.bind_eq_ok] at he
    obtain ⟨a, hx, he⟩ := he
    have hx := lookup_ok hx
    have he := ended_ok he
    have ha := h.named x a hx
    rcases Draft.grown_pow h.made ha he with ⟨rfl, h1, h2⟩ | ⟨rfl, h1, h2⟩ | ⟨hn, h1⟩
    · simp only [Names.step, if_true, Option.some.injEq] at hN
      subst hN
      have : r = (s.d, a) := Prod.ext h1 h2
      rw [this]
      refine h.aliased hx fun given w b hb => ?_
      show ((w.env x).bind _ >>= _) = _
      rw [hb]
      simp [PyStmt.numpy]
    · simp only [Names.step, show ¬ ((2 : Int) = 1) by decide, show ¬ ((3 : Int) ≤ 2) by decide, if_false, false_and,
        decide_false, Option.some.injEq] at hN
      subst hN
      refine h.assigned (c := .power x 2) ⟨h1, h2⟩ (by simpa [PyCall.used] using hx) (by simp) (by simp) fun vals given w k1 k2 k3 k4 => ?_
      obtain ⟨out, hm, _, _, _, _, hval⟩ := h2.value k1 rfl
      have sx := h.shown k2 ha
      have gx := k3.get hx
      generalize single (vals a) = X at sx gx
      have e1 : [a].map s.d.S.shapes = [[X.shape]] := by rw [List.map_cons, List.map_nil, sx.shape]
      have e2 : [a].map vals = [[X]] := by rw [List.map_cons, List.map_nil, sx.value]
      rw [e1] at hm hval
      rw [e2] at hval
      show (w.env x).bind _ = _
      rw [gx, hval, unary_call hm]
      rfl
    · have hn1 : n ≠ 1 := by omega
      simp only [Names.step, if_neg hn1] at hN
      split_ifs at hN with hc
      injection hN with hN
      subst hN
      have hk : s.d.S.kind a ≠ .nary .multiply := fun e => hc ⟨hn, (h.products x a hx).1 e⟩
      obtain ⟨h2, h3⟩ := h1 hk
      refine h.assigned (c := .power x n) ⟨h2, h3⟩ ?_ (by simp) (by simp [hn]) fun vals given w k1 k2 k3 k4 => ?_
      · intro b hb
        exact ⟨x, by simp [PyCall.used], by rw [List.eq_of_mem_replicate hb]; exact hx⟩
      · obtain ⟨out, hm, _, _, _, _, hval⟩ := h3.value k1 rfl
        have sx := h.shown k2 ha
        obtain ⟨j, hj⟩ : ∃ j : Nat, n.toNat = j + 1 := ⟨n.toNat - 1, by omega⟩
        rw [hj] at hm hval
        have e1 : (List.replicate (j + 1) a).map s.d.S.shapes = (List.replicate (j + 1) (single (vals a))).map fun z => [z.shape] := by
          rw [List.map_replicate, List.map_replicate, sx.shape]
        have e2 : (List.replicate (j + 1) a).map vals = (List.replicate (j + 1) (single (vals a))).map fun z => [z] := by
          rw [List.map_replicate, List.map_replicate, ← sx.value]
        rw [e1] at hm hval
        rw [e2, nary_f] at hval
        rw [List.replicate_succ] at hm
        obtain ⟨_, ho, _⟩ := nary_call (fun z hz => by
          have : z = single (vals a) := by
            rcases List.mem_cons.1 hz with h | h
            · exact h
            · exact List.eq_of_mem_replicate h
          rw [this]
          exact sx.fine) hm
        show (w.env x).bind _ = _
        rw [k3.get hx, hval, ho]
        show (if 1 ≤ n then _ else none) = some (⟨(single (vals a)).shape, naryValue NaryOp.multiply.numpy _⟩ : Arr Rat).present
        have e3 : naryValue NaryOp.multiply.numpy (List.replicate (j + 1) (single (vals a))) = (single (vals a)).data.map (· ^ (j + 1)) :=
          naryValue_replicate _ j
        rw [if_pos (by omega), e3, unary_present, hj]
  | reduce op x =>
    simp only [Names.step, Option.some.injEq] at hN
    subst hN
    simp only [PyCall.eval, Res.bind_eq_ok] at he
    obtain ⟨a, hx, he⟩ := he
    have hx := lookup_ok hx
    have hr := new_ok h.made (by cases op <;> rfl) (fun _ => by cases op <;> simp [PyReduce.kind]) he
    refine h.assigned (c := .reduce op x) hr (by simpa [PyCall.used] using hx) (by cases op <;> simp [PyReduce.kind])
      (by cases op <;> simp [PyReduce.kind]) fun vals given w h1 h2 h3 h4 => ?_
    obtain ⟨out, hm, _, _, _, _, hval⟩ := hr.2.value h1 (by cases op <;> rfl)
    have sx := h.shown h2 (h.named x a hx)
    have gx := h3.get hx
    generalize single (vals a) = X at sx gx
    have e1 : [a].map s.d.S.shapes = [[X.shape]] := by rw [List.map_cons, List.map_nil, sx.shape]
    have e2 : [a].map vals = [[X]] := by rw [List.map_cons, List.map_nil, sx.value]
    rw [e1] at hm hval
    rw [e2] at hval
    obtain ⟨z, hz, hf⟩ := PyReduce.numpy_kind sx.fine hm
    rw [hf] at hval
    show (w.env x).bind _ = _
    rw [gx, hval]
    show (op.numpy X.data).bind _ = _
    rw [hz]
    rfl
  | sumAxis x axis =>
    simp only [Names.step, Option.some.injEq] at hN
    subst hN
    simp only [PyCall.eval, Res.bind_eq_ok] at he
    obtain ⟨a, hx, _, hax, he⟩ := he
    have hax := guardThrow_eq_ok.1 hax
    have hx := lookup_ok hx
    have hr := new_ok h.made rfl (fun _ => by simp) he
    refine h.assigned (c := .sumAxis x axis) hr (by simpa [PyCall.used] using hx) (by simp) (by simp) fun vals given w h1 h2 h3 h4 => ?_
    obtain ⟨out, hm, _, _, _, _, hval⟩ := hr.2.value h1 rfl
    have sx := h.shown h2 (h.named x a hx)
    have gx := h3.get hx
    generalize single (vals a) = X at sx gx
    have e1 : [a].map s.d.S.shapes = [[X.shape]] := by rw [List.map_cons, List.map_nil, sx.shape]
    have e2 : [a].map vals = [[X]] := by rw [List.map_cons, List.map_nil, sx.value]
    rw [e1] at hm hval
    rw [e2] at hval
    obtain ⟨hl, hz⟩ := sumAxis_call sx.fine hm
    show (w.env x).bind _ = _
    rw [gx, hval, hz]
    show (if 0 ≤ axis ∧ axis < (X.present.shape.length : Int) then _ else none) = _
    rw [if_pos ⟨hax.1, by omega⟩]
  | reshape x shape =>
    simp only [Names.step, Option.some.injEq] at hN
    subst hN
    simp only [PyCall.eval, Res.bind_eq_ok] at he
    obtain ⟨a, hx, he⟩ := he
    have hx := lookup_ok hx
    have hr := new_ok h.made rfl (fun _ => by simp) he
    refine h.assigned (c := .reshape x shape) hr (by simpa [PyCall.used] using hx) (by simp) (by simp) fun vals given w h1 h2 h3 h4 => ?_
    obtain ⟨out, hm, _, _, _, hgood, hval⟩ := hr.2.value h1 rfl
    have sx := h.shown h2 (h.named x a hx)
    have gx := h3.get hx
    generalize single (vals a) = X at sx gx
    have e1 : [a].map s.d.S.shapes = [[X.shape]] := by rw [List.map_cons, List.map_nil, sx.shape]
    have e2 : [a].map vals = [[X]] := by rw [List.map_cons, List.map_nil, sx.value]
    rw [e1] at hm hval
    rw [e2] at hval
    obtain ⟨hl, hz⟩ := reshape_call hgood sx.fine hm
    show (w.env x).bind _ = _
    rw [gx, hval, hz]
    show (if (∀ d ∈ shape, 0 ≤ d) ∧ shapeProd shape = shapeProd X.present.shape then _ else none) = _
    rw [if_pos hl]
  | where_ c x y =>
    simp only [Names.step, Option.some.injEq] at hN
    subst hN
    simp only [PyCall.eval, Res.bind_eq_ok] at he
    obtain ⟨e, hc, a, hx, b, hy, he⟩ := he
    have hc := lookup_ok hc
    have hx := lookup_ok hx
    have hy := lookup_ok hy
    have hr := new_ok h.made rfl (fun _ => by simp) he
    refine h.assigned (c := .where_ c x y) hr (by simp [PyCall.used, hc, hx, hy]) (by simp) (by simp) fun vals given w h1 h2 h3 h4 => ?_
    obtain ⟨out, hm, _, _, hpw, _, hval⟩ := hr.2.value h1 rfl
    have sc := h.shown h2 (h.named c e hc)
    have sx := h.shown h2 (h.named x a hx)
    have sy := h.shown h2 (h.named y b hy)
    simp only [List.map_cons, List.map_nil, sc.shape, sx.shape, sy.shape] at hm hval hpw
    rw [sc.value, sx.value, sy.value] at hval
    show (w.env c).bind _ = _
    rw [h3.get hc]
    show (w.env x).bind _ = _
    rw [h3.get hx]
    show (w.env y).bind _ = _
    rw [h3.get hy, hval]
    exact where_call sc.fine sx.fine sy.fine hm hpw

end Follows
end Py
end Verif
