import Verif.Model.Comparisons
import Verif.Props.Expressions

/-!
# C76: comparisons, truth values and conversions to integers
-/

namespace Verif

open Draft Graph

/-! ## NumPy's comparisons -/

theorem numpyFits_comm {a b : List Int} : NumpyFits a b ↔ NumpyFits b a := by
  unfold NumpyFits
  rw [max_comm]
  refine forall_congr' fun i => forall_congr' fun _ => ?_
  constructor <;> rintro (h | h | h) <;> simp [h]

theorem broadcastDims_comm {a b : List Int} (h : NumpyFits a b) : broadcastDims a b = broadcastDims b a := by
  unfold broadcastDims
  rw [max_comm]
  congr 1
  refine List.map_congr_left fun i hi => ?_
  have := h i (by rw [max_comm]; exact List.mem_range.1 hi)
  rcases this with h | h | h
  · rw [h]
  · rw [if_pos h]
    split_ifs with h'
    · rw [h, h']
    · rfl
  · rw [if_pos h]
    split_ifs with h'
    · rw [h, h']
    · rfl

theorem numpyZip_comm {f g : Rat → Rat → Rat} (hfg : ∀ x y, f x y = g y x) (a b : Arr Rat) : numpyZip f a b = numpyZip g b a := by
  unfold numpyZip
  by_cases h : NumpyFits a.shape b.shape
  · rw [if_pos h, if_pos (numpyFits_comm.1 h), broadcastDims_comm h]
    simp only [hfg]
  · rw [if_neg h, if_neg (fun h' => h (numpyFits_comm.1 h'))]

theorem Comparison.numpy_swap (op : Comparison) (x y : Rat) : op.swap.numpy x y = op.numpy y x := by
  cases op <;> simp [Comparison.swap, Comparison.numpy, eq_comm]

/-! ## Comparisons of symbols -/

/-- The kind of a new binary symbol. -/
theorem construct_kind {decl : Symbols → Graph → Nat → Claim} {d d' : Draft} {t : Nat} {o : BinaryOp} {ops : List Nat}
    (h : d.perform decl (.construct t (.binary o) ops) = (d', .ok ())) : d'.S.kind t = .binary o := by
  simp only [perform, emplace, emplaceWith] at h
  split at h
  · cases h
  · split at h
    · cases h
    · split at h
      · have h : _ = d' := congrArg Prod.fst h
        rw [← h]
        simp [enter, upd, Kind.resolve]
      · cases h
      · cases h

/-- How the comparisons of two symbols are carried out. -/
theorem compare_symbols (decl : Symbols → Graph → Nat → Claim) (d : Draft) (t a b : Nat) :
    (d.compare decl t .eq (.symbol a) (.symbol b) =
      match d.perform decl (.construct t (.binary .equal) [a, b]) with
      | (d, .ok _) => (d, .ok (.symbol t))
      | (d, .throw) => (d, .throw)
      | (d, .ub) => (d, .ub)) ∧
    (d.compare decl t .le (.symbol a) (.symbol b) =
      match d.perform decl (.construct t (.binary .lessEqual) [a, b]) with
      | (d, .ok _) => (d, .ok (.symbol t))
      | (d, .throw) => (d, .throw)
      | (d, .ub) => (d, .ub)) ∧
    (d.compare decl t .ge (.symbol a) (.symbol b) =
      match d.perform decl (.construct t (.binary .lessEqual) [b, a]) with
      | (d, .ok _) => (d, .ok (.symbol t))
      | (d, .throw) => (d, .throw)
      | (d, .ub) => (d, .ub)) ∧
    d.compare decl t .lt (.symbol a) (.symbol b) = (d, .throw) ∧ d.compare decl t .gt (.symbol a) (.symbol b) = (d, .throw) ∧
    (d.compare decl t .ne (.symbol a) (.symbol b) =
      match d.perform decl (.construct t (.binary .equal) [a, b]) with
      | (d, .ok _) => (d, .throw)
      | (d, .throw) => (d, .throw)
      | (d, .ub) => (d, .ub)) := by
  have hs : ∀ (d : Draft) op a b, d.slot decl t op (.symbol a) (.symbol b) = d.arraySlot decl t op a (.symbol b) := by
    intro d op a b
    simp only [slot]
    cases d.S.kind a <;> rfl
  refine ⟨?_, ?_, ?_, ?_, ?_, ?_⟩
  · simp only [Draft.compare, hs, arraySlot]
    rcases d.perform decl (.construct t (.binary .equal) [a, b]) with ⟨d', r⟩
    cases r <;> rfl
  · simp only [Draft.compare, hs, arraySlot]
    rcases d.perform decl (.construct t (.binary .lessEqual) [a, b]) with ⟨d', r⟩
    cases r <;> rfl
  · simp only [Draft.compare, hs, arraySlot, Comparison.swap]
    rcases d.perform decl (.construct t (.binary .lessEqual) [b, a]) with ⟨d', r⟩
    cases r <;> rfl
  · simp only [Draft.compare, hs, arraySlot, Comparison.swap]
  · simp only [Draft.compare, hs, arraySlot, Comparison.swap]
  · simp only [Draft.compare, hs, arraySlot]
    rcases hp : d.perform decl (.construct t (.binary .equal) [a, b]) with ⟨d', r⟩
    cases r with
    | ok _ => simp only [Draft.truth, construct_kind hp]
    | throw => rfl
    | ub => rfl

/-- The same comparison as a call. -/
def CompareStmt.call : CompareStmt → PyStmt
  | plain p => p
  | compare v .le x y => .assign v (.binary .lessEqual x y)
  | compare v .ge x y => .assign v (.binary .lessEqual y x)
  | compare v _ x y => .assign v (.binary .equal x y)

/-- The operators that make symbols. -/
def CompareStmt.Makes : CompareStmt → Prop
  | plain _ => True
  | compare _ op _ _ => op = .eq ∨ op = .le ∨ op = .ge

theorem compareStep_ok {decl : Symbols → Graph → Nat → Claim} {s s' : Py} {t : Nat} {p : CompareStmt}
    (h : s.compareStep decl t p = .ok s') : p.Makes ∧ s.step decl t p.call = .ok s' := by
  cases p with
  | plain p => exact ⟨trivial, h⟩
  | compare v op x y =>
    simp only [Py.compareStep, Res.bind_eq_ok] at h
    obtain ⟨a, ha, b, hb, h⟩ := h
    obtain ⟨e1, e2, e3, e4, e5, e6⟩ := compare_symbols decl s.d t a b
    cases op with
    | lt => rw [e4] at h; cases h
    | gt => rw [e5] at h; cases h
    | ne =>
      rw [e6] at h
      rcases hp : s.d.perform decl (.construct t (.binary .equal) [a, b]) with ⟨d', r⟩
      rw [hp] at h
      cases r <;> cases h
    | eq =>
      rw [e1] at h
      refine ⟨.inl rfl, ?_⟩
      simp only [CompareStmt.call, Py.step, PyCall.eval, ha, hb, Res.ok_bind, Py.new]
      rcases hp : s.d.perform decl (.construct t (.binary .equal) [a, b]) with ⟨d', r⟩
      rw [hp] at h
      cases r <;> exact h
    | le =>
      rw [e2] at h
      refine ⟨.inr (.inl rfl), ?_⟩
      simp only [CompareStmt.call, Py.step, PyCall.eval, ha, hb, Res.ok_bind, Py.new]
      rcases hp : s.d.perform decl (.construct t (.binary .lessEqual) [a, b]) with ⟨d', r⟩
      rw [hp] at h
      cases r <;> exact h
    | ge =>
      rw [e3] at h
      refine ⟨.inr (.inr rfl), ?_⟩
      simp only [CompareStmt.call, Py.step, PyCall.eval, ha, hb, Res.ok_bind, Py.new]
      rcases hp : s.d.perform decl (.construct t (.binary .lessEqual) [b, a]) with ⟨d', r⟩
      rw [hp] at h
      cases r <;> exact h

theorem compareRun_ok {decl : Symbols → Graph → Nat → Claim} {ps : List CompareStmt} :
    ∀ {t : Nat} {s s' : Py}, Py.compareRun decl t s ps = .ok s' →
      (∀ p ∈ ps, p.Makes) ∧ Py.run decl t s (ps.map CompareStmt.call) = .ok s' := by
  induction ps with
  | nil => exact fun h => ⟨by simp, h⟩
  | cons p ps ih =>
    intro t s s' h
    simp only [Py.compareRun, Res.bind_eq_ok] at h
    obtain ⟨s1, h1, h2⟩ := h
    obtain ⟨p1, p2⟩ := compareStep_ok h1
    obtain ⟨q1, q2⟩ := ih h2
    exact ⟨by simpa using ⟨p1, q1⟩, by simp only [List.map_cons, Py.run, p2, Res.ok_bind, q2]⟩

theorem call_numpy {p : CompareStmt} (hp : p.Makes) (given : Arr Rat) (w : NumPy) : p.call.numpy given w = p.numpy given w := by
  cases p with
  | plain p => rfl
  | compare v op x y =>
    rcases hp with rfl | rfl | rfl
    · simp only [CompareStmt.call, PyStmt.numpy, PyCall.numpy, CompareStmt.numpy]
      cases w.env x <;> cases w.env y <;> rfl
    · simp only [CompareStmt.call, PyStmt.numpy, PyCall.numpy, CompareStmt.numpy]
      cases w.env x <;> cases w.env y <;> rfl
    · simp only [CompareStmt.call, PyStmt.numpy, PyCall.numpy, CompareStmt.numpy]
      cases w.env x <;> cases w.env y <;> try rfl
      rename_i a b
      have := numpyZip_comm (f := Comparison.ge.numpy) (g := BinaryOp.lessEqual.numpy) (fun _ _ => rfl) a b
      simp [this]

theorem calls_numpy {given : Nat → Arr Rat} {ps : List CompareStmt} (hp : ∀ p ∈ ps, p.Makes) :
    ∀ (t : Nat) (w : NumPy), numpyRun given t w (ps.map CompareStmt.call) = compareRun given t w ps := by
  induction ps with
  | nil => exact fun _ _ => rfl
  | cons p ps ih =>
    intro t w
    simp only [List.map_cons, numpyRun, compareRun, call_numpy (hp p (by simp)), ih fun q hq => hp q (by simp [hq])]

theorem call_names {p : CompareStmt} (N : Names) : N.step p.call = N.compareStep p := by
  cases p with
  | plain p => rfl
  | compare v op x y =>
    have hsw : N.use [y, x] = N.use [x, y] := by
      simp only [Names.use, List.mem_cons, List.not_mem_nil, or_false]
      congr 1
      funext v
      rw [Bool.eq_iff_iff]
      simp [and_comm]
    cases op <;> simp only [CompareStmt.call, Names.step, Names.compareStep, PyCall.used, hsw]

theorem calls_careful {ps : List CompareStmt} (h : CarefulCompare ps) : Careful (ps.map CompareStmt.call) := by
  obtain ⟨N, h⟩ := h
  refine ⟨N, ?_⟩
  rw [← h, List.foldlM_map]
  congr 1
  funext N p
  exact call_names N

/-- C76 for code: Python code as in `C62_expressions_partial` in which symbols are also compared with `<`, `<=`, `==`, `!=`, `>` and
`>=`.  If it runs to the end without an exception and the model is locked, then every initial state can be made, and after any history
of proposals every name shows the array that the same code computes with NumPy arrays, and so do the objective and the constraints.

Partial: what C62 excludes. -/
theorem C76_code_partial {decl : Symbols → Graph → Nat → Claim} {ps : List CompareStmt} {s : Py}
    (h : Py.compareProgram decl ps = .ok s) (hc : CarefulCompare ps) (hreg : s.d.Regular) (hpw : s.d.PlainWhere)
    {A : Nat → Val} (hA : s.d.S.Admissible s.d.m.g A) :
    (∃ f, initAll s.d.m.g (s.d.S.sem s.d.m.g) A PState.empty = .ok f ∧ ∀ v ∈ s.d.m.g.nodes, (f.cell v).isSome) ∧
    ∀ {st : St (s.d.S.sem s.d.m.g)}, s.d.S.Started s.d.m.g A st →
    ∀ moves : List (Proposal (s.d.S.sem s.d.m.g) (List Move)), (∀ p ∈ moves, p.Legal s.d.m.g) →
    ∀ {r : St (s.d.S.sem s.d.m.g) × (Int → Bool)},
      history s.d.m.g [] (s.d.S.sem s.d.m.g) (s.d.S.act s.d.m.g) (st, fun _ => false) moves = .ok r →
    ∃ w, compareRun (fun t => (single (s.d.S.shown s.d.m.g r.1 t)).present) 0 .start ps = some w ∧
      (∀ v, w.env v = (s.names v).map fun a => (single (s.d.S.shown s.d.m.g r.1 a)).present) ∧
      w.objective = s.d.m.g.objective.map (fun a => (single (s.d.S.shown s.d.m.g r.1 a)).present) ∧
      w.constraints = s.d.m.g.constraints.map fun a => (single (s.d.S.shown s.d.m.g r.1 a)).present := by
  simp only [Py.compareProgram, Res.bind_eq_ok] at h
  obtain ⟨s1, h1, h2⟩ := h
  obtain ⟨hm, hr⟩ := compareRun_ok h1
  have hp : Py.program decl (ps.map CompareStmt.call) = .ok s := by
    simp only [Py.program, hr, Res.ok_bind, h2]
  simp only [← calls_numpy hm]
  exact C62_expressions_partial hp (calls_careful hc) hreg hpw hA

/-! ## Exceptions -/

/-- A comparison other than `!=` that raises an exception leaves the model as it was; so does `!=` if one side is a number. -/
theorem C76_raises_partial {decl : Symbols → Graph → Nat → Claim} {d d' : Draft} {t : Nat} {op : Comparison} {v w : PyObj}
    (h : d.compare decl t op v w = (d', .throw)) (hn : op = .ne → ∀ a b, (v, w) ≠ (.symbol a, .symbol b)) : d' = d := by
  have hnum : ∀ {op : Comparison} {v w : PyObj} {r}, (∀ a b, (v, w) ≠ (.symbol a, .symbol b)) → d.slot decl t op v w = r → r.1 = d := by
    rintro op v w r hv rfl
    rcases v with a | p <;> rcases w with b | q
    · exact absurd rfl (hv a b)
    · unfold slot
      dsimp only
      split
      · split <;> rfl
      · unfold arraySlot
        split <;> simp_all
    · rfl
    · rfl
  by_cases hv : ∀ a b, (v, w) ≠ (.symbol a, .symbol b)
  · have hw : ∀ a b, (w, v) ≠ (.symbol a, .symbol b) := by
      intro a b hab
      simp only [Prod.mk.injEq] at hab
      exact hv b a (by rw [hab.1, hab.2])
    unfold Draft.compare at h
    rcases h1 : d.slot decl t op v w with ⟨d1, r1⟩
    obtain rfl : d1 = d := hnum hv h1
    rw [h1] at h
    rcases r1 with (_ | r) | _ | _
    · dsimp only at h
      rcases h2 : d1.slot decl t op.swap w v with ⟨d2, r2⟩
      obtain rfl : d2 = d1 := hnum hw h2
      rw [h2] at h
      rcases r2 with (_ | r) | _ | _
      · cases op <;> cases h <;> rfl
      all_goals cases h <;> rfl
    all_goals cases h <;> rfl
  · push Not at hv
    obtain ⟨a, b, hab⟩ := hv
    simp only [Prod.mk.injEq] at hab
    obtain ⟨rfl, rfl⟩ := hab
    obtain ⟨e1, e2, e3, e4, e5, e6⟩ := compare_symbols decl d t a b
    cases op with
    | lt => rw [e4] at h; cases h; rfl
    | gt => rw [e5] at h; cases h; rfl
    | ne => exact absurd rfl (hn rfl a b)
    | eq =>
      rw [e1] at h
      rcases hp : d.perform decl (.construct t (.binary .equal) [a, b]) with ⟨d1, r⟩
      rw [hp] at h
      cases r <;> cases h
      exact C48_unchanged_partial hp (by simp)
    | le =>
      rw [e2] at h
      rcases hp : d.perform decl (.construct t (.binary .lessEqual) [a, b]) with ⟨d1, r⟩
      rw [hp] at h
      cases r <;> cases h
      exact C48_unchanged_partial hp (by simp)
    | ge =>
      rw [e3] at h
      rcases hp : d.perform decl (.construct t (.binary .lessEqual) [b, a]) with ⟨d1, r⟩
      rw [hp] at h
      cases r <;> cases h
      exact C48_unchanged_partial hp (by simp)

/-- `x != y` never gives anything for two symbols: it raises an exception, and then the model is what `x == y` makes of it. -/
theorem C76_unequal (decl : Symbols → Graph → Nat → Claim) (d : Draft) (t a b : Nat) :
    (d.compare decl t .ne (.symbol a) (.symbol b)).1 = (d.compare decl t .eq (.symbol a) (.symbol b)).1 ∧
    ((d.compare decl t .ne (.symbol a) (.symbol b)).2 = .throw ∨ (d.compare decl t .ne (.symbol a) (.symbol b)).2 = .ub) := by
  obtain ⟨e1, _, _, _, _, e6⟩ := compare_symbols decl d t a b
  rw [e1, e6]
  rcases d.perform decl (.construct t (.binary .equal) [a, b]) with ⟨d1, r⟩
  cases r <;> simp

/-! ## Numbers -/

/-- A constant and a number are compared as NumPy does it, in either order; the model is not changed. -/
theorem C76_constant (decl : Symbols → Graph → Nat → Claim) {d : Draft} {a : Nat} {A : Arr Rat} (ha : d.S.kind a = .constant A) (t : Nat)
    (op : Comparison) (q : Rat) :
    (∃ r, numpyZip op.numpy A (scalarArr q) = some r ∧ d.compare decl t op (.symbol a) (.number q) = (d, .ok (.array r))) ∧
    ∃ r, numpyZip op.numpy (scalarArr q) A = some r ∧ d.compare decl t op (.number q) (.symbol a) = (d, .ok (.array r)) := by
  have hfit : ∀ sh : List Int, NumpyFits sh [] := by
    intro sh i _
    exact .inr (.inr (by simp [dimR]))
  have hz : ∀ f, ∃ r, numpyZip f A (scalarArr q) = some r := fun f => by
    unfold numpyZip
    exact ⟨_, if_pos (hfit _)⟩
  refine ⟨?_, ?_⟩
  · obtain ⟨r, hr⟩ := hz op.numpy
    refine ⟨r, hr, ?_⟩
    simp only [Draft.compare, slot, ha, hr]
  · obtain ⟨r, hr⟩ := hz op.swap.numpy
    refine ⟨r, ?_, ?_⟩
    · rw [← hr]
      exact numpyZip_comm (fun x y => (op.numpy_swap y x).symm) _ _
    · simp only [Draft.compare, slot, ha, hr]

/-- Any other symbol and a number: `==` is `False`, `!=` is `True`, the others raise an exception; the model is not changed. -/
theorem C76_number (decl : Symbols → Graph → Nat → Claim) {d : Draft} {a : Nat} (ha : ∀ A, d.S.kind a ≠ .constant A) (t : Nat)
    (op : Comparison) (q : Rat) (v w : PyObj) (hvw : (v, w) = (.symbol a, .number q) ∨ (v, w) = (.number q, .symbol a)) :
    d.compare decl t op v w = (d, if op = .eq then .ok (.bool false) else if op = .ne then .ok (.bool true) else .throw) := by
  have hs : ∀ op, d.slot decl t op (.symbol a) (.number q) = (d, .ok none) := by
    intro op
    simp only [slot]
    try (split <;> simp_all [arraySlot])
  have hn : ∀ op, d.slot decl t op (.number q) (.symbol a) = (d, .ok none) := fun _ => rfl
  rcases hvw with h | h
  all_goals
    simp only [Prod.mk.injEq] at h
    obtain ⟨rfl, rfl⟩ := h
    cases op <;> simp [Draft.compare, hs, hn]

/-! ## Truth values and conversions -/

/-- `bool(x)` is what NumPy says, if it is defined; it is for constants without dimensions, and raises an exception otherwise. -/
theorem C76_truth (d : Draft) (a : Nat) :
    (∀ b, d.truth a = .ok b → ∃ A, d.S.kind a = .constant A ∧ A.shape = [] ∧ numpyTruth A = some b) ∧
    (∀ q, d.S.kind a = .constant ⟨[], [q]⟩ → d.truth a = .ok (decide (q ≠ 0))) ∧
    ((∀ q, d.S.kind a ≠ .constant ⟨[], [q]⟩) → d.truth a = .throw) := by
  refine ⟨fun b h => ?_, fun q h => ?_, fun h => ?_⟩
  · unfold Draft.truth at h
    split at h
    · rename_i A hA
      obtain ⟨_, hg, h⟩ := Res.bind_eq_ok.1 h
      have hg := guardThrow_eq_ok.1 hg
      rcases A with ⟨sh, data⟩
      obtain rfl : sh = [] := List.eq_nil_of_length_eq_zero hg.2
      obtain ⟨q, rfl⟩ := List.length_eq_one_iff.1 hg.1
      exact ⟨_, hA, rfl, by rw [← Res.ok.inj h]; rfl⟩
    · cases h
  · simp only [Draft.truth, h]
    rfl
  · unfold Draft.truth
    split
    · rename_i A hA
      rw [guardThrow, if_neg]
      · rfl
      · rintro ⟨h1, h2⟩
        rcases A with ⟨sh, data⟩
        obtain rfl : sh = [] := List.eq_nil_of_length_eq_zero h2
        obtain ⟨q, rfl⟩ := List.length_eq_one_iff.1 h1
        exact h q hA
    · rfl

/-- `x.__index__()`: the value of a constant without dimensions that is an integer in the range of indices; otherwise an exception, as
long as the number is not beyond that range. -/
theorem C76_index_partial (d : Draft) (a : Nat) :
    (∀ n, d.index a = .ok n ↔ d.S.kind a = .constant ⟨[], [(n : Rat)]⟩ ∧ IsSS n) ∧
    ((∀ n : Int, d.S.kind a ≠ .constant ⟨[], [(n : Rat)]⟩) → d.index a = .throw) := by
  refine ⟨fun n => ⟨fun h => ?_, fun ⟨h, hn⟩ => ?_⟩, fun h => ?_⟩
  · unfold index at h
    split at h
    · rename_i A hA
      obtain ⟨_, hg, h⟩ := Res.bind_eq_ok.1 h
      have hg := guardThrow_eq_ok.1 hg
      obtain ⟨_, hd, h⟩ := Res.bind_eq_ok.1 h
      have hd := guardThrow_eq_ok.1 hd
      obtain ⟨_, hi, h⟩ := Res.bind_eq_ok.1 h
      have hi := guardUB_eq_ok.1 hi
      rcases A with ⟨sh, data⟩
      obtain rfl : sh = [] := List.eq_nil_of_length_eq_zero hg.2
      obtain ⟨q, rfl⟩ := List.length_eq_one_iff.1 hg.1
      obtain rfl : q.num = n := Res.ok.inj h
      exact ⟨by rw [hA]; congr 3; exact (Rat.den_eq_one_iff q).1 hd |>.symm, hi⟩
    · cases h
  · simp only [index, h]
    rw [guardThrow_true ⟨rfl, rfl⟩, Res.ok_bind, guardThrow_true (by simp), Res.ok_bind, guardUB_true (by simpa using hn), Res.ok_bind]
    simp
  · unfold index
    split
    · rename_i A hA
      by_cases hg : A.data.length = 1 ∧ A.shape.length = 0
      · rw [guardThrow_true hg, Res.ok_bind]
        rcases A with ⟨sh, data⟩
        obtain rfl : sh = [] := List.eq_nil_of_length_eq_zero hg.2
        obtain ⟨q, rfl⟩ := List.length_eq_one_iff.1 hg.1
        rw [guardThrow, if_neg]
        · rfl
        · intro hd
          exact h q.num (by rw [hA]; congr 3; exact ((Rat.den_eq_one_iff q).1 hd).symm)
      · rw [guardThrow, if_neg hg]
        rfl
    · rfl

/-- `x ** c` with a constant `c` that is an integer is the power of `x` by that integer. -/
theorem C76_power {decl : Symbols → Graph → Nat → Claim} {d : Draft} {x e t : Nat} {n : Int}
    (h : d.S.kind e = .constant ⟨[], [(n : Rat)]⟩) (hn : IsSS n) : d.powSymbol decl x e t = d.pow decl x t n := by
  simp only [powSymbol, ((C76_index_partial d e).1 n).2 ⟨h, hn⟩]

/-! ## Code that meets the hypotheses -/

namespace CompareExample

open BuildExample (decl)

/-- ```
x = model.integer(2, lower_bound=0, upper_bound=10)
c = model.constant(3)
y = model.integer(2, lower_bound=0, upper_bound=10)
b = x >= c
e = x == y
l = y <= x
a = b.all()
model.add_constraint(a)
``` -/
def code : List CompareStmt :=
  [.plain (.assign 0 (.decision (.integer [2] (some 0) (some 10)))), .plain (.assign 1 (.constant ⟨[], [3]⟩)),
    .plain (.assign 2 (.decision (.integer [2] (some 0) (some 10)))), .compare 3 .ge 0 1, .compare 4 .eq 0 2, .compare 5 .le 2 0,
    .plain (.assign 6 (.reduce .all 3)), .plain (.constraint 6)]

def after : Py := match Py.compareProgram decl code with
  | .ok s => s
  | _ => .start

/-- Not vacuous: the hypotheses of `C76_code_partial` hold of this code. -/
example : Py.compareProgram decl code = .ok after ∧ CarefulCompare code ∧ after.d.Regular ∧ after.d.PlainWhere ∧
    after.d.m.g.nodes = [0, 2, 1, 3, 4, 5, 6] ∧ (after.d.m.g.mem 3).preds = [1, 0] ∧ (after.d.m.g.mem 4).preds = [0, 2] ∧
    after.d.S.Admissible after.d.m.g fun v => if v = 0 then [⟨[2], [2, 5]⟩] else [⟨[2], [4, 5]⟩] := by
  have hnodes : after.d.m.g.nodes = [0, 2, 1, 3, 4, 5, 6] := by decide +kernel
  have hdec : after.d.m.g.decisions = [0, 2] := by decide +kernel
  have each : ∀ {P : Nat → Prop}, P 0 → P 1 → P 2 → P 3 → P 4 → P 5 → P 6 → ∀ v ∈ after.d.m.g.nodes, P v := by
    intro P h0 h1 h2 h3 h4 h5 h6 v hv
    rw [hnodes] at hv
    simp only [List.mem_cons, List.not_mem_nil, or_false] at hv
    rcases hv with rfl | rfl | rfl | rfl | rfl | rfl | rfl <;> assumption
  refine ⟨rfl, ⟨_, rfl⟩, ?_, ?_, hnodes, by decide +kernel, by decide +kernel, ?_⟩
  · exact each ⟨rfl, by show ∀ n ∈ [(2 : Int)], 0 ≤ n; decide⟩ ⟨rfl, by show ∀ n ∈ ([] : List Int), 0 ≤ n; decide⟩
      ⟨rfl, by show ∀ n ∈ [(2 : Int)], 0 ≤ n; decide⟩ ⟨⟨fun h => (by cases h), fun h => (by cases h)⟩, trivial⟩
      ⟨⟨fun h => (by cases h), fun h => (by cases h)⟩, trivial⟩ ⟨⟨fun h => (by cases h), fun h => (by cases h)⟩, trivial⟩
      ⟨trivial, trivial⟩
  · exact each trivial trivial trivial trivial trivial trivial trivial
  · intro v hv
    rw [hdec] at hv
    simp only [List.mem_cons, List.not_mem_nil, or_false] at hv
    rcases hv with rfl | rfl
    · exact ⟨[2, 5], rfl, rfl, fun v hv => isValid_iff.1
        ((by decide +kernel : ∀ v ∈ ([2, 5] : List Rat), (Kind.numNode [2] (some 0) (some 10)).isValid v = true) v hv)⟩
    · exact ⟨[4, 5], rfl, rfl, fun v hv => isValid_iff.1
        ((by decide +kernel : ∀ v ∈ ([4, 5] : List Rat), (Kind.numNode [2] (some 0) (some 10)).isValid v = true) v hv)⟩

/-- A model with two integers, the constants 3, `[5]`, 2^63 and -2. -/
def steps : List BuildOp :=
  [.construct 0 (.integer [2] (some 0) (some 10)) [], .construct 1 (.integer [2] (some 0) (some 10)) [],
    .construct 2 (.constant ⟨[], [3]⟩) [], .construct 3 (.constant ⟨[1], [5]⟩) [], .construct 4 (.constant ⟨[], [2 ^ 63]⟩) [],
    .construct 5 (.constant ⟨[2], [-2, 4]⟩) []]

def made : Draft := match Draft.new.run decl steps with
  | .ok d => d
  | _ => .new

theorem made_eq : Draft.new.run decl steps = .ok made := rfl

/-- A comparison with a number on the left, the truth value of a constant, and a power. -/
example : (made.compare decl 6 .lt (.number 3) (.symbol 5)).2 = .ok (.array ⟨[2], [0, 1]⟩) ∧ made.truth 2 = .ok true ∧
    made.index 2 = .ok 3 ∧ (made.powSymbol decl 0 2 6).2 = .ok 6 := ⟨rfl, rfl, rfl, rfl⟩

end CompareExample

/-! ## Where it fails -/

open CompareExample BuildExample in
/-- `x != y` raises an exception, but leaves a symbol that nobody asked for in the model. -/
theorem C76_unequal_fails : ∃ (decl : Symbols → Graph → Nat → Claim) (ops : List BuildOp) (d d' : Draft) (a b t : Nat),
    Draft.new.run decl ops = .ok d ∧ d.compare decl t .ne (.symbol a) (.symbol b) = (d', .throw) ∧
    d.m.g.nodes.length = 6 ∧ d'.m.g.nodes = d.m.g.nodes ++ [t] :=
  ⟨decl, steps, made, _, 0, 1, 6, made_eq, rfl, rfl, rfl⟩

open CompareExample BuildExample in
/-- So does `x <= y <= x`. -/
theorem C76_chained_fails : ∃ (decl : Symbols → Graph → Nat → Claim) (ops : List BuildOp) (d d' : Draft) (a b t : Nat),
    Draft.new.run decl ops = .ok d ∧ d.chained decl t .le .le a b a = (d', .throw) ∧ d'.m.g.nodes = d.m.g.nodes ++ [t] :=
  ⟨decl, steps, made, _, 0, 1, 6, made_eq, rfl, rfl⟩

open CompareExample BuildExample in
/-- `x == 5` is `False` for an integer array `x`, without an exception; with NumPy it is an array. -/
theorem C76_number_fails : ∃ (decl : Symbols → Graph → Nat → Claim) (ops : List BuildOp) (d : Draft) (a t : Nat),
    Draft.new.run decl ops = .ok d ∧ (d.S.kind a).isDecision = true ∧
    d.compare decl t .eq (.symbol a) (.number 5) = (d, .ok (.bool false)) ∧
    numpyZip Comparison.eq.numpy ⟨[2], [5, 5]⟩ (scalarArr 5) = some ⟨[2], [1, 1]⟩ :=
  ⟨decl, steps, made, 0, 6, made_eq, rfl, rfl, by decide +kernel⟩

open CompareExample BuildExample in
/-- `bool(c)` raises an exception for the constant `[5]`, with one element; with NumPy it is `True`. -/
theorem C76_truth_fails : ∃ (decl : Symbols → Graph → Nat → Claim) (ops : List BuildOp) (d : Draft) (a : Nat) (A : Arr Rat),
    Draft.new.run decl ops = .ok d ∧ d.S.kind a = .constant A ∧ d.truth a = .throw ∧ numpyTruth A = some true :=
  ⟨decl, steps, made, 3, _, made_eq, rfl, rfl, rfl⟩

open CompareExample BuildExample in
/-- The constant 2^63 is converted to an index that it does not fit into: undefined behaviour, also in `x ** c`. -/
theorem C76_index_fails : ∃ (decl : Symbols → Graph → Nat → Claim) (ops : List BuildOp) (d : Draft) (a x t : Nat),
    Draft.new.run decl ops = .ok d ∧ d.S.kind a = .constant ⟨[], [2 ^ 63]⟩ ∧ d.index a = .ub ∧ (d.powSymbol decl x a t).2 = .ub :=
  ⟨decl, steps, made, 4, 0, 6, made_eq, rfl, rfl, rfl⟩

end Verif
