import Verif.Lemmas.Generate
import Verif.Lemmas.ScriptOrders

set_option linter.unusedSectionVars false
set_option linter.unusedSimpArgs false
set_option linter.unusedVariables false

/-! Helper lemmas: sums of several numbers, also those to which operands are added in place. -/

namespace Verif

theorem naryFold_numbers (a : Rat) (l : List Rat) :
    (l.map fun x => (⟨[], [x]⟩ : Arr Rat)).foldl (fun val y => y.data.getD 0 default + val) a = a + l.sum := by
  induction l generalizing a with
  | nil => simp
  | cons x l ih =>
    simp only [List.map_cons, List.foldl_cons, List.getD_cons_zero, ih, List.sum_cons]
    ring

theorem naryValue_numbers {l : List Rat} (h : l ≠ []) :
    naryValue (· + ·) (l.map fun x => (⟨[], [x]⟩ : Arr Rat)) = [l.sum] := by
  match l, h with
  | a :: l, _ =>
    show [_] = _
    congr 1
    rw [List.sum_cons]
    exact naryFold_numbers a l

/-- Symbols that add numbers. -/
theorem sum_facts {ps : List (List (List Int))} (hne : ps ≠ []) (hps : ∀ p ∈ ps, p = [[]]) :
    NodeFacts (liftNode (naryNode (· + ·) (some plusInv) [])) ps [[]] := by
  have h := nary_facts (s := []) (naryContractInverse plus_laws rfl) (ss := ps.map fun _ => []) (by simpa using hne)
    (by intro t ht; obtain ⟨_, _, rfl⟩ := List.mem_map.1 ht; rfl)
  have e : (ps.map fun _ => ([] : List Int)).map (fun s => [s]) = ps := by
    rw [List.map_map]
    conv_rhs => rw [← List.map_id ps]
    exact List.map_congr_left fun p hp => (hps p hp).symm
  rwa [e] at h

namespace Script

variable {full : Prop} {P : Nat → Prop} {s s' s'' : Script} {A vals : Nat → Val} {D : Nat → Prop} {adm : (Nat → Val) → Prop}

/-- Changes outside `P`. -/
theorem State.outside (S : State full P s D adm) (e : Ext P s s') (hnew : ∀ i < s'.length, P i → i < s.length)
    (hplain : ∀ i < s'.length, ¬ P i → (s'.row i).decision = false) : State full P s' D adm := by
  have hadm : ∀ A, Admits P s' A ↔ Admits P s A := by
    intro A
    refine ⟨e.admits, fun h i hi hp hd => ?_⟩
    have hl := hnew i hi hp
    rw [e.same i hl hp] at hd ⊢
    exact h i hl hp hd
  refine ⟨⟨?_, ?_, ?_⟩, fun A => (hadm A).trans (S.admits A), ?_⟩
  · intro i hi hp
    rw [e.same i (hnew i hi hp) hp]
    exact S.good.before i (hnew i hi hp) hp
  · intro i hi hp
    rw [e.same i (hnew i hi hp) hp]
    exact S.good.law i (hnew i hi hp) hp
  · intro A vals hA hr i hi hp
    rw [e.same i (hnew i hi hp) hp]
    exact S.good.accepts A vals (e.admits hA) (e.runs hr) i (hnew i hi hp) hp
  · intro i hi hd
    by_cases hp : P i
    · rw [e.same i (hnew i hi hp) hp] at hd
      exact S.dec i (hnew i hi hp) hd
    · rw [hplain i hi hp] at hd
      cases hd

/-- Symbol number `o` is a sum of numbers: of `early`, with which it was made, and of `late`, which were added in place. -/
structure IsSum (P : Nat → Prop) (s : Script) (o : Nat) (early late : List Nat) (gs : List ((Nat → Val) → Rat)) : Prop where
  lt : o < s.length
  built : (s.row o).built = .kind (.nary .add)
  ops : (s.row o).ops = early ++ late
  ins : (s.row o).ins.map Info.shapes = (early ++ late).map fun _ => [[]]
  out : (s.row o).out.shapes = [[]]
  first : early ≠ []
  before : ∀ p ∈ early, p < o
  after : ∀ p ∈ late, o < p
  terms : List.Forall₂ (Computes P s) (early ++ late) gs

variable {o : Nat} {early late : List Nat} {gs : List ((Nat → Val) → Rat)}

theorem IsSum.ext (h : IsSum P s o early late gs) (e : Ext P s s') (hsame : s'.row o = s.row o) : IsSum P s' o early late gs where
  lt := lt_of_lt_of_le h.lt e.len
  built := by rw [hsame]; exact h.built
  ops := by rw [hsame]; exact h.ops
  ins := by rw [hsame]; exact h.ins
  out := by rw [hsame]; exact h.out
  first := h.first
  before := h.before
  after := h.after
  terms := h.terms.imp fun _ _ h => h.mono e

/-- Other symbols are made. -/
theorem IsSum.add (h : IsSum P s o early late gs) {t : Term} {ops : List Nat} {j : Nat} (e : s.add t ops = .ok (s', j)) :
    IsSum P s' o early late gs := by
  obtain ⟨b, out, _, rfl⟩ := add_eq e
  exact h.ext (ext_append _) (row_append h.lt)

theorem terms_lt {ops : List Nat} (h : List.Forall₂ (Computes P s) ops gs) : ∀ p ∈ ops, P p ∧ p < s.length := by
  induction h with
  | nil => simp
  | cons h _ ih =>
    intro p hp
    rcases List.mem_cons.1 hp with rfl | hp
    · obtain ⟨_, _, _, h⟩ := h
      exact ⟨h.is.allowed, h.is.lt⟩
    · exact ih p hp

theorem terms_values (S : State full P s D adm) (hA : adm A) (hr : Runs P s A vals) {ops : List Nat}
    (h : List.Forall₂ (Computes P s) ops gs) : ops.map vals = gs.map fun g => [⟨[], [g A]⟩] := by
  induction h with
  | nil => rfl
  | cons h _ ih =>
    obtain ⟨_, _, _, h⟩ := h
    simp only [List.map_cons, ih, h.is.value A vals ((S.admits A).2 hA) hr]

theorem terms_shapes {ops : List Nat} (h : List.Forall₂ (Computes P s) ops gs) :
    (ops.map fun p => (s.row p).out).map Info.shapes = ops.map fun _ => [[]] := by
  induction h with
  | nil => rfl
  | cons h _ ih =>
    obtain ⟨_, _, _, h⟩ := h
    simp only [List.map_cons, ih, h.out]

/-- `NaryAdd(x, y, ...)` as a symbol that may be changed later. -/
theorem State.startSum (S : State full P s D adm) (hP : ∀ i, P i ↔ i ≠ s.length) {ops : List Nat} (hne : ops ≠ [])
    (hops : List.Forall₂ (Computes P s) ops gs) :
    ∃ s', s.add (.kind (.nary .add)) ops = .ok (s', s.length) ∧ State full P s' D adm ∧ Ext P s s' ∧ s'.length = s.length + 1 ∧
      IsSum P s' s.length ops [] gs := by
  have hsh := terms_shapes hops
  have hm : (Kind.nary .add).make ((ops.map fun p => (s.row p).out).map Info.shapes) = .ok [[]] := by
    rw [hsh]
    show (do
      let ss ← (ops.map fun _ => [([] : List Int)]).mapM Kind.arrayShape
      let t ← naryShape ss
      .ok [t]) = Res.ok [[]]
    have h1 : (ops.map fun _ => [([] : List Int)]).mapM Kind.arrayShape = .ok (ops.map fun _ => []) := by
      clear hops hsh hne
      induction ops with
      | nil => rfl
      | cons p ops ih =>
        rw [List.map_cons, List.mapM_cons, ih]
        rfl
    rw [h1, Res.ok_bind]
    have h2 : ∀ l : List Nat, (l.map fun _ => ([] : List Int)).forM (fun t => do
        guardThrow (dynamicShape t = false)
        guardThrow (([] : List Int) = t)) = Res.ok () := by
      intro l
      induction l with
      | nil => rfl
      | cons p l ih =>
        show (do
          guardThrow (dynamicShape ([] : List Int) = false)
          guardThrow (([] : List Int) = [])
          (l.map fun _ => ([] : List Int)).forM fun t => do
            guardThrow (dynamicShape t = false)
            guardThrow (([] : List Int) = t)) = Res.ok ()
        rw [ih]
        rfl
    match ops, hne with
    | p :: ops, _ =>
      have : naryShape ([] :: ops.map fun _ => []) = .ok [] := by
        unfold naryShape
        have := h2 (p :: ops)
        rw [List.map_cons] at this
        simp only [this, Res.ok_bind]
      rw [List.map_cons, this]
      rfl
  have e : s.add (.kind (.nary .add)) ops = .ok (s ++ [⟨.kind (.nary .add), ops, ops.map fun p => (s.row p).out,
      ⟨[[]], (Kind.nary .add).claimFrom s.sizes (ops.map fun p => (s.row p).out),
        (Kind.nary .add).sizeFrom s.length [[]] ops (ops.map fun p => (s.row p).out), none⟩⟩], s.length) := by
    unfold Script.add
    rw [guardUB_true (fun p hp => (terms_lt hops p hp).2), Res.ok_bind]
    show (do
      let b ← (Kind.nary .add).construct s.length s.sizes ops (ops.map fun p => (s.row p).out)
      Res.ok _) = _
    unfold Kind.construct
    rw [show (Kind.nary NaryOp.add).asks = false from rfl]
    simp only [Bool.false_eq_true, if_false, Res.ok_bind, guardThrow_true (show (Kind.nary .add).rangeChecks [] from trivial), hm]
    rfl
  refine ⟨_, e, S.outside (ext_append _) ?_ ?_, ext_append _, by simp, ?_⟩
  · intro i hi hp
    have := (hP i).1 hp
    simp at hi
    omega
  · intro i hi hp
    have : i = s.length := by
      by_contra hc
      exact hp ((hP i).2 hc)
    subst this
    rw [row_last]
    rfl
  · refine ⟨by simp, by rw [row_last], by rw [row_last, List.append_nil], ?_, by rw [row_last], hne,
      fun p hp => (terms_lt hops p hp).2, by simp, ?_⟩
    · rw [row_last, List.append_nil]
      exact hsh
    · rw [List.append_nil]
      exact hops.imp fun _ _ h => h.mono (ext_append _)

/-- `x += y`. -/
theorem State.addOperand (S : State full P s D adm) (hP : ∀ i, P i ↔ i ≠ o) (h : IsSum P s o early late gs) {y : Nat}
    {g : (Nat → Val) → Rat} (hy : Computes P s y g) (hlt : o < y) :
    ∃ s', s.addOperand o y = .ok s' ∧ State full P s' D adm ∧ Ext P s s' ∧ s'.length = s.length ∧
      IsSum P s' o early (late ++ [y]) (gs ++ [g]) := by
  obtain ⟨c, z, k, hy'⟩ := id hy
  have hys : (s.row y).out.shapes = [[]] := by rw [hy'.out]
  have hys' : (s.row y).out.shape = [] := by unfold Info.shape; rw [hys]; rfl
  have hos' : (s.row o).out.shape = [] := by unfold Info.shape; rw [h.out]; rfl
  have hset : ∀ r : Row, Ext P s (s.set o r) := by
    intro r
    refine ⟨by simp, fun i hi hp => ?_⟩
    have hne : o ≠ i := fun e => (hP i).1 hp e.symm
    unfold row
    rw [List.getD_eq_getElem?_getD, List.getElem?_set_ne hne, ← List.getD_eq_getElem?_getD]
  have hget : ∀ r : Row, row (s.set o r) o = r := by
    intro r
    unfold row
    rw [List.getD_eq_getElem?_getD, List.getElem?_set_self h.lt]
    rfl
  refine ⟨s.set o ⟨(s.row o).built, (s.row o).ops ++ [y], (s.row o).ins ++ [(s.row y).out],
    { (s.row o).out with claim := s.reclaim (s.row o).built ((s.row o).ins ++ [(s.row y).out]) }⟩, ?_, S.outside (hset _) ?_ ?_,
    hset _, by simp, ?_⟩
  · unfold Script.addOperand
    rw [guardUB_true ⟨h.lt, hy'.is.lt⟩, Res.ok_bind, guardThrow_true (by rw [hys']; rfl), Res.ok_bind,
      guardThrow_true (by rw [hys', hos']), Res.ok_bind]
  · intro i hi _
    simpa using hi
  · intro i hi hp
    have : i = o := by
      by_contra hc
      exact hp ((hP i).2 hc)
    subst this
    rw [hget]
    show (s.row i).built.decision = false
    rw [h.built]
    rfl
  · refine ⟨by simpa using h.lt, by rw [hget]; exact h.built, by rw [hget]; simp [h.ops], ?_, by rw [hget]; exact h.out, h.first, h.before,
      ?_, ?_⟩
    · rw [hget]
      show ((s.row o).ins ++ [(s.row y).out]).map Info.shapes = _
      rw [List.map_append, h.ins, ← List.append_assoc, List.map_append (l₁ := early ++ late)]
      simp only [List.map_cons, List.map_nil, hys]
    · intro p hp
      rcases List.mem_append.1 hp with hp | hp
      · exact h.after p hp
      · rw [List.mem_singleton.1 hp]
        exact hlt
    · rw [← List.append_assoc]
      exact List.rel_append (h.terms.imp fun _ _ h => h.mono (hset _)) (.cons (hy.mono (hset _)) .nil)

theorem IsSum.node (h : IsSum P s o early late gs) : (s.row o).node = liftNode (naryNode (· + ·) (some plusInv) []) := by
  show (s.row o).built.node (s.row o).ins (s.row o).out = _
  rw [h.built]
  show (Kind.nary .add).node ((s.row o).ins.map Info.shapes) (s.row o).out.shapes = _
  rw [h.out]
  rfl

/-- Everything is in order with the sum too. -/
theorem IsSum.complete (h : IsSum P s o early late gs) (S : State full P s D adm) (hP : ∀ i, P i ↔ i ≠ o) : Complete full P s := by
  have hout : ∀ i, ¬ P i → i = o := by
    intro i hp
    by_contra hc
    exact hp ((hP i).2 hc)
  have hF : NodeFacts (s.row o).node ((early ++ late).map fun _ => [[]]) [[]] := by
    rw [h.node]
    refine sum_facts (by simp [h.first]) ?_
    intro p hp
    obtain ⟨_, _, rfl⟩ := List.mem_map.1 hp
    rfl
  have h1 : early.filter (· < o) = early := List.filter_eq_self.2 fun p hp => by simpa using h.before p hp
  have h2 : late.filter (· < o) = [] := List.filter_eq_nil_iff.2 fun p hp => by simpa using (h.after p hp).le
  have h3 : early.filter (o ≤ ·) = [] := List.filter_eq_nil_iff.2 fun p hp => by simpa using h.before p hp
  have h4 : late.filter (o ≤ ·) = late := List.filter_eq_self.2 fun p hp => by simpa using (h.after p hp).le
  refine ⟨S.good, ?_, ?_, ?_, ?_, ?_, ?_⟩
  · intro i hi hp
    obtain rfl := hout i hp
    show (s.row i).built.decision = false
    rw [h.built]
    rfl
  · intro i hi hp
    obtain rfl := hout i hp
    rw [h.ops]
    exact terms_lt h.terms
  · intro i hi hp
    obtain rfl := hout i hp
    rw [h.ops, List.filter_append, h1]
    simp [h.first]
  · intro i hi hp
    obtain rfl := hout i hp
    rw [h.ops, List.filter_append, List.filter_append, h1, h2, h3, h4]
    simp
  · intro i hi hp
    obtain rfl := hout i hp
    refine ⟨fun hd => ?_, fun _ => ?_⟩
    · rw [show (s.row i).decision = (s.row i).built.decision from rfl, h.built] at hd
      cases hd
    · obtain ⟨C, hC⟩ := hF.contract
      refine ⟨C, fun xs hx => ?_, fun _ => hC⟩
      rw [h.out]
      exact (hF.out xs hx).1
  · intro A vals hA hr i hi hp
    obtain rfl := hout i hp
    refine hF.accepts _ ?_
    rw [h.ops]
    have := h.terms
    clear hF h1 h2 h3 h4 h
    generalize early ++ late = ops at this
    induction this with
    | nil => exact .nil
    | cons hc _ ih =>
      obtain ⟨_, _, _, hc⟩ := hc
      refine .cons ?_ ih
      rw [hc.is.value A vals hA hr]
      exact hc.is.fits A hA

/-- Its value. -/
theorem IsSum.value (h : IsSum P s o early late gs) (S : State full P s D adm) (hA : adm A) (hr : Runs (fun _ => True) s A vals) :
    (single (vals o)).front = .ok (gs.map fun g => g A).sum := by
  have hv := hr o h.lt trivial
  have hd : (s.row o).decision = false := by
    show (s.row o).built.decision = false
    rw [h.built]
    rfl
  unfold Row.operands at hv
  rw [hd] at hv
  simp only [Bool.false_eq_true, if_false] at hv
  rw [h.node, h.ops, terms_values S hA hr.weaken h.terms] at hv
  have hne : gs.map (fun g => g A) ≠ [] := by
    have hl := h.terms.length_eq
    intro hc
    have : gs.length = 0 := by simpa using congrArg List.length hc
    rw [this, List.length_append] at hl
    exact h.first (List.length_eq_zero_iff.1 (by omega))
  rw [hv]
  show Arr.front ⟨[], naryValue (· + ·) ((gs.map fun g => [(⟨[], [g A]⟩ : Arr Rat)]).map single)⟩ = _
  have : ((gs.map fun g => [(⟨[], [g A]⟩ : Arr Rat)]).map single) = (gs.map fun g => g A).map fun x => ⟨[], [x]⟩ := by
    rw [List.map_map, List.map_map]
    rfl
  rw [this, naryValue_numbers hne]
  rfl

end Script
end Verif
