import Verif.Model.Script
import Verif.Lemmas.Program
import Verif.Lemmas.GraphOps

set_option linter.unusedSectionVars false
set_option linter.unusedSimpArgs false
set_option linter.unusedVariables false

/-! Helper lemmas: programs that build models. -/

namespace Verif

/-- Permutations are told apart from the other symbols: they need orders whose changes stay within the range. -/
def Built.isPermutation : Built → Bool
  | .permutation _ => true
  | _ => false

/-- The symbol keeps its contract; `full` asks for correct incremental evaluation of permutations too. -/
def Row.Keeps (full : Prop) (r : Row) : Prop :=
  (r.decision = true → r.ops = [] ∧ Nonempty (DecisionLaw r.node r.step)) ∧
  (r.decision = false → ∃ C : Settled ([] : Dif) r.node, (∀ xs, r.node.ok xs → (r.node.f xs).map Arr.shape = r.out.shapes) ∧
    (full ∨ r.built.isPermutation = false → C.Propagates ValRel))

/-- What a symbol computes from. -/
def Row.operands (r : Row) (A : Val) (vals : Nat → Val) : List Val := if r.decision then [A] else r.ops.map vals

namespace Script

variable {full : Prop} {P : Nat → Prop} {s s' s'' : Script} {A vals : Nat → Val}

/-- All symbols except those outside `P` have the values that follow from their operands' values. -/
def Runs (P : Nat → Prop) (s : Script) (A vals : Nat → Val) : Prop :=
  ∀ i < s.length, P i → vals i = (s.row i).node.f ((s.row i).operands (A i) vals)

/-- The values of the decisions are admissible. -/
def Admits (P : Nat → Prop) (s : Script) (A : Nat → Val) : Prop :=
  ∀ i < s.length, P i → (s.row i).decision = true → (s.row i).node.ok [A i]

/-- `s'` has more symbols than `s`; those outside `P` may have changed. -/
structure Ext (P : Nat → Prop) (s s' : Script) : Prop where
  len : s.length ≤ s'.length
  same : ∀ i < s.length, P i → s'.row i = s.row i

theorem Ext.refl : Ext P s s := ⟨le_refl _, fun _ _ _ => rfl⟩

theorem Ext.trans (h : Ext P s s') (h' : Ext P s' s'') : Ext P s s'' :=
  ⟨h.len.trans h'.len, fun i hi hp => by rw [h'.same i (lt_of_lt_of_le hi h.len) hp, h.same i hi hp]⟩

theorem Ext.runs (h : Ext P s s') (hr : Runs P s' A vals) : Runs P s A vals := by
  intro i hi hp
  have := hr i (lt_of_lt_of_le hi h.len) hp
  rwa [h.same i hi hp] at this

theorem Ext.admits (h : Ext P s s') (hr : Admits P s' A) : Admits P s A := by
  intro i hi hp hd
  have := hr i (lt_of_lt_of_le hi h.len) hp
  rw [h.same i hi hp] at this
  exact this hd

/-- Symbol `i` has outputs of the given shapes and the value `v A` if the decisions have the values `A`. -/
structure Is (P : Nat → Prop) (s : Script) (i : Nat) (sh : List (List Int)) (v : (Nat → Val) → Val) : Prop where
  lt : i < s.length
  allowed : P i
  shapes : (s.row i).out.shapes = sh
  value : ∀ A vals, Admits P s A → Runs P s A vals → vals i = v A
  fits : ∀ A, Admits P s A → HasShapes sh (v A)

theorem Is.mono {i : Nat} {sh : List (List Int)} {v : (Nat → Val) → Val} (h : Is P s i sh v) (e : Ext P s s') : Is P s' i sh v where
  lt := lt_of_lt_of_le h.lt e.len
  allowed := h.allowed
  shapes := by rw [e.same i h.lt h.allowed]; exact h.shapes
  value := fun A vals hA hr => h.value A vals (e.admits hA) (e.runs hr)
  fits := fun A hA => h.fits A (e.admits hA)

/-- The symbols made so far are in order. -/
structure Good (full : Prop) (P : Nat → Prop) (s : Script) : Prop where
  before : ∀ i < s.length, P i → ∀ p ∈ (s.row i).ops, P p ∧ p < i
  law : ∀ i < s.length, P i → (s.row i).Keeps full
  accepts : ∀ A vals, Admits P s A → Runs P s A vals → ∀ i < s.length, P i → (s.row i).decision = false →
    (s.row i).node.ok ((s.row i).ops.map vals)

theorem good_nil : Good full P [] := ⟨by simp, by simp, by simp⟩

theorem row_append {r : Row} {i : Nat} (h : i < s.length) : row (s ++ [r]) i = s.row i := by
  simp [row, List.getD_eq_getElem?_getD, List.getElem?_append_left h]

theorem row_last {r : Row} : row (s ++ [r]) s.length = r := by
  simp [row, List.getD_eq_getElem?_getD]

theorem ext_append (r : Row) : Ext P s (s ++ [r]) := ⟨by simp, fun i hi _ => row_append hi⟩

/-- A new symbol. -/
theorem Good.add (G : Good full P s) {t : Term} {ops : List Nat} {b : Built} {out : Info}
    (hlt : ∀ p ∈ ops, P p ∧ p < s.length)
    (hc : t.construct s.length s.sizes ops (ops.map fun p => (s.row p).out) = .ok (b, out))
    (hk : Row.Keeps full ⟨b, ops, ops.map fun p => (s.row p).out, out⟩)
    (hok : ∀ A vals, Admits P s A → Runs P s A vals → b.decision = false →
      (b.node (ops.map fun p => (s.row p).out) out).ok (ops.map vals)) :
    s.add t ops = .ok (s ++ [⟨b, ops, ops.map fun p => (s.row p).out, out⟩], s.length) ∧
      Good full P (s ++ [⟨b, ops, ops.map fun p => (s.row p).out, out⟩]) := by
  refine ⟨?_, ?_, ?_, ?_⟩
  · unfold Script.add
    rw [guardUB_true (fun p hp => (hlt p hp).2), Res.ok_bind, hc, Res.ok_bind]
  · intro i hi hp
    rcases Nat.lt_or_ge i s.length with h | h
    · rw [row_append h]
      exact G.before i h hp
    · obtain rfl : i = s.length := by simp at hi; omega
      rw [row_last]
      exact hlt
  · intro i hi hp
    rcases Nat.lt_or_ge i s.length with h | h
    · rw [row_append h]
      exact G.law i h hp
    · obtain rfl : i = s.length := by simp at hi; omega
      rw [row_last]
      exact hk
  · intro A vals hA hr i hi hp
    have e := ext_append (P := P) (s := s) ⟨b, ops, ops.map fun p => (s.row p).out, out⟩
    rcases Nat.lt_or_ge i s.length with h | h
    · rw [row_append h]
      exact G.accepts A vals (e.admits hA) (e.runs hr) i h hp
    · obtain rfl : i = s.length := by simp at hi; omega
      rw [row_last]
      exact hok A vals (e.admits hA) (e.runs hr)

/-- The value of the last symbol. -/
theorem Runs.last {r : Row} (h : Runs P (s ++ [r]) A vals) (hP : P s.length) :
    vals s.length = r.node.f (r.operands (A s.length) vals) := by
  have := h s.length (by simp) hP
  rwa [row_last] at this

/-- Several operands at once. -/
abbrev Operand := List (List Int) × ((Nat → Val) → Val)

/-- The operands are what is said. -/
def Are (P : Nat → Prop) (s : Script) (ops : List Nat) (qs : List Operand) : Prop :=
  List.Forall₂ (fun p (q : Operand) => Is P s p q.1 q.2) ops qs

theorem Are.lt {ops : List Nat} {qs : List Operand} (h : Are P s ops qs) : ∀ p ∈ ops, P p ∧ p < s.length := by
  unfold Are at h
  induction h with
  | nil => simp
  | cons h _ ih =>
    intro p hp
    rcases List.mem_cons.1 hp with rfl | hp
    · exact ⟨h.allowed, h.lt⟩
    · exact ih p hp

theorem Are.shapes {ops : List Nat} {qs : List Operand} (h : Are P s ops qs) :
    (ops.map fun p => (s.row p).out).map Info.shapes = qs.map Prod.fst := by
  unfold Are at h
  induction h with
  | nil => rfl
  | cons h _ ih => simpa [h.shapes] using ih

theorem Are.values {ops : List Nat} {qs : List Operand} (h : Are P s ops qs) (hA : Admits P s A) (hr : Runs P s A vals) :
    ops.map vals = qs.map fun q => q.2 A := by
  unfold Are at h
  induction h with
  | nil => rfl
  | cons h _ ih => simp only [List.map_cons, ih, h.value A vals hA hr]

theorem Are.fits {ops : List Nat} {qs : List Operand} (h : Are P s ops qs) (hA : Admits P s A) :
    List.Forall₂ HasShapes (qs.map Prod.fst) (qs.map fun q => q.2 A) := by
  unfold Are at h
  induction h with
  | nil => exact .nil
  | cons h _ ih => exact .cons (h.fits A hA) ih

/-- A new symbol of the catalog that is not a decision. -/
theorem Good.kind (G : Good full P s) {k : Kind} {ops : List Nat} {qs : List Operand} {out : List (List Int)}
    (hP : P s.length) (hops : Are P s ops qs) (hd : k.isDecision = false) (ha : k.asks = false)
    (hm : k.make (qs.map Prod.fst) = .ok out) (hreg : k.Regular (qs.map Prod.fst))
    (hgin : ∀ q ∈ qs, ∀ t ∈ q.1, GoodShape t) (hgout : ∀ t ∈ out, GoodShape t) :
    ∃ s', s.add (.kind k) ops = .ok (s', s.length) ∧ Good full P s' ∧ Ext P s s' ∧
      Is P s' s.length out (fun A => (k.node (qs.map Prod.fst) out).f (qs.map fun q => q.2 A)) ∧
      (s'.row s.length).out.claim = k.claimFrom s.sizes (ops.map fun p => (s.row p).out) ∧
      (s'.row s.length).out.size = k.sizeFrom s.length out ops (ops.map fun p => (s.row p).out) ∧
      (s'.row s.length).out.const = k.value := by
  have hF := (kind_facts hm hreg (by
    intro p hp
    obtain ⟨q, hq, rfl⟩ := List.mem_map.1 hp
    exact hgin q hq) hgout).1 hd
  have hc : (Term.kind k).construct s.length s.sizes ops (ops.map fun p => (s.row p).out) =
      .ok (.kind k, ⟨out, k.claimFrom s.sizes (ops.map fun p => (s.row p).out),
        k.sizeFrom s.length out ops (ops.map fun p => (s.row p).out), k.value⟩) := by
    show k.construct _ _ _ _ = _
    unfold Kind.construct
    rw [ha]
    have hrc : k.rangeChecks [] := by cases k <;> trivial
    simp only [Bool.false_eq_true, if_false, Res.ok_bind, guardThrow_true hrc, hops.shapes, hm]
  have hnode : ∀ o : Info, o.shapes = out → (Built.kind k).node (ops.map fun p => (s.row p).out) o = k.node (qs.map Prod.fst) out := by
    intro o ho
    show k.node _ _ = _
    rw [hops.shapes, ho]
  obtain ⟨e, G'⟩ := G.add hops.lt hc ⟨fun h => absurd h (by simp [Row.decision, Built.decision, hd]), fun _ => by
      have hex : ∀ N, N = k.node (qs.map Prod.fst) out → ∃ C : Settled ([] : Dif) N, (∀ xs, N.ok xs → (N.f xs).map Arr.shape = out) ∧
          (full ∨ (Built.kind k).isPermutation = false → C.Propagates ValRel) := by
        rintro _ rfl
        obtain ⟨C, hC⟩ := hF.contract
        exact ⟨C, fun xs h => (hF.out xs h).1, fun _ => hC⟩
      exact hex _ (hnode _ rfl)⟩ (by
    intro A vals hA hr _
    rw [hnode _ rfl, hops.values hA hr]
    exact hF.accepts _ (hops.fits hA))
  refine ⟨_, e, G', ext_append _, ⟨by simp, hP, by rw [row_last], ?_, ?_⟩, by rw [row_last], by rw [row_last], by rw [row_last]⟩
  · intro A vals hA hr
    rw [hr.last hP]
    have hd' : Row.decision ⟨.kind k, ops, ops.map fun p => (s.row p).out,
        ⟨out, k.claimFrom s.sizes (ops.map fun p => (s.row p).out),
          k.sizeFrom s.length out ops (ops.map fun p => (s.row p).out), k.value⟩⟩ = false := hd
    unfold Row.operands
    rw [hd']
    simp only [Bool.false_eq_true, if_false]
    rw [hops.values ((ext_append _).admits hA) ((ext_append _).runs hr)]
    show (Built.node _ _ _).f _ = _
    rw [hnode _ rfl]
  · intro A hA
    exact hF.out _ (hF.accepts _ (hops.fits ((ext_append _).admits hA)))

/-- A new decision. -/
theorem Good.decision (G : Good full P s) {k : Kind} {out : List (List Int)}
    (hP : P s.length) (hd : k.isDecision = true) (hm : k.make [] = .ok out) (hreg : k.Regular [])
    (hgout : ∀ t ∈ out, GoodShape t) :
    ∃ s', s.add (.kind k) [] = .ok (s', s.length) ∧ Good full P s' ∧ Ext P s s' ∧
      Is P s' s.length out (fun A => A s.length) ∧
      (s'.row s.length).out.claim = k.claimFrom s.sizes [] ∧
      (s'.row s.length).out.size = k.sizeFrom s.length out [] [] ∧
      (s'.row s.length).out.const = none ∧ (s'.row s.length).decision = true ∧
      (∀ A, Admits P s' A → (k.node [] out).ok [A s.length]) ∧
      (∀ A, Admits P s A → (k.node [] out).ok [A s.length] → Admits P s' A) := by
  obtain ⟨⟨L⟩, hout⟩ := (kind_facts hm hreg (by simp) hgout).2 hd
  have ha : k.asks = false := by cases k <;> first | rfl | cases hd
  have hv : k.value = none := by cases k <;> first | rfl | cases hd
  have hc : (Term.kind k).construct s.length s.sizes [] [] =
      .ok (.kind k, ⟨out, k.claimFrom s.sizes [], k.sizeFrom s.length out [] [], k.value⟩) := by
    show k.construct _ _ _ _ = _
    unfold Kind.construct
    rw [ha]
    have hrc : k.rangeChecks [] := by cases k <;> trivial
    simp only [Bool.false_eq_true, if_false, Res.ok_bind, guardThrow_true hrc, List.map_nil, hm]
  obtain ⟨e, G'⟩ := G.add (t := .kind k) (ops := []) (by simp) hc
    ⟨fun _ => ⟨rfl, ⟨L⟩⟩, fun h => absurd h (by simp [Row.decision, Built.decision, hd])⟩
    (fun A vals _ _ h => absurd h (by simp [Built.decision, hd]))
  have hok : ∀ A, Admits P (s ++ [⟨.kind k, [], [], ⟨out, k.claimFrom s.sizes [], k.sizeFrom s.length out [] [], k.value⟩⟩]) A →
      (k.node [] out).ok [A s.length] := by
    intro A hA
    have := hA s.length (by simp) hP
    rw [row_last] at this
    exact this hd
  refine ⟨_, e, G', ext_append _, ⟨by simp, hP, by rw [List.map_nil, row_last], ?_, ?_⟩, by rw [List.map_nil, row_last],
    by rw [List.map_nil, row_last], by rw [List.map_nil, row_last]; exact hv, by rw [List.map_nil, row_last]; exact hd, hok, ?_⟩
  · intro A vals hA hr
    rw [hr.last hP]
    unfold Row.operands
    have hd' : Row.decision ⟨.kind k, [], [], ⟨out, k.claimFrom s.sizes [], k.sizeFrom s.length out [] [], k.value⟩⟩ = true := hd
    simp only [List.map_nil]
    rw [hd']
    exact L.same _
  · intro A hA
    have := hout _ (hok A hA)
    rwa [L.same] at this
  · intro A hA h i hi hp
    rcases Nat.lt_or_ge i s.length with h' | h'
    · rw [List.map_nil, row_append h']
      exact hA i h' hp
    · obtain rfl : i = s.length := by simp at hi; omega
      rw [List.map_nil, row_last]
      exact fun _ => h

end Script
end Verif
