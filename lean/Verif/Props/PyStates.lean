import Verif.Props.Whole
import Verif.Props.Programs
import Verif.Props.Numbers
import Verif.Props.Collection
import Verif.Props.Lists
import Verif.Props.BitSets
import Verif.Model.PyStates

set_option linter.unusedSectionVars false
set_option linter.unusedSimpArgs false
set_option linter.unusedVariables false

/-!
# C63: states set and read from Python
-/

namespace Verif

open Graph PyModel Script

/-- The number of the state that an index means, negative ones counted from the end. -/
def rowIndex (n : Nat) (i : Int) : Nat := (if i < 0 then i + n else i).toNat

/-- Specification of one operation, on a table with the decisions' values in all states; `dflt` are the values of decisions that have
not been set.  What the user sees, and the table afterwards.
* A decision that is set to an acceptable value has it from then on in that state, and nothing else changes.
* If the value has the wrong elements, there is an exception, and the decision has its default value; if it cannot be understood at
  all, there is an exception, and nothing changes or, for disjoint sets and lists, the decision has its default value.
* Reading a symbol shows what follows from the decisions' values in that state.
* Indices out of range raise exceptions and nothing changes. -/
def PyStateOp.Sees (g : Graph) (kind : Nat → Kind) (sem : Nat → NodeSem Val Dif) (dflt : Nat → Val) (T : List (Nat → Val)) (op : PyStateOp) (o : Outcome)
    (T' : List (Nat → Val)) : Prop :=
  match op with
  | .resize n =>
    (0 ≤ n → o = .done ∧ T' = T.take n.toNat ++ List.replicate (n.toNat - T.length) dflt) ∧ (n < 0 → o = .raised ∧ T' = T)
  | .setState d i x =>
    if d ∈ g.decisions ∧ 0 ≤ i ∧ i < T.length then
      match (kind d).meant x with
      | some y =>
        ((sem d).ok [y] → o = .done ∧ T' = T.modify i.toNat fun A => upd A d y) ∧
        (¬ (sem d).ok [y] → o = .raised ∧ T' = T.modify i.toNat fun A => upd A d (dflt d))
      | none => o = .raised ∧ T' = if (kind d).isArray = true then T else T.modify i.toNat fun A => upd A d (dflt d)
    else o = .raised ∧ T' = T
  | .resetState v i =>
    if 0 ≤ i ∧ i < T.length then
      o = .done ∧ T' = if v ∈ g.decisions then T.modify i.toNat fun A => upd A v (dflt v) else T
    else o = .raised ∧ T' = T
  | .state v i =>
    T' = T ∧
    if (kind v).isArray = true ∧ -(T.length : Int) ≤ i ∧ i < T.length then
      ∃ A vals, T[rowIndex T.length i]? = some A ∧ Evaluates g sem A vals ∧ o = .shown (single (vals v)).present
    else o = .raised
  | .fill | .relock => o = .done ∧ T' = T

/-- Specification: what the user sees in a whole history, and the table at the end. -/
def SeesAll (g : Graph) (kind : Nat → Kind) (sem : Nat → NodeSem Val Dif) (dflt : Nat → Val) :
    List (Nat → Val) → List PyStateOp → List Outcome → List (Nat → Val) → Prop
  | T, [], os, U => os = [] ∧ U = T
  | T, op :: ops, os, U => ∃ o os' T', os = o :: os' ∧ op.Sees g kind sem dflt T o T' ∧ SeesAll g kind sem dflt T' ops os' U

/-- Not sets that are no partition but have the right number of elements in total. -/
def Kind.Fair (x : PyValue) : Kind → Prop
  | .disjointBitSets P N => ∀ y, (Kind.disjointBitSets P N).meant x = some y → y.length = N.toNat →
    (∀ r ∈ y, r.data.length = P.toNat) → (y.map Arr.data).flatten.count 1 = P.toNat → IsBitPartition P.toNat (y.map Arr.data)
  | _ => True

/-- The operations name symbols of the model.  Disjoint bit sets are not given sets that are no partition but have the right number
of elements in total, which the code does not notice (`C07_bitsets_rejects_fails`). -/
def PyStateOp.Proper (g : Graph) (kind : Nat → Kind) : PyStateOp → Prop
  | .setState d _ x => d ∈ g.nodes ∧ (kind d).Fair x
  | .resetState v _ | .state v _ => v ∈ g.nodes
  | _ => True

/-! ## The conversion -/

theorem Kind.given_eq (k : Kind) (x : PyValue) : k.given x = k.meant x := by
  cases k with
  | integer shape lo hi => cases h : x.asArray <;> simp [Kind.given, Kind.meant, h]
  | binaryVar shape => cases h : x.asArray <;> simp [Kind.given, Kind.meant, h]
  | collection n lo hi =>
    cases x with
    | set s => rfl
    | array a =>
      simp only [Kind.given, Kind.meant, PyValue.asList, PyValue.asArray]
      by_cases h : a.shape.length = 1 <;> simp [h]
    | rows l =>
      simp only [Kind.given, Kind.meant, PyValue.asList]
      cases h : (PyValue.rows l).asArray with
      | none => simp
      | some a => by_cases h1 : a.shape.length = 1 <;> simp [h1]
  | disjointBitSets P N =>
    simp only [Kind.given, Kind.meant]
    cases h : x.asArray with
    | none => simp
    | some a =>
      obtain ⟨shape, data⟩ := a
      match shape with
      | [] => simp
      | [_] => simp
      | [n, m] => simp [PyValue.asRows, List.map_take, List.map_drop, Function.comp_def]
      | _ :: _ :: _ :: _ => simp
  | disjointLists P N => cases h : x.asRows <;> simp [Kind.given, Kind.meant, h]
  | _ => rfl

/-- What is not acceptable is rejected with an exception. -/
theorem Kind.init_rejects {k : Kind} (hk : k.isDecision = true) (ps : List (List (List Int))) (out : List (List Int)) {x : PyValue} {y : Val}
    (hy : k.meant x = some y)
    (hfair : k.Fair x)
    (hn : ¬ (k.node ps out).ok [y]) : (k.node ps out).init [y] = .throw := by
  cases k with
  | integer shape lo hi =>
    obtain ⟨a, _, rfl⟩ := Option.map_eq_some_iff.1 hy
    exact (C09_init_accepts_iff _ _).2 fun h => hn ⟨_, rfl, h⟩
  | binaryVar shape =>
    obtain ⟨a, _, rfl⟩ := Option.map_eq_some_iff.1 hy
    exact (C09_init_accepts_iff _ _).2 fun h => hn ⟨_, rfl, h⟩
  | collection n lo hi =>
    obtain ⟨a, _, rfl⟩ := Option.map_eq_some_iff.1 hy
    exact (C05_explicit_accepts_iff _ _).2 fun ⟨h1, h2, h3, h4⟩ => hn ⟨_, rfl, h1, h2, h3, h4⟩
  | disjointLists P N =>
    obtain ⟨l, _, rfl⟩ := Option.map_eq_some_iff.1 hy
    have e : ∀ l : List (List Rat), (l.map fun r => (⟨[-1], r.map roundToZero⟩ : Arr Rat)) =
        (l.map (List.map roundToZero)).map fun r => ⟨[-1], r⟩ := fun l => by simp [Function.comp_def]
    have e' : ∀ l : List (List Rat), (l.map fun r => (⟨[-1], r⟩ : Arr Rat)).map Arr.data = l := fun l => by
      simp [Function.comp_def]
    rw [e] at hn ⊢
    show Lists.mkExplicit _ _ (List.map Arr.data _) = _
    rw [List.headD_cons, e']
    exact (C08_lists_explicit _ _ _).2 fun h => hn ⟨_, rfl, h⟩
  | disjointBitSets P N =>
    have hf := hfair y hy
    obtain ⟨l, _, rfl⟩ := Option.map_eq_some_iff.1 hy
    have e : ∀ l : List (List Rat), (l.map fun r => (⟨[(P.toNat : Int)], r.map fun v => if v = 0 then 0 else 1⟩ : Arr Rat)) =
        (l.map (List.map fun v => if v = 0 then 0 else 1)).map fun r => ⟨[(P.toNat : Int)], r⟩ := fun l => by
      simp [Function.comp_def]
    have e' : ∀ l : List (List Rat), (l.map fun r => (⟨[(P.toNat : Int)], r⟩ : Arr Rat)).map Arr.data = l := fun l => by
      simp [Function.comp_def]
    rw [e] at hn hf ⊢
    rw [e'] at hf
    generalize l.map (List.map fun v : Rat => if v = 0 then (0 : Rat) else 1) = rows at hn hf ⊢
    show BitSetsState.mkExplicit _ _ (List.map Arr.data _) = _
    rw [List.headD_cons, e']
    refine C07_bitsets_rejects_partial _ _ _ fun ⟨h1, h2, h3, h4⟩ => hn ⟨rows, rfl, h1, ?_⟩
    refine hf (by simpa using h1) (fun r hr => ?_) h4
    obtain ⟨q, hq, rfl⟩ := List.mem_map.1 hr
    exact h2 q hq
  | _ => cases hk

/-- What the decisions are. -/
structure Fitting (g : Graph) (kind : Nat → Kind) (sem : Nat → NodeSem Val Dif) : Prop where
  decisions : ∀ v ∈ g.nodes, v ∈ g.decisions ↔ (kind v).isDecision = true
  nodes : ∀ d ∈ g.decisions, d ∈ g.nodes
  regular : ∀ d ∈ g.decisions, (kind d).Regular []
  node : ∀ d ∈ g.decisions, ∃ ps out, sem d = (kind d).node ps out

theorem Fitting.rejects {g : Graph} {kind : Nat → Kind} {sem : Nat → NodeSem Val Dif} (hS : Fitting g kind sem) {d : Nat}
    (hd : d ∈ g.decisions) {x : PyValue} {y : Val} (hy : (kind d).meant x = some y) (hfair : (kind d).Fair x)
    (hn : ¬ (sem d).ok [y]) : (sem d).init [y] = .throw := by
  obtain ⟨ps, out, e⟩ := hS.node d hd
  rw [e] at hn ⊢
  exact Kind.init_rejects ((hS.decisions d (hS.nodes d hd)).1 hd) _ _ hy hfair hn

/-! ## Rows -/

section Rows

variable {α β : Type} {R : α → β → Prop}

theorem forall2_get {as : List α} {bs : List β} (h : List.Forall₂ R as bs) {i : Nat} (hi : i < bs.length) :
    ∃ a b, as[i]? = some a ∧ bs[i]? = some b ∧ R a b := by
  induction h generalizing i with
  | nil => simp at hi
  | cons hab _ ih =>
    cases i with
    | zero => exact ⟨_, _, rfl, rfl, hab⟩
    | succ i => simpa using ih (by simpa using hi)

theorem forall2_set {as : List α} {bs : List β} (h : List.Forall₂ R as bs) {i : Nat} {b : β} (hb : bs[i]? = some b) {a : α}
    {f : β → β} (hf : R a (f b)) : List.Forall₂ R (as.set i a) (bs.modify i f) := by
  induction h generalizing i with
  | nil => simp at hb
  | cons hab hr ih =>
    cases i with
    | zero =>
      simp only [List.getElem?_cons_zero, Option.some.injEq] at hb
      subst hb
      simpa using ⟨hf, hr⟩
    | succ i => simpa using ⟨hab, ih (by simpa using hb)⟩

theorem forall2_keep {as : List α} {bs : List β} (h : List.Forall₂ R as bs) {i : Nat} {b : β} (hb : bs[i]? = some b) {a : α}
    (hf : R a b) : List.Forall₂ R (as.set i a) bs := by
  have := forall2_set h hb (f := id) hf
  rwa [List.modify_id] at this

theorem forall2_resize {as : List α} {bs : List β} (h : List.Forall₂ R as bs) (n : Nat) {a : α} {b : β} (hab : R a b) :
    List.Forall₂ R (as.take n ++ List.replicate (n - as.length) a) (bs.take n ++ List.replicate (n - bs.length) b) := by
  rw [h.length_eq]
  refine List.rel_append (List.forall₂_take n h) ?_
  induction n - bs.length with
  | zero => exact .nil
  | succ k ih => exact .cons hab ih

theorem forall2_map {as : List α} {bs : List β} (h : List.Forall₂ R as bs) {f : α → α} (hf : ∀ a b, R a b → R (f a) b) :
    List.Forall₂ R (as.map f) bs := by
  induction h with
  | nil => exact .nil
  | cons hab _ ih => exact .cons (hf _ _ hab) ih

theorem forall2_mapM {as : List α} {bs : List β} (h : List.Forall₂ R as bs) {f : α → Res α}
    (hf : ∀ a b, R a b → ∃ a', f a = .ok a' ∧ R a' b) : ∃ as', as.mapM f = .ok as' ∧ List.Forall₂ R as' bs := by
  induction h with
  | nil => exact ⟨[], rfl, .nil⟩
  | cons hab _ ih =>
    obtain ⟨a', e1, h1⟩ := hf _ _ hab
    obtain ⟨as', e2, h2⟩ := ih
    exact ⟨a' :: as', by simp only [List.mapM_cons, e1, e2, Res.ok_bind, Res.pure_eq], .cons h1 h2⟩

end Rows

/-! ## Histories -/

section

variable {g : Graph} {kind : Nat → Kind} {sem : Nat → NodeSem Val Dif} {dflt : Nat → Val} (C : ∀ v, Settled ([] : Dif) (sem v))

theorem place_spec (w : g.WF) (hs : g.sorted = true) (hdflt : ∀ d ∈ g.decisions, (sem d).ok [dflt d])
    (htotal : ∀ A : Nat → Val, (∀ d ∈ g.decisions, (sem d).ok [A d]) → ∃ vals, Evaluates g sem A vals)
    {sts : List (PState sem)} {T : List (Nat → Val)} (h : List.Forall₂ (fun st A => Kept g sem C dflt A st) sts T)
    {d : Nat} (hd : d ∈ g.decisions) {i : Int} (hi : 0 ≤ i ∧ i < T.length) (y : Option Val)
    (hrej : ∀ z, y = some z → ¬ (sem d).ok [z] → (sem d).init [z] = .throw) :
    ∃ sts' o T', place g sem sts d i y = .ok (sts', o) ∧ List.Forall₂ (fun st A => Kept g sem C dflt A st) sts' T' ∧
      (∀ z, y = some z → ((sem d).ok [z] → o = .done ∧ T' = T.modify i.toNat fun A => upd A d z) ∧
        (¬ (sem d).ok [z] → o = .raised ∧ T' = T.modify i.toNat fun A => upd A d (dflt d))) ∧
      (y = none → o = .raised ∧ T' = T.modify i.toNat fun A => upd A d (dflt d)) := by
  obtain ⟨st, A, e1, e2, hk⟩ := forall2_get h (i := i.toNat) (by omega)
  have hcond : 0 ≤ i ∧ i < sts.length := by rw [h.length_eq]; exact hi
  obtain ⟨st1, e3, hk1⟩ := Kept.step C w hs hdflt htotal hk (op := .reset d) (w.decMem d hd)
  have ha : StateOp.assign g dflt A (.reset d) = upd A d (dflt d) := if_pos hd
  rw [ha] at hk1
  have e3 : resetState g sem st d = .ok st1 := e3
  unfold place
  rw [if_pos hcond]
  simp only [e1, e3]
  cases y with
  | none => exact ⟨_, _, _, rfl, forall2_set h e2 (f := fun A => upd A d (dflt d)) hk1, fun z hz => (by cases hz), fun _ => ⟨rfl, rfl⟩⟩
  | some y =>
    by_cases hok : (sem d).ok [y]
    · obtain ⟨st2, e4, hk2⟩ := Kept.step C w hs hdflt htotal hk (op := .set d y) ⟨hd, hok⟩
      obtain ⟨s, es, _⟩ := (C d).init hok
      have e5 : setState g sem st d y = .ok st2 := e4
      unfold setState at e5
      rw [e3, Res.ok_bind, es, Res.ok_bind] at e5
      cases e5
      simp only [es]
      exact ⟨_, _, _, rfl, forall2_set h e2 (f := fun A => upd A d y) hk2,
        fun z hz => by cases hz; exact ⟨fun _ => ⟨rfl, rfl⟩, fun hn => absurd hok hn⟩, fun hz => by cases hz⟩
    · simp only [hrej y rfl hok]
      exact ⟨_, _, _, rfl, forall2_set h e2 (f := fun A => upd A d (dflt d)) hk1,
        fun z hz => by cases hz; exact ⟨fun hn => absurd hn hok, fun _ => ⟨rfl, rfl⟩⟩, fun hz => by cases hz⟩

theorem pyStep_spec (w : g.WF) (hs : g.sorted = true) (hS : Fitting g kind sem) (hdflt : ∀ d ∈ g.decisions, (sem d).ok [dflt d])
    (htotal : ∀ A : Nat → Val, (∀ d ∈ g.decisions, (sem d).ok [A d]) → ∃ vals, Evaluates g sem A vals)
    {sts : List (PState sem)} {T : List (Nat → Val)} (h : List.Forall₂ (fun st A => Kept g sem C dflt A st) sts T)
    {op : PyStateOp} (hop : op.Proper g kind) :
    ∃ sts' o T', pyStep g kind sem dflt sts op = .ok (sts', o) ∧ op.Sees g kind sem dflt T o T' ∧
      List.Forall₂ (fun st A => Kept g sem C dflt A st) sts' T' := by
  have hlen := h.length_eq
  cases op with
  | resize n =>
    by_cases hn : n < 0
    · refine ⟨_, _, T, ?_, ⟨fun hp => by omega, fun _ => ⟨rfl, rfl⟩⟩, h⟩
      simp only [pyStep]
      rw [if_pos hn]
    · refine ⟨_, _, _, ?_, ⟨fun _ => ⟨rfl, rfl⟩, fun hp => by omega⟩, forall2_resize h _ (Kept.start C hdflt htotal)⟩
      simp only [pyStep]
      rw [if_neg hn]
  | setState d i x =>
    obtain ⟨hdn, hfair⟩ := hop
    by_cases hd : d ∈ g.decisions
    · have hdk := (hS.decisions d hdn).1 hd
      by_cases hi : 0 ≤ i ∧ i < (T.length : Int)
      · obtain ⟨sts', o, T', e, hF, hP⟩ := place_spec C w hs hdflt htotal h hd hi ((kind d).meant x) (fun z hz hn =>
          hS.rejects hd hz hfair hn)
        by_cases ha : (kind d).isArray = true
        · cases hm : (kind d).meant x with
          | none =>
            refine ⟨sts, .raised, T, ?_, ?_, h⟩
            · simp only [pyStep]
              rw [if_pos hdk, if_pos ha, Kind.given_eq, hm]
            · rw [PyStateOp.Sees, if_pos ⟨hd, hi⟩, hm]
              exact ⟨rfl, (if_pos ha).symm⟩
          | some y =>
            rw [hm] at e
            refine ⟨sts', o, T', ?_, ?_, hF⟩
            · simp only [pyStep]
              rw [if_pos hdk, if_pos ha, Kind.given_eq, hm]
              exact e
            · rw [PyStateOp.Sees, if_pos ⟨hd, hi⟩, hm]
              exact hP.1 y hm
        · refine ⟨sts', o, T', ?_, ?_, hF⟩
          · simp only [pyStep]
            rw [if_pos hdk, if_neg ha, Kind.given_eq]
            exact e
          · rw [PyStateOp.Sees, if_pos ⟨hd, hi⟩]
            cases hm : (kind d).meant x with
            | none =>
              exact ⟨(hP.2 hm).1, (hP.2 hm).2.trans (if_neg ha).symm⟩
            | some y => exact hP.1 y hm
      · have hpl : ∀ y, place g sem sts d i y = .ok (sts, .raised) := fun y => by
          unfold place
          rw [if_neg (by rw [hlen]; exact hi)]
        refine ⟨sts, .raised, T, ?_, ?_, h⟩
        · simp only [pyStep]
          rw [if_pos hdk]
          by_cases ha : (kind d).isArray = true
          · rw [if_pos ha]
            cases (kind d).given x with
            | none => rfl
            | some y => exact hpl _
          · rw [if_neg ha]
            exact hpl _
        · rw [PyStateOp.Sees, if_neg (fun hh => hi hh.2)]
          exact ⟨rfl, rfl⟩
    · refine ⟨sts, .raised, T, ?_, ?_, h⟩
      · simp only [pyStep]
        rw [if_neg (fun hh => hd ((hS.decisions d hdn).2 hh))]
      · rw [PyStateOp.Sees, if_neg (fun hh => hd hh.1)]
        exact ⟨rfl, rfl⟩
  | resetState v i =>
    have hv : v ∈ g.nodes := hop
    by_cases hi : 0 ≤ i ∧ i < (T.length : Int)
    · obtain ⟨st, A, e1, e2, hk⟩ := forall2_get h (i := i.toNat) (by omega)
      obtain ⟨st1, e3, hk1⟩ := Kept.step C w hs hdflt htotal hk (op := .reset v) hv
      have e3 : resetState g sem st v = .ok st1 := e3
      have e : pyStep g kind sem dflt sts (.resetState v i) = .ok (sts.set i.toNat st1, .done) := by
        simp only [pyStep, resetAt]
        rw [hlen, if_pos hi]
        simp only [e1, e3]
      by_cases hd : v ∈ g.decisions
      · have ha : StateOp.assign g dflt A (.reset v) = upd A v (dflt v) := if_pos hd
        rw [ha] at hk1
        refine ⟨_, _, _, e, ?_, forall2_set h e2 (f := fun A => upd A v (dflt v)) hk1⟩
        rw [PyStateOp.Sees, if_pos hi, if_pos hd]
        exact ⟨rfl, rfl⟩
      · have ha : StateOp.assign g dflt A (.reset v) = A := if_neg hd
        rw [ha] at hk1
        refine ⟨_, _, _, e, ?_, forall2_keep h e2 hk1⟩
        rw [PyStateOp.Sees, if_pos hi, if_neg hd]
        exact ⟨rfl, rfl⟩
    · refine ⟨sts, .raised, T, ?_, ?_, h⟩
      · simp only [pyStep, resetAt]
        rw [hlen, if_neg hi]
      · rw [PyStateOp.Sees, if_neg hi]
        exact ⟨rfl, rfl⟩
  | state v i =>
    have hv : v ∈ g.nodes := hop
    by_cases ha : (kind v).isArray = true
    · by_cases hi : -(T.length : Int) ≤ i ∧ i < T.length
      · have hj : rowIndex T.length i < T.length := by
          unfold rowIndex
          split <;> omega
        obtain ⟨st, A, e1, e2, hk⟩ := forall2_get h hj
        obtain ⟨vals, hE, _⟩ := hk.2.1
        obtain ⟨st1, s, e3, e4, e5, _, hk1, _⟩ := Kept.read C w hs hk hE hv
        have e1' : sts[(if i < 0 then i + (T.length : Int) else i).toNat]? = some st := e1
        refine ⟨sts.set (rowIndex T.length i) st1, .shown (single (vals v)).present, T, ?_, ?_, forall2_keep h e2 hk1⟩
        · simp only [pyStep, stateAt]
          rw [if_pos ha, hlen, if_pos hi]
          simp only [e1', e3, e4, e5]
          rfl
        · rw [PyStateOp.Sees, if_pos ⟨ha, hi⟩]
          exact ⟨rfl, A, vals, e2, hE, rfl⟩
      · refine ⟨sts, .raised, T, ?_, ?_, h⟩
        · simp only [pyStep, stateAt]
          rw [if_pos ha, hlen, if_neg hi]
        · rw [PyStateOp.Sees, if_neg (fun hh => hi hh.2)]
          exact ⟨rfl, rfl⟩
    · refine ⟨sts, .raised, T, ?_, ?_, h⟩
      · simp only [pyStep]
        rw [if_neg ha]
      · rw [PyStateOp.Sees, if_neg (fun hh => ha hh.1)]
        exact ⟨rfl, rfl⟩
  | fill =>
    obtain ⟨sts', e, hF⟩ := forall2_mapM h (f := initAll g sem dflt) fun st A hk =>
      Kept.step C w hs hdflt htotal hk (op := .fill) trivial
    exact ⟨sts', _, T, by simp only [pyStep, e, Res.ok_bind], ⟨rfl, rfl⟩, hF⟩
  | relock =>
    refine ⟨_, _, T, rfl, ⟨rfl, rfl⟩, forall2_map h fun st A hk => ?_⟩
    obtain ⟨st', e, hk'⟩ := Kept.step C w hs hdflt htotal hk (op := .relock) trivial
    have e' : (Res.ok (dropIntermediate g sem st) : Res _) = .ok st' := e
    cases e'
    exact hk'

theorem pyRun_spec (w : g.WF) (hs : g.sorted = true) (hS : Fitting g kind sem) (hdflt : ∀ d ∈ g.decisions, (sem d).ok [dflt d])
    (htotal : ∀ A : Nat → Val, (∀ d ∈ g.decisions, (sem d).ok [A d]) → ∃ vals, Evaluates g sem A vals) :
    ∀ (ops : List PyStateOp) {sts : List (PState sem)} {T : List (Nat → Val)},
    List.Forall₂ (fun st A => Kept g sem C dflt A st) sts T → (∀ op ∈ ops, op.Proper g kind) →
    ∃ sts' os U, pyRun g kind sem dflt sts ops = .ok (sts', os) ∧ SeesAll g kind sem dflt T ops os U ∧
      List.Forall₂ (fun st A => Kept g sem C dflt A st) sts' U
  | [], sts, T, h, _ => ⟨sts, [], T, rfl, ⟨rfl, rfl⟩, h⟩
  | op :: ops, _, _, h, hops => by
    obtain ⟨sts1, o, T1, e1, h1, hF⟩ := pyStep_spec C w hs hS hdflt htotal h (hops op List.mem_cons_self)
    obtain ⟨sts2, os, U, e2, h2, hU⟩ := pyRun_spec w hs hS hdflt htotal ops hF fun q hq => hops q (List.mem_cons_of_mem _ hq)
    exact ⟨sts2, o :: os, U, by simp only [pyRun, e1, e2, Res.ok_bind], ⟨o, os, T1, rfl, h1, h2⟩, hU⟩

end

theorem Symbols.Assembled.fitting {S : Symbols} {g : Graph} (hS : S.Assembled g) (w : g.WF) : Fitting g S.kind (S.sem g) where
  decisions := hS.decisions
  nodes := w.decMem
  regular d hd := by
    have := hS.regular d (w.decMem d hd)
    have hin : S.inShapes g d = [] := congrArg (List.map S.shapes) (w.decPreds d hd)
    rwa [hin] at this
  node d _ := ⟨_, _, rfl⟩

theorem ready_fitting {p : Program} {M : Generated} {m : PyModel} (hp : p.run = .ok M) (hR : Ready M m) {T : Nat → Prop}
    (h : M.rows.Supported T) : Fitting m.g (fun i => (M.rows.row i).kind) M.rows.sem := by
  have w := hR.whole.inv.wf
  have hk : ∀ d ∈ m.g.decisions, ∃ k, (M.rows.row d).built = .kind k := fun d hd => by
    have hdn := w.decMem d hd
    have := (hR.whole.decisions d ((hR.whole.nodes d).1 hdn)).1 hd
    unfold Row.decision Built.decision at this
    cases hb : (M.rows.row d).built with
    | kind k => exact ⟨k, rfl⟩
    | _ => rw [hb] at this; cases this
  refine ⟨fun v hv => ?_, w.decMem, fun d hd => ?_, fun d hd => ?_⟩
  · rw [hR.whole.decisions v ((hR.whole.nodes v).1 hv)]
    unfold Row.decision Built.decision Row.kind
    cases (M.rows.row v).built <;> simp [Kind.isDecision]
  · obtain ⟨k, hb⟩ := hk d hd
    have hdl := (hR.whole.nodes d).1 (w.decMem d hd)
    have hreg := h.regular d hdl
    have hops : (M.rows.row d).ops = [] := by
      rw [← hR.whole.preds d hdl]
      exact w.decPreds d hd
    unfold Row.Regular at hreg
    unfold Row.kind
    rw [hb] at hreg ⊢
    rw [(made_of_run (Program.run_inv hp).1).ins hdl, hops] at hreg
    exact hreg.1
  · obtain ⟨k, hb⟩ := hk d hd
    refine ⟨(M.rows.row d).ins.map Info.shapes, (M.rows.row d).out.shapes, ?_⟩
    show (M.rows.row d).built.node _ _ = _
    unfold Row.kind
    rw [hb]

/-- C63, for locked models of the symbols in the catalog: whatever a user does with the model's states, one operation after the other
and catching all exceptions, they see what a table of the decisions' values says, which has as many rows as there are states
(`PyStateOp.Sees`).  In particular every operation ends, with or without an exception, and there is no undefined behaviour.

Partial: the indexing symbols are not in the catalog (see `C63_program_states_partial`); not for disjoint bit sets that are no partition (`Proper`). -/
theorem C63_states_partial {ops : List ModelOp} {m : PyModel} (hr : PyModel.new.run ops = .ok m) (hl : 0 < lockDepth ops)
    {S : Symbols} (hS : S.Assembled m.g) {dflt : Nat → Val} (hdflt : S.Admissible m.g dflt)
    (hist : List PyStateOp) (hproper : ∀ op ∈ hist, op.Proper m.g S.kind) :
    ∃ sts os T, pyRun m.g S.kind (S.sem m.g) dflt [] hist = .ok (sts, os) ∧ SeesAll m.g S.kind (S.sem m.g) dflt [] hist os T ∧ sts.length = T.length := by
  have w := (reachable hr).wf
  have hs := (C18_lock_count hr).2.2 hl
  obtain ⟨C, L⟩ := hS.lawful w hs
  obtain ⟨sts, os, T, h1, h2, h3⟩ := pyRun_spec C w hs (hS.fitting w) hdflt L.total hist .nil hproper
  exact ⟨sts, os, T, h1, h2, h3.length_eq⟩

/-- C63, for models that supported programs make, with indexing symbols (`Row.kind`).

Partial: not for disjoint bit sets that are no partition (`Proper`), and what `Script.Supported` excludes. -/
theorem C63_program_states_partial {p : Program} {M : Generated} (hp : p.run = .ok M) {T : Nat → Prop} (h : M.rows.Supported T)
    {m : PyModel} (hm : PyModel.new.run M.ops = .ok m) {dflt : Nat → Val} (hdflt : M.rows.Accepts m.g dflt)
    (hist : List PyStateOp) (hproper : ∀ op ∈ hist, op.Proper m.g fun i => (M.rows.row i).kind) :
    ∃ sts os U, pyRun m.g (fun i => (M.rows.row i).kind) M.rows.sem dflt [] hist = .ok (sts, os) ∧
      SeesAll m.g (fun i => (M.rows.row i).kind) M.rows.sem dflt [] hist os U ∧ sts.length = U.length := by
  obtain ⟨hR, _⟩ := Ready.of_built hp h hm
  obtain ⟨rel, C, L⟩ := hR.lawful
  obtain ⟨sts, os, U, h1, h2, h3⟩ := pyRun_spec C hR.whole.inv.wf ((C18_lock_count hR.built).2.2 hR.locked) (ready_fitting hp hR h) hdflt
    L.total hist .nil hproper
  exact ⟨sts, os, U, h1, h2, h3.length_eq⟩

/-- C39 for models that supported programs make: whatever sequence of the states' operations, a symbol that is read has the value that
follows from the decisions' values. -/
theorem C39_program_partial {p : Program} {M : Generated} (hp : p.run = .ok M) {T : Nat → Prop} (h : M.rows.Supported T)
    {m : PyModel} (hm : PyModel.new.run M.ops = .ok m) {dflt : Nat → Val} (hdflt : M.rows.Accepts m.g dflt)
    (hist : List (StateOp Val)) (hvalid : ∀ op ∈ hist, op.Valid m.g M.rows.sem) :
    ∃ st vals, hist.foldlM (stateStep m.g M.rows.sem dflt) PState.empty = .ok st ∧
      Evaluates m.g M.rows.sem (assignment m.g dflt hist) vals ∧
      ∀ v ∈ m.g.nodes, ∃ st' s, readState m.g M.rows.sem dflt st v = .ok st' ∧ st'.cell v = some s ∧
        (M.rows.sem v).view s = vals v ∧ (M.rows.sem v).diff s = [] := by
  obtain ⟨hR, _⟩ := Ready.of_built hp h hm
  obtain ⟨rel, C, L⟩ := hR.lawful
  obtain ⟨st, vals, h1, h2, h3⟩ := C39_never_stale hR.built hR.locked C hdflt L.total hist hvalid
  refine ⟨st, vals, h1, h2, fun v hv => ?_⟩
  obtain ⟨st', s, k1, k2, k3, k4, _⟩ := h3 v hv
  exact ⟨st', s, k1, k2, k3, k4⟩

/-! ## Setting and getting -/

/-- Arrays that decisions can be. -/
def Kind.Holds (a : Arr Rat) : Kind → Prop
  | .integer shape lo? hi? => a.shape = shape ∧ a.data.length = shape.prod.toNat ∧
    ∀ v ∈ a.data, InBounds (lo?.getD 0) (hi?.getD 2000000000) v
  | .binaryVar shape => a.shape = shape ∧ a.data.length = shape.prod.toNat ∧ ∀ v ∈ a.data, v = 0 ∨ v = 1
  | .collection n lo hi => a.shape = [(a.data.length : Int)] ∧ a.data.Nodup ∧ (∀ v ∈ a.data, ∃ k : Nat, (k : Int) < n ∧ v = k) ∧
    lo ≤ a.data.length ∧ (a.data.length : Int) ≤ hi
  | _ => False

/-- Operations that neither set nor reset decision `d` in state `i`, nor remove that state. -/
def PyStateOp.Spares (d i : Nat) : PyStateOp → Prop
  | .resize n => n < 0 ∨ (i : Int) < n
  | .setState e j _ => e ≠ d ∨ j ≠ i
  | .resetState e j => e ≠ d ∨ j ≠ i
  | _ => True

theorem roundToZero_int (k : Int) : roundToZero (k : Rat) = k := by
  unfold roundToZero
  split <;> simp

theorem Kind.Holds.meant {k : Kind} {a : Arr Rat} (h : k.Holds a) (ps : List (List (List Int))) (out : List (List Int)) (hreg : k.Regular []) :
    k.isDecision = true ∧ k.isArray = true ∧ k.Fair (.array a) ∧
      ∃ y, k.meant (.array a) = some y ∧ (k.node ps out).ok [y] ∧ (single y).present = a ∧
        ∀ xs, (k.node ps out).f xs = xs.headD [] := by
  have round : ∀ l : List Rat, (∀ v ∈ l, ∃ k : Int, v = (k : Rat)) → l.map roundToZero = l := fun l hl => by
    refine (List.map_congr_left fun v hv => ?_).trans (List.map_id _)
    obtain ⟨k, rfl⟩ := hl v hv
    exact roundToZero_int k
  obtain ⟨ash, data⟩ := a
  cases k with
  | integer shape lo hi =>
    obtain ⟨rfl, h1, h2⟩ := h
    simp only at h1 h2 hreg
    have e : data.map roundToZero = data := round _ fun v hv => (h2 v hv).imp fun k hk => hk.1
    refine ⟨rfl, rfl, trivial, [⟨ash, data⟩], ?_, ⟨data, rfl, h1, h2⟩, ?_, fun _ => rfl⟩
    · simp [Kind.meant, PyValue.asArray, e]
    · have hreg : dynamicShape ash = false := hreg
      simp [Arr.present, Arr.shapeNow, Arr.dynamic, single, hreg]
  | binaryVar shape =>
    obtain ⟨rfl, h1, h2⟩ := h
    simp only at h1 h2 hreg
    have h2' : ∀ v ∈ data, InBounds 0 1 v := fun v hv => by
      rcases h2 v hv with rfl | rfl
      · exact ⟨0, by simp, by omega, by omega⟩
      · exact ⟨1, by simp, by omega, by omega⟩
    have e : data.map roundToZero = data := round _ fun v hv => (h2' v hv).imp fun k hk => hk.1
    refine ⟨rfl, rfl, trivial, [⟨ash, data⟩], ?_, ⟨data, rfl, h1, h2'⟩, ?_, fun _ => rfl⟩
    · simp [Kind.meant, PyValue.asArray, e]
    · have hreg : dynamicShape ash = false := hreg
      simp [Arr.present, Arr.shapeNow, Arr.dynamic, single, hreg]
  | collection n lo hi =>
    obtain ⟨h0, h1, h2, h3, h4⟩ := h
    simp only at h0 h1 h2 h3 h4
    subst h0
    have e : data.map roundToZero = data := round _ fun v hv => by
      obtain ⟨k, _, rfl⟩ := h2 v hv
      exact ⟨k, by simp⟩
    refine ⟨rfl, rfl, trivial, [⟨collShape (Kind.collNode n lo hi), data⟩], ?_, ⟨data, rfl, h1, ?_, ?_, ?_⟩, ?_, fun _ => rfl⟩
    · simp [Kind.meant, PyValue.asList, PyValue.asArray, e]
    · intro v hv
      obtain ⟨k, hk, rfl⟩ := h2 v hv
      exact ⟨k, by simp only [Kind.collNode]; omega, rfl⟩
    · simp only [Kind.collNode]; omega
    · simp only [Kind.collNode]; omega
    · show (⟨(⟨collShape (Kind.collNode n lo hi), data⟩ : Arr Rat).shapeNow, data⟩ : Arr Rat) = _
      congr 1
      unfold collShape CollNode.dynamic Kind.collNode
      by_cases hd : lo.toNat = hi.toNat
      · have : (hi.toNat : Int) = data.length := by omega
        simp [Arr.shapeNow, Arr.dynamic, dynamicShape, hd, this]
      · simp [Arr.shapeNow, Arr.dynamic, dynamicShape, rowSize, hd]
  | _ => cases h

/-- An entry of the table stays as it is. -/
theorem PyStateOp.Sees.spares {g : Graph} {kind : Nat → Kind} {sem : Nat → NodeSem Val Dif} {dflt : Nat → Val} {T U : List (Nat → Val)} {op : PyStateOp} {o : Outcome}
    (h : op.Sees g kind sem dflt T o U) {d i : Nat} (hsp : op.Spares d i) {A : Nat → Val} (hA : T[i]? = some A) :
    ∃ B, U[i]? = some B ∧ B d = A d := by
  have same : U = T → ∃ B, U[i]? = some B ∧ B d = A d := by rintro rfl; exact ⟨A, hA, rfl⟩
  have touch : ∀ (e : Nat) (j : Int) (y : Val), 0 ≤ j → e ≠ d ∨ j ≠ i → (U = T.modify j.toNat fun A => upd A e y) →
      ∃ B, U[i]? = some B ∧ B d = A d := by
    rintro e j y hj hne rfl
    by_cases hji : j.toNat = i
    · have hed : d ≠ e := by
        rintro rfl
        exact hne.elim (fun h => h rfl) fun h => h (by omega)
      exact ⟨upd A e y, by rw [List.getElem?_modify, hA]; simp [hji], upd_ne _ _ hed⟩
    · exact ⟨A, by rw [List.getElem?_modify, hA]; simp [hji], rfl⟩
  have hi : i < T.length := (List.getElem?_eq_some_iff.1 hA).1
  cases op with
  | resize n =>
    by_cases hn : n < 0
    · exact same (h.2 hn).2
    · have hsp : n < 0 ∨ (i : Int) < n := hsp
      refine ⟨A, ?_, rfl⟩
      rw [(h.1 (by omega)).2, List.getElem?_append_left (by rw [List.length_take]; omega), List.getElem?_take, if_pos (by omega), hA]
  | setState e j x =>
    rw [PyStateOp.Sees] at h
    by_cases hc : e ∈ g.decisions ∧ 0 ≤ j ∧ j < T.length
    · rw [if_pos hc] at h
      cases hm : (kind e).meant x with
      | none =>
        rw [hm] at h
        by_cases ha : (kind e).isArray = true
        · exact same (h.2.trans (if_pos ha))
        · exact touch e j _ hc.2.1 hsp (h.2.trans (if_neg ha))
      | some y =>
        rw [hm] at h
        by_cases hok : (sem e).ok [y]
        · exact touch e j _ hc.2.1 hsp (h.1 hok).2
        · exact touch e j _ hc.2.1 hsp (h.2 hok).2
    · rw [if_neg hc] at h
      exact same h.2
  | resetState e j =>
    rw [PyStateOp.Sees] at h
    by_cases hc : 0 ≤ j ∧ j < T.length
    · rw [if_pos hc] at h
      by_cases ha : e ∈ g.decisions
      · exact touch e j _ hc.1 hsp (h.2.trans (if_pos ha))
      · exact same (h.2.trans (if_neg ha))
    · rw [if_neg hc] at h
      exact same h.2
  | state v j => exact same h.1
  | fill => exact same h.2
  | relock => exact same h.2

theorem SeesAll.spares {g : Graph} {kind : Nat → Kind} {sem : Nat → NodeSem Val Dif} {dflt : Nat → Val} {d i : Nat} : ∀ (ops : List PyStateOp) {T U : List (Nat → Val)}
    {os : List Outcome}, SeesAll g kind sem dflt T ops os U → (∀ op ∈ ops, op.Spares d i) → ∀ {A : Nat → Val}, T[i]? = some A →
    ∃ B, U[i]? = some B ∧ B d = A d
  | [], _, _, _, h, _, A, hA => ⟨A, by rw [h.2]; exact hA, rfl⟩
  | op :: ops, _, _, _, ⟨o, os', T', _, h1, h2⟩, hsp, A, hA => by
    obtain ⟨B, hB, e1⟩ := h1.spares (hsp op List.mem_cons_self) hA
    obtain ⟨B', hB', e2⟩ := SeesAll.spares ops h2 (fun q hq => hsp q (List.mem_cons_of_mem _ hq)) hB
    exact ⟨B', hB', e2.trans e1⟩

theorem pyRun_append (g : Graph) (kind : Nat → Kind) (sem : Nat → NodeSem Val Dif) (dflt : Nat → Val) (more : List PyStateOp) : ∀ (ops : List PyStateOp)
    {sts : List (PState sem)} {sts1 sts2 os1 os2}, pyRun g kind sem dflt sts ops = .ok (sts1, os1) →
    pyRun g kind sem dflt sts1 more = .ok (sts2, os2) → pyRun g kind sem dflt sts (ops ++ more) = .ok (sts2, os1 ++ os2)
  | [], _, _, _, _, _, h1, h2 => by
    cases h1
    exact h2
  | op :: ops, sts, sts1, sts2, os1, os2, h1, h2 => by
    simp only [pyRun, Res.bind_eq_ok, List.cons_append] at h1 ⊢
    obtain ⟨⟨a, o⟩, e1, ⟨b, os⟩, e2, e3⟩ := h1
    cases e3
    exact ⟨(a, o), e1, (sts2, os ++ os2), pyRun_append g kind sem dflt more ops e2 h2, rfl⟩

theorem set_get_spec {g : Graph} {kind : Nat → Kind} {sem : Nat → NodeSem Val Dif} {dflt : Nat → Val}
    (C : ∀ v, Settled ([] : Dif) (sem v)) (w : g.WF) (hs : g.sorted = true) (hS : Fitting g kind sem)
    (hdflt : ∀ d ∈ g.decisions, (sem d).ok [dflt d])
    (htotal : ∀ A : Nat → Val, (∀ d ∈ g.decisions, (sem d).ok [A d]) → ∃ vals, Evaluates g sem A vals)
    {hist : List PyStateOp} (hproper : ∀ op ∈ hist, op.Proper g kind) {sts : List (PState sem)} {os : List Outcome}
    (hrun : pyRun g kind sem dflt [] hist = .ok (sts, os)) {d i : Nat} (hd : d ∈ g.nodes) {a : Arr Rat} (ha : (kind d).Holds a)
    (hi : i < sts.length) {later : List PyStateOp} (hlater : ∀ op ∈ later, op.Proper g kind) (hsp : ∀ op ∈ later, op.Spares d i) :
    ∃ sts' os', pyRun g kind sem dflt sts (.setState d i (.array a) :: later ++ [.state d i]) = .ok (sts', .done :: os' ++ [.shown a]) := by
  obtain ⟨sts0, os0, T, h1, h2, h3⟩ := pyRun_spec C w hs hS hdflt htotal hist .nil hproper
  rw [hrun] at h1
  cases h1
  have hdec : (kind d).isDecision = true := by
    cases hk : kind d <;> rw [hk] at ha <;> first | rfl | cases ha
  have hdd := (hS.decisions d hd).2 hdec
  obtain ⟨ps, out, enode⟩ := hS.node d hdd
  obtain ⟨_, harr, hfair, y, hy, hok, hpres, hf⟩ := ha.meant ps out (hS.regular d hdd)
  rw [← enode] at hok hf
  obtain ⟨sts1, o1, T1, e1, s1, k1⟩ := pyStep_spec C w hs hS hdflt htotal h3 (op := .setState d i (.array a)) ⟨hd, hfair⟩
  rw [PyStateOp.Sees, if_pos ⟨hdd, by omega, by have := h3.length_eq; omega⟩, hy] at s1
  obtain ⟨rfl, hT1⟩ := s1.1 hok
  obtain ⟨sts2, os2, T2, e2, s2, k2⟩ := pyRun_spec C w hs hS hdflt htotal later k1 hlater
  obtain ⟨_, A, _, eA, _⟩ := forall2_get h3 (i := i) (by rw [← h3.length_eq]; exact hi)
  obtain ⟨B, hB, eB⟩ := s2.spares (d := d) (i := i) later hsp (A := upd A d y) (by
    rw [hT1, Int.toNat_natCast, List.getElem?_modify, eA]
    simp)
  obtain ⟨sts3, o3, T3, e3, s3, k3⟩ := pyStep_spec C w hs hS hdflt htotal k2 (op := .state d i) hd
  have hiB : i < T2.length := (List.getElem?_eq_some_iff.1 hB).1
  have hidx : rowIndex T2.length (i : Int) = i := by
    unfold rowIndex
    rw [if_neg (by omega)]
    rfl
  rw [PyStateOp.Sees, if_pos ⟨harr, by omega, by omega⟩, hidx] at s3
  obtain ⟨_, A', vals, eA', hE, rfl⟩ := s3
  rw [hB] at eA'
  cases eA'
  have hv : vals d = y := by
    rw [hE.value d hd, hf]
    simp [operands, hdd, eB]
  rw [hv, hpres] at e3
  refine ⟨sts3, os2, ?_⟩
  have e23 := pyRun_append g kind sem dflt [.state d i] later e2 (sts2 := sts3) (os2 := [.shown a]) (by
    simp only [pyRun, e3, Res.ok_bind])
  simp only [List.cons_append, pyRun, e1, Res.ok_bind, e23]

/-- C63.  After any history, setting a decision to an array that it can be is accepted, and reading it gives the same array, right
away or later, whatever happens to other decisions, in other states and to the symbols computed from it. -/
theorem C63_set_get {ops : List ModelOp} {m : PyModel} (hr : PyModel.new.run ops = .ok m) (hl : 0 < lockDepth ops)
    {S : Symbols} (hS : S.Assembled m.g) {dflt : Nat → Val} (hdflt : S.Admissible m.g dflt)
    {hist : List PyStateOp} (hproper : ∀ op ∈ hist, op.Proper m.g S.kind) {sts : List (PState (S.sem m.g))} {os : List Outcome}
    (hrun : pyRun m.g S.kind (S.sem m.g) dflt [] hist = .ok (sts, os)) {d i : Nat} (hd : d ∈ m.g.nodes) {a : Arr Rat} (ha : (S.kind d).Holds a)
    (hi : i < sts.length) {later : List PyStateOp} (hlater : ∀ op ∈ later, op.Proper m.g S.kind) (hsp : ∀ op ∈ later, op.Spares d i) :
    ∃ sts' os', pyRun m.g S.kind (S.sem m.g) dflt sts (.setState d i (.array a) :: later ++ [.state d i]) = .ok (sts', .done :: os' ++ [.shown a]) := by
  have w := (reachable hr).wf
  have hs := (C18_lock_count hr).2.2 hl
  obtain ⟨C, L⟩ := hS.lawful w hs
  exact set_get_spec C w hs (hS.fitting w) hdflt L.total hproper hrun hd ha hi hlater hsp

/-- The same for models that supported programs make. -/
theorem C63_program_set_get {p : Program} {M : Generated} (hp : p.run = .ok M) {T : Nat → Prop} (h : M.rows.Supported T)
    {m : PyModel} (hm : PyModel.new.run M.ops = .ok m) {dflt : Nat → Val} (hdflt : M.rows.Accepts m.g dflt)
    {hist : List PyStateOp} (hproper : ∀ op ∈ hist, op.Proper m.g fun i => (M.rows.row i).kind) {sts : List (PState M.rows.sem)}
    {os : List Outcome} (hrun : pyRun m.g (fun i => (M.rows.row i).kind) M.rows.sem dflt [] hist = .ok (sts, os)) {d i : Nat}
    (hd : d ∈ m.g.nodes) {a : Arr Rat} (ha : (M.rows.row d).kind.Holds a) (hi : i < sts.length) {later : List PyStateOp}
    (hlater : ∀ op ∈ later, op.Proper m.g fun i => (M.rows.row i).kind) (hsp : ∀ op ∈ later, op.Spares d i) :
    ∃ sts' os', pyRun m.g (fun i => (M.rows.row i).kind) M.rows.sem dflt sts (.setState d i (.array a) :: later ++ [.state d i]) =
      .ok (sts', .done :: os' ++ [.shown a]) := by
  obtain ⟨hR, _⟩ := Ready.of_built hp h hm
  obtain ⟨rel, C, L⟩ := hR.lawful
  exact set_get_spec C hR.whole.inv.wf ((C18_lock_count hR.built).2.2 hR.locked) (ready_fitting hp hR h) hdflt L.total hproper hrun hd
    ha hi hlater hsp

/-! ## A concrete history

The model of `WholeExample`: `x` three integers between 0 and 10, `l` an ordering of three items, `x + l`, its sum (3) and whether
the sum is at most seven (5). -/

namespace WholeExample

/-- The decisions' values when they have not been set. -/
def unset : Nat → Val
  | 0 => [⟨[3], [0, 0, 0]⟩]
  | _ => [⟨[3], [0, 1, 2]⟩]

theorem unset_admissible : symbols.Admissible model.g unset := by
  intro d hd
  rw [decisions_eq] at hd
  simp only [List.mem_cons, List.not_mem_nil, or_false] at hd
  rcases hd with rfl | rfl
  · exact ⟨[0, 0, 0], rfl, rfl, by
      intro v hv
      simp only [List.mem_cons, List.not_mem_nil, or_false] at hv
      rcases hv with rfl | rfl | rfl <;> exact ⟨_, rfl, by decide, by decide⟩⟩
  · exact admissible 1 (by rw [decisions_eq]; decide)

/-- What the user sees. -/
def seen (hist : List PyStateOp) : Option (List Outcome) :=
  match pyRun model.g symbols.kind (symbols.sem model.g) unset [] hist with
  | .ok r => some r.2
  | _ => none

theorem seen_eq {hist : List PyStateOp} {os : List Outcome} (h : seen hist = some os) :
    ∃ sts, pyRun model.g symbols.kind (symbols.sem model.g) unset [] hist = .ok (sts, os) := by
  unfold seen at h
  split at h
  · rename_i r e
    cases h
    exact ⟨r.1, e⟩
  · cases h

/-- Two states; `x` is set in one and `l` in the other; the sum is read in both, also from the end; there is no third state; `x` is
reset; states are removed. -/
def stateHistory : List PyStateOp :=
  [.resize 2, .setState 0 0 (.array ⟨[3], [1, 2, 3]⟩), .setState 1 1 (.array ⟨[3], [2, 0, 1]⟩), .state 3 0, .state 3 (-1), .state 2 1,
    .state 0 2, .fill, .setState 0 1 (.array ⟨[3], [0, 0, 1]⟩), .state 5 1, .relock, .resetState 0 0, .state 2 0, .resize 1,
    .state 2 1]

example : (∀ op ∈ stateHistory, op.Proper model.g symbols.kind) ∧ seen stateHistory = some
    [.done, .done, .done, .shown ⟨[], [9]⟩, .shown ⟨[], [3]⟩, .shown ⟨[3], [2, 0, 1]⟩, .raised, .done, .done, .shown ⟨[], [1]⟩,
      .done, .done, .shown ⟨[3], [0, 1, 2]⟩, .done, .raised] := by
  refine ⟨?_, by decide +kernel⟩
  intro op hop
  simp only [stateHistory, List.mem_cons, List.not_mem_nil, or_false] at hop
  rcases hop with rfl | rfl | rfl | rfl | rfl | rfl | rfl | rfl | rfl | rfl | rfl | rfl | rfl | rfl | rfl <;>
    first | trivial | (show _ ∈ _; rw [nodes_eq]; decide)

/-- Hypotheses of `C63_set_get`: `x` can be (4, 0, 10), the list can be (2, 0, 1). -/
example : (symbols.kind 0).Holds ⟨[3], [4, 0, 10]⟩ ∧ (symbols.kind 1).Holds ⟨[3], [2, 0, 1]⟩ ∧
    (PyStateOp.resetState 1 0).Spares 0 0 ∧ (PyStateOp.setState 0 1 (.array ⟨[3], [0, 0, 1]⟩)).Spares 0 0 := by
  refine ⟨⟨rfl, rfl, ?_⟩, ⟨rfl, by decide +kernel, ?_, by decide, by decide⟩, .inl (by decide), .inr (by decide)⟩
  · intro v hv
    simp only [List.mem_cons, List.not_mem_nil, or_false] at hv
    rcases hv with rfl | rfl | rfl <;> exact ⟨_, rfl, by decide, by decide⟩
  · intro v hv
    simp only [List.mem_cons, List.not_mem_nil, or_false] at hv
    rcases hv with rfl | rfl | rfl
    · exact ⟨2, by decide, rfl⟩
    · exact ⟨0, by decide, rfl⟩
    · exact ⟨1, by decide, rfl⟩

end WholeExample

/-- The model of `ProgramExample`: 0 is a set of numbers below three, 5 the sum of `w[x]`, 9 is `A[x, x]`.  It is set to {1, 2}, and to
something that it cannot be. -/
example : ∃ M m sts, ProgramExample.program.run = .ok M ∧ M.rows.Supported (fun _ => True) ∧ PyModel.new.run M.ops = .ok m ∧
    M.rows.Accepts m.g (fun _ => ProgramExample.chosen) ∧
    (∀ op ∈ [PyStateOp.resize 2, .setState 0 1 (.array ⟨[2], [1, 2]⟩), .state 5 1, .state 9 (-1), .state 5 0, .setState 0 0 (.array ⟨[1], [3]⟩)],
      op.Proper m.g fun i => (M.rows.row i).kind) ∧
    pyRun m.g (fun i => (M.rows.row i).kind) M.rows.sem (fun _ => ProgramExample.chosen) []
      [.resize 2, .setState 0 1 (.array ⟨[2], [1, 2]⟩), .state 5 1, .state 9 (-1), .state 5 0, .setState 0 0 (.array ⟨[1], [3]⟩)] =
    .ok (sts, [.done, .done, .shown ⟨[], [13]⟩, .shown ⟨[2], [4, 8]⟩, .shown ⟨[], [12]⟩, .raised]) := by
  have h : (match ProgramExample.program.run with
    | .ok M => match PyModel.new.run M.ops with
      | .ok m => match pyRun m.g (fun i => (M.rows.row i).kind) M.rows.sem (fun _ => ProgramExample.chosen) []
          [.resize 2, .setState 0 1 (.array ⟨[2], [1, 2]⟩), .state 5 1, .state 9 (-1), .state 5 0, .setState 0 0 (.array ⟨[1], [3]⟩)] with
        | .ok r => ProgramExample.checks M && decide (m.g.decisions = [0] ∧ (0 ∈ m.g.nodes ∧ 5 ∈ m.g.nodes ∧ 9 ∈ m.g.nodes) ∧
            r.2 = [.done, .done, .shown ⟨[], [13]⟩, .shown ⟨[2], [4, 8]⟩, .shown ⟨[], [12]⟩, .raised])
        | _ => false
      | _ => false
    | _ => false) = true := by decide +kernel
  split at h
  · rename_i M eM
    split at h
    · rename_i m em
      split at h
      · rename_i r er
        simp only [Bool.and_eq_true, decide_eq_true_eq] at h
        obtain ⟨h1, h2, h3, h5⟩ := h
        have hk : (M.rows.row 0).kind = .collection 3 0 3 := by
          have h1 := h1
          simp only [ProgramExample.checks, Bool.and_eq_true] at h1
          have h1 := h1.1.1.1.1
          unfold Row.kind
          split at h1
          · rename_i n lo hi e
            obtain ⟨rfl, rfl, rfl⟩ := of_decide_eq_true h1
            rw [e]
          · cases h1
        refine ⟨M, m, r.1, eM, ProgramExample.supported eM h1, em, ProgramExample.accepts h1 h2, ?_, by rw [er, ← h5]⟩
        intro op hop
        simp only [List.mem_cons, List.not_mem_nil, or_false] at hop
        rcases hop with rfl | rfl | rfl | rfl | rfl | rfl
        · trivial
        · exact ⟨h3.1, by show Kind.Fair _ (M.rows.row 0).kind; rw [hk]; trivial⟩
        · exact h3.2.1
        · exact h3.2.2
        · exact h3.2.1
        · exact ⟨h3.1, by show Kind.Fair _ (M.rows.row 0).kind; rw [hk]; trivial⟩
      · cases h
    · cases h
  · cases h

/-- The documentation says that the given state must have the shape of the symbol.  Any shape with as many elements is accepted: here
an array of shape (3, 1) for three integers. -/
theorem C63_shape_fails : ¬ ∀ {ops : List ModelOp} {m : PyModel}, PyModel.new.run ops = .ok m → 0 < lockDepth ops →
    ∀ {S : Symbols}, S.Assembled m.g → ∀ {dflt : Nat → Val}, S.Admissible m.g dflt →
    ∀ {d : Nat} {shape : List Int} {lo hi : Option Int} {a : Arr Rat}, d ∈ m.g.nodes → S.kind d = .integer shape lo hi → a.WF →
    a.shape ≠ shape → ∀ {sts os}, pyRun m.g S.kind (S.sem m.g) dflt [] [.resize 1, .setState d 0 (.array a)] = .ok (sts, os) →
    os = [.done, .raised] := by
  intro h
  obtain ⟨sts, e⟩ := WholeExample.seen_eq (hist := [.resize 1, .setState 0 0 (.array ⟨[3, 1], [1, 2, 3]⟩)]) (os := [.done, .done])
    (by decide +kernel)
  exact absurd (h WholeExample.built (by decide) WholeExample.assembled WholeExample.unset_admissible
    (by rw [WholeExample.nodes_eq]; decide) (d := 0) rfl (by decide +kernel) (by decide) e) (by decide)

/-- Numbers that are no integers are not rejected.  Here (3/2, 2, 3) is accepted for three integers, and the state shows (1, 2, 3). -/
theorem C63_fraction_fails : ¬ ∀ {ops : List ModelOp} {m : PyModel}, PyModel.new.run ops = .ok m → 0 < lockDepth ops →
    ∀ {S : Symbols}, S.Assembled m.g → ∀ {dflt : Nat → Val}, S.Admissible m.g dflt →
    ∀ {d : Nat} {shape : List Int} {lo hi : Option Int} {a b : Arr Rat}, d ∈ m.g.nodes → S.kind d = .integer shape lo hi → a.WF →
    a.shape = shape → ∀ {sts}, pyRun m.g S.kind (S.sem m.g) dflt [] [.resize 1, .setState d 0 (.array a), .state d 0] =
      .ok (sts, [.done, .done, .shown b]) → b = a := by
  intro h
  obtain ⟨sts, e⟩ := WholeExample.seen_eq (hist := [.resize 1, .setState 0 0 (.array ⟨[3], [3/2, 2, 3]⟩), .state 0 0])
    (os := [.done, .done, .shown ⟨[3], [1, 2, 3]⟩]) (by decide +kernel)
  exact absurd (h WholeExample.built (by decide) WholeExample.assembled WholeExample.unset_admissible
    (by rw [WholeExample.nodes_eq]; decide) (d := 0) rfl (by decide +kernel) rfl e) (by decide +kernel)

/-- A rejected state is not without effect: the state that had been set before is lost.  Here (1, 2, 3) is set, (1, 2, 11) is rejected,
and then the state shows (0, 0, 0). -/
theorem C63_lost_fails : ¬ ∀ {ops : List ModelOp} {m : PyModel}, PyModel.new.run ops = .ok m → 0 < lockDepth ops →
    ∀ {S : Symbols}, S.Assembled m.g → ∀ {dflt : Nat → Val}, S.Admissible m.g dflt →
    ∀ {d : Nat} {a b c : Arr Rat}, d ∈ m.g.nodes → (S.kind d).Holds a →
    ∀ {sts}, pyRun m.g S.kind (S.sem m.g) dflt [] [.resize 1, .setState d 0 (.array a), .setState d 0 (.array b), .state d 0] =
      .ok (sts, [.done, .done, .raised, .shown c]) → c = a := by
  intro h
  obtain ⟨sts, e⟩ := WholeExample.seen_eq
    (hist := [.resize 1, .setState 0 0 (.array ⟨[3], [1, 2, 3]⟩), .setState 0 0 (.array ⟨[3], [1, 2, 11]⟩), .state 0 0])
    (os := [.done, .done, .raised, .shown ⟨[3], [0, 0, 0]⟩]) (by decide +kernel)
  refine absurd (h WholeExample.built (by decide) WholeExample.assembled WholeExample.unset_admissible
    (by rw [WholeExample.nodes_eq]; decide) (d := 0) ⟨rfl, rfl, ?_⟩ e) (by decide +kernel)
  intro v hv
  simp only [List.mem_cons, List.not_mem_nil, or_false] at hv
  rcases hv with rfl | rfl | rfl <;> exact ⟨_, rfl, by decide, by decide⟩

end Verif
