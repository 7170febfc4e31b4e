import Verif.Props.LazyState
import Verif.Lemmas.ScriptWhole
import Verif.Model.Sessions

set_option linter.unusedSectionVars false
set_option linter.unusedSimpArgs false
set_option linter.unusedVariables false

/-!
# C64: working on a model and its states
-/

namespace Verif

open Graph PyModel

variable {V D : Type} {quiet : D}

/-- Specification of one operation: `m` and `m'` are the model before and after it, `T` and `T'` the table with the decisions' values in
all states; `dflt` are the values of decisions that have not been set.
* Operations on the model do not change the table, whatever happens to the model.
* A decision that is set has its value from then on in that state, and nothing else changes; also while the model is not locked.  A value
  that is refused raises an exception and leaves the decision with its default value.
* Reading a symbol of a locked model shows what follows from the decisions' values in that state.  Reading a decision always works,
  other symbols raise an exception when the model is not locked.
* Numbers of states out of range raise exceptions and nothing changes; so does `initialize()` when the model is not locked.
* Loading states replaces all states. -/
def SessionOp.Sees (sem : Nat → NodeSem V D) (dflt : Nat → V) (m : PyModel) (T : List (Nat → V)) :
    SessionOp V → Seen V → PyModel → List (Nat → V) → Prop
  | .edit op, o, m', T' => m.perform op = .ok m' ∧ (o = .raised ∧ m.step op = .throw ∨ o = .done ∧ m.step op = .ok m') ∧ T' = T
  | .resize n, o, m', T' => m' = m ∧
    if n < 0 then o = .raised ∧ T' = T
    else o = .done ∧ T' = T.take n.toNat ++ List.replicate (n.toNat - T.length) dflt
  | .set d i x, o, m', T' => m' = m ∧
    if 0 ≤ i ∧ i < T.length then
      ∃ A, T[i.toNat]? = some A ∧ (((sem d).ok [x] ∧ o = .done ∧ T' = T.set i.toNat (upd A d x)) ∨
        ((sem d).init [x] = .throw ∧ o = .raised ∧ T' = T.set i.toNat (upd A d (dflt d))))
    else o = .raised ∧ T' = T
  | .reset v i, o, m', T' => m' = m ∧
    if 0 ≤ i ∧ i < T.length then
      o = .done ∧ ∃ A, T[i.toNat]? = some A ∧ T' = T.set i.toNat (if v ∈ m.g.decisions then upd A v (dflt v) else A)
    else o = .raised ∧ T' = T
  | .read v i, o, m', T' => m' = m ∧ T' = T ∧
    if -(T.length : Int) ≤ i ∧ i < T.length ∧ (m.isLocked = true ∨ v ∈ m.g.decisions) then
      ∃ A, T[(if i < 0 then i + T.length else i).toNat]? = some A ∧
        ((v ∈ m.g.decisions ∧ o = .shown ((sem v).f [A v])) ∨
          (m.isLocked = true ∧ ∃ vals, Evaluates m.g sem A vals ∧ o = .shown (vals v)))
    else o = .raised
  | .fill, o, m', T' => m' = m ∧ T' = T ∧ o = if m.isLocked = true then .done else .raised
  | .load rows, o, m', T' => m' = m ∧ o = .done ∧ T' = rows.map (loadedValues m.g.decisions dflt)

/-- Specification of a session. -/
def SessionOp.SeesAll (sem : Nat → NodeSem V D) (dflt : Nat → V) :
    PyModel → List (Nat → V) → List (SessionOp V) → List (Seen V) → PyModel → List (Nat → V) → Prop
  | m, T, [], os, m', T' => os = [] ∧ m' = m ∧ T' = T
  | m, T, op :: ops, os, m', T' => ∃ o os' m1 T1, os = o :: os' ∧ op.Sees sem dflt m T o m1 T1 ∧ SeesAll sem dflt m1 T1 ops os' m' T'

namespace StateVec

variable {g : Graph} {sem : Nat → NodeSem V D}

/-! ## Vectors and states -/

/-- Every entry is where its symbol looks for it. -/
structure Owned (g : Graph) (vec : StateVec sem) : Prop where
  short : vec.length ≤ g.nodes.length
  owner : ∀ (i : Nat) (e : Entry sem), vec[i]? = some (some e) → e.owner ∈ g.nodes ∧ (g.mem e.owner).topo = i

/-- The entry of a symbol. -/
def entry (vec : StateVec sem) (i : Nat) (v : Nat) : Option (sem v).σ :=
  match vec[i]? with
  | some (some e) => if h : e.owner = v then some (h ▸ e.data) else none
  | _ => none

theorem entry_eq_some {vec : StateVec sem} {i v : Nat} {s : (sem v).σ} : vec.entry i v = some s ↔ vec[i]? = some (some ⟨v, s⟩) := by
  unfold entry
  constructor
  · intro h
    split at h
    · rename_i e he
      split at h
      · rename_i ho
        obtain ⟨o, d⟩ := e
        cases ho
        cases h
        exact he
      · cases h
    · cases h
  · intro h
    rw [h]
    simp

/-- A vector as a state of C39. -/
def asState (g : Graph) (vec : StateVec sem) : PState sem :=
  ⟨vec.length, fun v => open Classical in if v ∈ g.nodes ∧ 0 ≤ (g.mem v).topo then vec.entry (g.mem v).topo.toNat v else none⟩

theorem asState_cell {vec : StateVec sem} {v : Nat} (hv : v ∈ g.nodes) (ht : 0 ≤ (g.mem v).topo) :
    (asState g vec).cell v = vec.entry (g.mem v).topo.toNat v := if_pos ⟨hv, ht⟩

theorem PState.ext {st st' : PState sem} (h1 : st.size = st'.size) (h2 : ∀ v, st.cell v = st'.cell v) : st = st' := by
  obtain ⟨n, c⟩ := st
  obtain ⟨n', c'⟩ := st'
  have : c = c' := funext h2
  subst this
  cases h1
  rfl

theorem resize_getElem? (vec : StateVec sem) (n i : Nat) (e : Entry sem) :
    (vec.resize n)[i]? = some (some e) ↔ i < n ∧ vec[i]? = some (some e) := by
  unfold resize
  rw [List.getElem?_append]
  split
  · rename_i h
    rw [List.length_take] at h
    rw [List.getElem?_take]
    simp only [show i < n by omega, if_true, true_and]
  · rename_i h
    rw [List.length_take] at h
    rw [List.getElem?_replicate]
    constructor
    · intro h'
      split at h' <;> simp at h'
    · rintro ⟨h1, h2⟩
      have := (List.getElem?_eq_some_iff.1 h2).1
      omega

theorem resize_length (vec : StateVec sem) (n : Nat) : (vec.resize n).length = n := by
  unfold resize
  rw [List.length_append, List.length_take, List.length_replicate]
  omega

theorem resize_entry (vec : StateVec sem) (n i v : Nat) : (vec.resize n).entry i v = if i < n then vec.entry i v else none := by
  apply Option.ext
  intro s
  by_cases h : i < n
  · rw [if_pos h, entry_eq_some, entry_eq_some, resize_getElem?]
    simp [h]
  · rw [if_neg h, entry_eq_some, resize_getElem?]
    simp [h]

theorem extend_length (vec : StateVec sem) (i : Nat) : (vec.extend i).length = max vec.length (i + 1) := by
  unfold extend
  split
  · rw [resize_length]; omega
  · omega

theorem extend_getElem? (vec : StateVec sem) (i j : Nat) (e : Entry sem) : (vec.extend i)[j]? = some (some e) ↔ vec[j]? = some (some e) := by
  unfold extend
  split
  · rw [resize_getElem?]
    refine and_iff_right_of_imp fun h => ?_
    have := (List.getElem?_eq_some_iff.1 h).1
    omega
  · rfl

theorem extend_entry (vec : StateVec sem) (i j v : Nat) : (vec.extend i).entry j v = vec.entry j v := by
  apply Option.ext
  intro s
  rw [entry_eq_some, entry_eq_some, extend_getElem?]

theorem asState_extend (vec : StateVec sem) (i : Nat) : asState g (vec.extend i) = (asState g vec).grow (i + 1) := by
  refine PState.ext ?_ fun v => ?_
  · exact extend_length vec i
  · show (if _ then _ else none) = (if _ then _ else none)
    rw [extend_entry]

theorem Owned.extend {vec : StateVec sem} (h : Owned g vec) {i : Nat} (hi : i < g.nodes.length) : Owned g (vec.extend i) where
  short := by
    have := h.short
    rw [extend_length]; omega
  owner j e he := h.owner j e ((extend_getElem? ..).1 he)

theorem set_getElem? {vec : StateVec sem} {i : Nat} (hi : i < vec.length) (o : Option (Entry sem)) (j : Nat) :
    (vec.set i o)[j]? = if j = i then some o else vec[j]? := by
  rw [List.getElem?_set]
  by_cases h : i = j
  · subst h; simp [hi]
  · rw [if_neg h, if_neg (Ne.symm h)]

section sorted

variable (w : g.WF) (hs : g.sorted = true)
include w hs

theorem topo_range {v : Nat} (hv : v ∈ g.nodes) : 0 ≤ (g.mem v).topo ∧ (g.mem v).topo < g.nodes.length := (w.topological hs).range v hv

/-- An entry is either the symbol's own or missing. -/
theorem Owned.slot {vec : StateVec sem} (h : Owned g vec) {v : Nat} (hv : v ∈ g.nodes) :
    (∃ s, vec[(g.mem v).topo.toNat]? = some (some ⟨v, s⟩) ∧ (asState g vec).cell v = some s) ∨
      ((∀ e, vec[(g.mem v).topo.toNat]? ≠ some (some e)) ∧ (asState g vec).cell v = none) := by
  have ht := (topo_range w hs hv).1
  rw [asState_cell hv ht]
  by_cases he : ∃ e, vec[(g.mem v).topo.toNat]? = some (some e)
  · obtain ⟨⟨o, d⟩, he⟩ := he
    obtain ⟨h1, h2⟩ := h.owner _ _ he
    have : o = v := (w.topological hs).inj o h1 v hv (by simp only [topoOf]; rw [h2]; omega)
    subst this
    exact .inl ⟨d, he, entry_eq_some.2 he⟩
  · refine .inr ⟨fun e h' => he ⟨e, h'⟩, ?_⟩
    cases hx : vec.entry (g.mem v).topo.toNat v with
    | none => rfl
    | some s => exact absurd ⟨_, entry_eq_some.1 hx⟩ he

theorem asState_set {vec : StateVec sem} {v : Nat} (hv : v ∈ g.nodes) (hl : (g.mem v).topo < vec.length) (o : Option (sem v).σ) :
    asState g (vec.set (g.mem v).topo.toNat (o.map fun s => ⟨v, s⟩)) = (asState g vec).put v o := by
  have ht := (topo_range w hs hv).1
  refine PState.ext (by simp [asState, PState.put]) fun u => ?_
  by_cases hu : u = v
  · subst hu
    rw [PState.put_same, asState_cell hv ht]
    apply Option.ext
    intro s
    rw [entry_eq_some, set_getElem? (by omega), if_pos rfl]
    cases o with
    | none => simp
    | some s' => simp
  · rw [PState.put_ne _ _ hu]
    show (if _ then _ else none) = (if _ then _ else none)
    by_cases hc : u ∈ g.nodes ∧ 0 ≤ (g.mem u).topo
    · rw [if_pos hc, if_pos hc]
      apply Option.ext
      intro s
      have hu0 := hc.2
      rw [entry_eq_some, entry_eq_some, set_getElem? (by omega), if_neg]
      intro hq
      exact hu ((w.topological hs).inj u hc.1 v hv (by have := hc.2; simp only [topoOf]; omega))
    · rw [if_neg hc, if_neg hc]

theorem Owned.set {vec : StateVec sem} (h : Owned g vec) {v : Nat} (hv : v ∈ g.nodes) (hl : (g.mem v).topo < vec.length)
    (o : Option (sem v).σ) : Owned g (vec.set (g.mem v).topo.toNat (o.map fun s => ⟨v, s⟩)) where
  short := by rw [List.length_set]; exact h.short
  owner j e he := by
    have ht := (topo_range w hs hv).1
    have hlt : (g.mem v).topo.toNat < vec.length := by omega
    rw [set_getElem? hlt] at he
    split at he
    · rename_i hj
      cases o with
      | none => simp at he
      | some s => cases he; exact ⟨hv, by show (g.mem v).topo = _; omega⟩
    · exact h.owner j e he

/-! ## Initialising -/

theorem value_sim {vec : StateVec sem} (h : Owned g vec) {v : Nat} (hv : v ∈ g.nodes) {s : (sem v).σ}
    (hc : (asState g vec).cell v = some s) : value g vec v = .ok ((sem v).view s) := by
  have ht := (topo_range w hs hv).1
  rcases h.slot w hs hv with ⟨s', e1, e2⟩ | ⟨_, e2⟩
  · rw [hc] at e2
    cases e2
    unfold value
    rw [if_neg (by omega), e1]
    simp
  · rw [hc] at e2; cases e2

theorem operands_sim {vec : StateVec sem} (h : Owned g vec) {dflt : Nat → V} {v : Nat} (hv : v ∈ g.nodes) {xs : List V}
    (hx : readOperands g sem dflt (asState g vec) v = .ok xs) : operandValues g dflt vec v = .ok xs := by
  unfold readOperands at hx
  unfold operandValues
  split at hx
  · rename_i hd
    rw [if_pos hd]
    exact hx
  · rename_i hd
    rw [if_neg hd]
    have hp := w.predMem v hv
    simp only [predsOf] at hp
    revert hx xs hp
    generalize (g.mem v).preds = ps
    intro xs hx hp
    induction ps generalizing xs with
    | nil => exact hx
    | cons p ps ih =>
      rw [List.mapM_cons] at hx ⊢
      obtain ⟨x, e1, hx⟩ := Res.bind_eq_ok.1 hx
      obtain ⟨ys, e2, hx⟩ := Res.bind_eq_ok.1 hx
      rw [ih e2 fun q hq => hp q (List.mem_cons_of_mem _ hq)] 
      have : value g vec p = .ok x := by
        cases hc : (asState g vec).cell p with
        | none => rw [hc] at e1; cases e1
        | some s =>
          rw [hc] at e1
          cases e1
          exact value_sim w hs h (hp p List.mem_cons_self) hc
      rw [this]
      exact hx

theorem emplace_sim {vec : StateVec sem} (h : Owned g vec) {v : Nat} (hv : v ∈ g.nodes) (hl : (g.mem v).topo < vec.length)
    (hn : (asState g vec).cell v = none) (s : (sem v).σ) :
    emplace g vec v s = .ok (vec.set (g.mem v).topo.toNat (some ⟨v, s⟩)) := by
  have ht := (topo_range w hs hv).1
  rcases h.slot w hs hv with ⟨s', _, e2⟩ | ⟨e1, _⟩
  · rw [hn] at e2; cases e2
  · unfold emplace
    rw [if_neg (by omega)]
    have hlt : (g.mem v).topo.toNat < vec.length := by omega
    rw [List.getElem?_eq_getElem hlt] at e1 ⊢
    cases hx : vec[(g.mem v).topo.toNat] with
    | none => rfl
    | some e => exact absurd (by rw [hx]) (e1 e)

theorem initNode_sim {vec : StateVec sem} (h : Owned g vec) {dflt : Nat → V} {v : Nat} (hv : v ∈ g.nodes)
    (hl : (g.mem v).topo < vec.length) (hn : (asState g vec).cell v = none) {xs : List V} {s : (sem v).σ}
    (hx : readOperands g sem dflt (asState g vec) v = .ok xs) (hi : (sem v).init xs = .ok s) :
    ∃ vec', initNode g dflt vec v = .ok vec' ∧ Owned g vec' ∧ asState g vec' = (asState g vec).put v (some s) ∧
      vec'.length = vec.length := by
  refine ⟨_, ?_, h.set w hs hv hl (some s), asState_set w hs hv hl (some s), by simp⟩
  unfold initNode
  rw [operands_sim w hs h hv hx, Res.ok_bind, hi, Res.ok_bind, emplace_sim w hs h hv hl hn]
  rfl

theorem recInit_sim {dflt : Nat → V} : ∀ (fuel : Nat) {vec : StateVec sem} {v : Nat} {st : PState sem}, Owned g vec → v ∈ g.nodes →
    Graph.recInit g sem dflt fuel (asState g vec) v = .ok st →
    ∃ vec', recInit g dflt fuel vec v = .ok vec' ∧ Owned g vec' ∧ asState g vec' = st ∧ vec.length ≤ vec'.length ∧
      ∀ u ∈ g.nodes, (g.mem v).topo < (g.mem u).topo → st.cell u = (asState g vec).cell u := by
  intro fuel
  induction fuel with
  | zero => intro vec v st _ _ he; cases he
  | succ fuel ih =>
    intro vec v st h hv he
    have ht := topo_range w hs hv
    have hidx : (((g.mem v).topo.toNat : Nat) : Int) = (g.mem v).topo := by omega
    unfold Graph.recInit at he
    rw [if_neg (by omega)] at he
    unfold recInit
    rw [if_neg (by omega)]
    have hE := h.extend (i := (g.mem v).topo.toNat) (by omega)
    have hg : asState g (vec.extend (g.mem v).topo.toNat) = (asState g vec).grow ((g.mem v).topo.toNat + 1) := asState_extend ..
    have hgrow : ∀ u, ((asState g vec).grow ((g.mem v).topo.toNat + 1)).cell u = (asState g vec).cell u := fun _ => rfl
    rcases hE.slot w hs hv with ⟨s, e1, e2⟩ | ⟨e1, e2⟩
    · rw [hg, hgrow] at e2
      rw [if_pos (by rw [e2]; rfl)] at he
      cases he
      rw [e1]
      exact ⟨_, rfl, hE, hg, by rw [extend_length]; omega, fun _ _ _ => rfl⟩
    · have e2' := e2
      rw [hg, hgrow] at e2
      rw [if_neg (by rw [e2]; simp)] at he
      obtain ⟨st1, f1, he⟩ := Res.bind_eq_ok.1 he
      obtain ⟨xs, f2, he⟩ := Res.bind_eq_ok.1 he
      obtain ⟨s, f3, he⟩ := Res.bind_eq_ok.1 he
      cases he
      have hfold : ∀ (ps : List Nat) {vec0 : StateVec sem} {st0 : PState sem}, (∀ p ∈ ps, p ∈ g.nodes ∧ (g.mem p).topo < (g.mem v).topo) →
          Owned g vec0 → ps.foldlM (Graph.recInit g sem dflt fuel) (asState g vec0) = .ok st0 →
          ∃ vec1, ps.foldlM (recInit g dflt fuel) vec0 = .ok vec1 ∧ Owned g vec1 ∧ asState g vec1 = st0 ∧ vec0.length ≤ vec1.length ∧
            ∀ u ∈ g.nodes, (g.mem v).topo ≤ (g.mem u).topo → st0.cell u = (asState g vec0).cell u := by
        intro ps
        induction ps with
        | nil =>
          intro vec0 st0 _ h0 e
          cases e
          exact ⟨vec0, rfl, h0, rfl, le_refl _, fun _ _ _ => rfl⟩
        | cons p ps ihp =>
          intro vec0 st0 hp h0 e
          rw [List.foldlM_cons] at e
          obtain ⟨st2, g1, g2⟩ := Res.bind_eq_ok.1 e
          obtain ⟨vec2, k1, k2, k3, k4, k5⟩ := ih h0 (hp p List.mem_cons_self).1 g1
          rw [← k3] at g2
          obtain ⟨vec3, l1, l2, l3, l4, l5⟩ := ihp (fun q hq => hp q (List.mem_cons_of_mem _ hq)) k2 g2
          refine ⟨vec3, ?_, l2, l3, by omega, fun u hu hle => ?_⟩
          · rw [List.foldlM_cons, k1, Res.ok_bind, l1]
          · rw [l5 u hu hle, k3, k5 u hu (by have := (hp p List.mem_cons_self).2; omega)]
      have hpreds : ∀ p ∈ (g.mem v).preds, p ∈ g.nodes ∧ (g.mem p).topo < (g.mem v).topo := by
        intro p hp
        have hpn := w.predMem v hv p hp
        exact ⟨hpn, (w.topological hs).edge p hpn v ((w.mem_link hpn hv).2 hp)⟩
      rw [← hg] at f1
      obtain ⟨vec1, k1, k2, k3, k4, k5⟩ := hfold _ hpreds hE f1
      subst k3
      have hn1 : (asState g vec1).cell v = none := by rw [k5 v hv (le_refl _)]; exact e2'
      have hl1 : (g.mem v).topo < vec1.length := by
        have := extend_length vec (g.mem v).topo.toNat
        omega
      obtain ⟨vec', l1, l2, l3, l4⟩ := initNode_sim w hs k2 hv hl1 hn1 f2 f3
      refine ⟨vec', ?_, l2, l3, ?_, fun u hu hlt => ?_⟩
      · split
        · rename_i e he
          exact absurd he (e1 e)
        · rw [k1, Res.ok_bind, l1]
      · have := extend_length vec (g.mem v).topo.toNat
        omega
      · rw [PState.put_ne _ _ (by rintro rfl; omega), k5 u hu (by omega), hg]
        rfl

/-! ## Resetting -/

theorem recReset_sim : ∀ (fuel : Nat) {vec : StateVec sem} {v : Nat} {st : PState sem}, Owned g vec → v ∈ g.nodes →
    Graph.recReset g sem fuel (asState g vec) v = .ok st →
    ∃ vec', recReset g fuel vec v = .ok vec' ∧ Owned g vec' ∧ asState g vec' = st ∧ vec'.length = vec.length := by
  intro fuel
  induction fuel with
  | zero => intro vec v st _ _ he; cases he
  | succ fuel ih =>
    intro vec v st h hv he
    have ht := topo_range w hs hv
    unfold Graph.recReset at he
    rw [if_neg (by omega)] at he
    unfold recReset
    rw [if_neg (by omega)]
    have hsz : (asState g vec).size = vec.length := rfl
    rw [hsz] at he
    by_cases hc : (vec.length : Int) ≤ (g.mem v).topo
    · rw [if_pos hc] at he ⊢
      cases he
      exact ⟨vec, rfl, h, rfl, rfl⟩
    · rw [if_neg hc] at he ⊢
      have hset := asState_set w hs hv (by omega) (none : Option (sem v).σ) (vec := vec)
      have hown := h.set w hs hv (by omega) (none : Option (sem v).σ)
      rw [← hset] at he
      rw [Option.map_none] at he hown
      have hfold : ∀ (us : List Nat) {vec0 : StateVec sem} {st0 : PState sem}, (∀ u ∈ us, u ∈ g.nodes) → Owned g vec0 →
          us.foldlM (fun st u => if (g.mem u).topo < 0 then .ok st else Graph.recReset g sem fuel st u) (asState g vec0) = .ok st0 →
          ∃ vec1, us.foldlM (fun vec u => if (g.mem u).topo < 0 then .ok vec else recReset g fuel vec u) vec0 = .ok vec1 ∧
            Owned g vec1 ∧ asState g vec1 = st0 ∧ vec1.length = vec0.length := by
        intro us
        induction us with
        | nil => intro vec0 st0 _ h0 e; cases e; exact ⟨vec0, rfl, h0, rfl, rfl⟩
        | cons u us ihu =>
          intro vec0 st0 hu h0 e
          rw [List.foldlM_cons] at e ⊢
          have hun := (topo_range w hs (hu u List.mem_cons_self)).1
          rw [if_neg (by omega)] at e ⊢
          obtain ⟨st2, g1, g2⟩ := Res.bind_eq_ok.1 e
          obtain ⟨vec2, k1, k2, k3, k4⟩ := ih h0 (hu u List.mem_cons_self) g1
          rw [← k3] at g2
          obtain ⟨vec3, l1, l2, l3, l4⟩ := ihu (fun q hq => hu q (List.mem_cons_of_mem _ hq)) k2 g2
          exact ⟨vec3, by rw [k1, Res.ok_bind, l1], l2, l3, by omega⟩
      obtain ⟨vec1, k1, k2, k3, k4⟩ := hfold _ (fun u hu => w.succMem v hv u hu) hown he
      exact ⟨vec1, k1, k2, k3, by rw [k4, List.length_set]⟩

theorem resetState_sim {vec : StateVec sem} (h : Owned g vec) {v : Nat} (hv : v ∈ g.nodes) {st : PState sem}
    (he : Graph.resetState g sem (asState g vec) v = .ok st) :
    ∃ vec', resetState g vec v = .ok vec' ∧ Owned g vec' ∧ asState g vec' = st ∧ (g.mem v).topo < vec'.length := by
  have ht := topo_range w hs hv
  unfold Graph.resetState at he
  unfold resetState
  rw [if_neg (by omega)] at he ⊢
  rw [← asState_extend] at he
  obtain ⟨vec', k1, k2, k3, k4⟩ := recReset_sim w hs _ (h.extend (by omega)) hv he
  exact ⟨vec', k1, k2, k3, by rw [k4, extend_length]; omega⟩

/-! ## Initialising everything -/

theorem Owned.resize {vec : StateVec sem} (h : Owned g vec) : Owned g (vec.resize g.nodes.length) where
  short := by rw [resize_length]
  owner j e he := h.owner j e ((resize_getElem? ..).1 he).2

theorem asState_resize {vec : StateVec sem} (h : Owned g vec) : asState g (vec.resize g.nodes.length) = (asState g vec).grow g.nodes.length := by
  refine PState.ext ?_ fun v => ?_
  · have := h.short
    show (vec.resize g.nodes.length).length = max vec.length g.nodes.length
    rw [resize_length]; omega
  · show (if _ then _ else none) = (if _ then _ else none)
    by_cases hc : v ∈ g.nodes ∧ 0 ≤ (g.mem v).topo
    · rw [if_pos hc, if_pos hc, resize_entry, if_pos]
      have := topo_range w hs hc.1
      omega
    · rw [if_neg hc, if_neg hc]

theorem initOne_sim {dflt : Nat → V} {vec : StateVec sem} {v : Nat} {st : PState sem} (h : Owned g vec) (hv : v ∈ g.nodes)
    (hl : vec.length = g.nodes.length) (he : Graph.initOne g sem dflt (asState g vec) v = .ok st) :
    ∃ vec', initOne g dflt vec (v, (g.mem v).topo.toNat) = .ok vec' ∧ Owned g vec' ∧ asState g vec' = st ∧ vec'.length = vec.length := by
  have ht := topo_range w hs hv
  unfold Graph.initOne at he
  unfold initOne
  rcases h.slot w hs hv with ⟨s, e1, e2⟩ | ⟨e1, e2⟩
  · rw [if_pos (by rw [e2]; rfl)] at he
    cases he
    dsimp only
    rw [e1]
    exact ⟨vec, rfl, h, rfl, rfl⟩
  · rw [if_neg (by rw [e2]; simp)] at he
    obtain ⟨xs, f2, he⟩ := Res.bind_eq_ok.1 he
    obtain ⟨s, f3, he⟩ := Res.bind_eq_ok.1 he
    cases he
    obtain ⟨vec', l1, l2, l3, l4⟩ := initNode_sim w hs h hv (by omega) e2 f2 f3
    refine ⟨vec', ?_, l2, l3, l4⟩
    dsimp only
    split
    · rename_i e he
      exact absurd he (e1 e)
    · exact l1

theorem initAll_sim {dflt : Nat → V} {vec : StateVec sem} {st : PState sem} (h : Owned g vec)
    (he : Graph.initAll g sem dflt (asState g vec) = .ok st) :
    ∃ vec', initAll g dflt vec = .ok vec' ∧ Owned g vec' ∧ asState g vec' = st := by
  have fold : ∀ (todo done : List Nat) {vec : StateVec sem} {st : PState sem}, g.nodes = done ++ todo → Owned g vec →
      vec.length = g.nodes.length → todo.foldlM (Graph.initOne g sem dflt) (asState g vec) = .ok st →
      ∃ vec', (todo.zipIdx done.length).foldlM (initOne g dflt) vec = .ok vec' ∧ Owned g vec' ∧ asState g vec' = st := by
    intro todo
    induction todo with
    | nil => intro done vec st _ h _ he; cases he; exact ⟨vec, rfl, h, rfl⟩
    | cons v todo ih =>
      intro done vec st hn h hl he
      have hv : v ∈ g.nodes := by rw [hn]; simp
      have ht : (g.mem v).topo = done.length := by
        have := w.positions hs done.length (by rw [hn]; simp)
        have hx : g.nodes[done.length]'(by rw [hn]; simp) = v := by simp [hn]
        rw [hx] at this
        exact this
      rw [List.foldlM_cons] at he
      obtain ⟨st1, e1, e2⟩ := Res.bind_eq_ok.1 he
      obtain ⟨vec1, k1, k2, k3, k4⟩ := initOne_sim w hs h hv hl e1
      rw [← k3] at e2
      obtain ⟨vec2, l1, l2, l3⟩ := ih (done ++ [v]) (by rw [hn]; simp) k2 (by omega) e2
      refine ⟨vec2, ?_, l2, l3⟩
      rw [ht, Int.toNat_natCast] at k1
      rw [List.zipIdx_cons, List.foldlM_cons, k1, Res.ok_bind]
      rw [List.length_append] at l1
      exact l1
  unfold Graph.initAll at he
  rw [← asState_resize w hs h] at he
  exact fold g.nodes [] rfl (h.resize w hs) (resize_length ..) he

/-! ## Operations on a state of a locked model -/

section kept

variable (C : ∀ v, Settled quiet (sem v)) {dflt A : Nat → V} {vec : StateVec sem} (hdflt : ∀ d ∈ g.decisions, (sem d).ok [dflt d])
  (htotal : ∀ A : Nat → V, (∀ d ∈ g.decisions, (sem d).ok [A d]) → ∃ vals, Evaluates g sem A vals)
  (h : Owned g vec) (k : Kept g sem C dflt A (asState g vec))
include hdflt htotal h k

theorem locked_reset {v : Nat} (hv : v ∈ g.nodes) : ∃ vec', resetState g vec v = .ok vec' ∧ Owned g vec' ∧
    Kept g sem C dflt (if v ∈ g.decisions then upd A v (dflt v) else A) (asState g vec') := by
  obtain ⟨st, e1, k1⟩ := Kept.step C w hs hdflt htotal k (op := .reset v) hv
  obtain ⟨vec', l1, l2, l3, _⟩ := resetState_sim w hs h hv e1
  subst l3
  exact ⟨vec', l1, l2, k1⟩

theorem locked_set {d : Nat} (hd : d ∈ g.decisions) {x : V} (hx : (sem d).ok [x]) :
    ∃ vec', setState g vec d x = .ok (vec', .done) ∧ Owned g vec' ∧ Kept g sem C dflt (upd A d x) (asState g vec') := by
  have hdn := w.decMem d hd
  obtain ⟨st, e1, k1⟩ := Kept.step C w hs hdflt htotal k (op := .set d x) ⟨hd, hx⟩
  obtain ⟨st1, f1, e2⟩ := Res.bind_eq_ok.1 e1
  obtain ⟨s, f2, e2⟩ := Res.bind_eq_ok.1 e2
  cases e2
  obtain ⟨vec1, l1, l2, l3, l4⟩ := resetState_sim w hs h hdn f1
  subst l3
  obtain ⟨_, ⟨vals, hE, hF⟩, _⟩ := k
  obtain ⟨st2, r1, _, r3, _⟩ := resetState_spec C w hs hE hE hdn (fun _ _ _ => rfl) hF
  rw [f1] at r1
  cases r1
  refine ⟨_, ?_, l2.set w hs hdn l4 (some s), ?_⟩
  · unfold setState
    rw [l1, Res.ok_bind, f2]
    unfold assign
    dsimp only
    rw [emplace_sim w hs l2 hdn l4 r3]
    rfl
  · rw [asState_set w hs hdn l4 (some s)]
    exact k1

theorem locked_read {v : Nat} (hv : v ∈ g.nodes) : ∃ vals vec', Evaluates g sem A vals ∧ readState g dflt vec v = .ok vec' ∧
    value g vec' v = .ok (vals v) ∧ Owned g vec' ∧ Kept g sem C dflt A (asState g vec') := by
  obtain ⟨vals, hE⟩ := htotal A k.1
  obtain ⟨st, s, e1, e2, e3, _, k1, _⟩ := Kept.read C w hs k hE hv
  obtain ⟨vec', l1, l2, l3, _⟩ := recInit_sim w hs _ h hv e1
  subst l3
  refine ⟨vals, vec', hE, l1, ?_, l2, k1⟩
  rw [value_sim w hs l2 hv e2, e3]

theorem locked_fill : ∃ vec', initAll g dflt vec = .ok vec' ∧ Owned g vec' ∧ Kept g sem C dflt A (asState g vec') := by
  obtain ⟨st, e1, k1⟩ := Kept.step C w hs hdflt htotal k (op := .fill) trivial
  obtain ⟨vec', l1, l2, l3⟩ := initAll_sim w hs h e1
  subst l3
  exact ⟨vec', l1, l2, k1⟩

end kept

end sorted

/-! ## States of a model that is not locked -/

/-- Only decisions have entries, at the places that they have as decisions. -/
structure Bare (ds : List Nat) (C : ∀ v, Settled quiet (sem v)) (dflt A : Nat → V) (vec : StateVec sem) : Prop where
  short : vec.length ≤ ds.length
  owner : ∀ (i : Nat) (e : Entry sem), vec[i]? = some (some e) → ds[i]? = some e.owner
  clean : ∀ (i : Nat) (e : Entry sem), vec[i]? = some (some e) → (C e.owner).Clean e.data [A e.owner]
  default : ∀ (i : Nat) (d : Nat), ds[i]? = some d → (∀ e, vec[i]? ≠ some (some e)) → A d = dflt d

section bare

variable {C : ∀ v, Settled quiet (sem v)} {dflt A : Nat → V} {vec : StateVec sem}

theorem Bare.append {ds t : List Nat} (h : Bare ds C dflt A vec) (hn : (ds ++ t).Nodup) (hA : ∀ v, v ∉ ds → A v = dflt v) :
    Bare (ds ++ t) C dflt A vec where
  short := by have := h.short; rw [List.length_append]; omega
  owner i e he := by
    have hi := (List.getElem?_eq_some_iff.1 he).1
    have := h.short
    rw [List.getElem?_append_left (by omega)]
    exact h.owner i e he
  clean := h.clean
  default i d hd he := by
    by_cases hi : i < ds.length
    · rw [List.getElem?_append_left hi] at hd
      exact h.default i d hd he
    · rw [List.getElem?_append_right (by omega)] at hd
      exact hA d fun hx => (List.nodup_append.1 hn).2.2 d hx d (List.mem_of_getElem? hd) rfl

theorem dec_topo (w : g.WF) {i d : Nat} (hd : g.decisions[i]? = some d) : (g.mem d).topo = i := by
  obtain ⟨hi, rfl⟩ := List.getElem?_eq_some_iff.1 hd
  exact w.decTopo i hi

theorem dec_slot (w : g.WF) {d : Nat} (hd : d ∈ g.decisions) :
    0 ≤ (g.mem d).topo ∧ g.decisions[(g.mem d).topo.toNat]? = some d ∧ (g.mem d).topo < g.decisions.length := by
  obtain ⟨i, hi, rfl⟩ := List.mem_iff_getElem.1 hd
  have := w.decTopo i hi
  simp only [topoOf] at this
  rw [this]
  simp [hi]

theorem Bare.lock (w : g.WF) (hs : g.sorted = true) (h : Bare g.decisions C dflt A vec) (hok : ∀ d ∈ g.decisions, (sem d).ok [A d])
    (htotal : ∀ A : Nat → V, (∀ d ∈ g.decisions, (sem d).ok [A d]) → ∃ vals, Evaluates g sem A vals) :
    Owned g vec ∧ Kept g sem C dflt A (asState g vec) := by
  have hO : Owned g vec := by
    refine ⟨?_, fun i e he => ?_⟩
    · have h1 := h.short
      have h2 : g.decisions.length ≤ g.nodes.length := (List.subperm_of_subset w.decNodup w.decMem).length_le
      omega
    · have hd := h.owner i e he
      exact ⟨w.decMem _ (List.mem_of_getElem? hd), dec_topo w hd⟩
  obtain ⟨vals, hE⟩ := htotal A hok
  have hcell : ∀ v ∈ g.nodes, ∀ s, (asState g vec).cell v = some s → v ∈ g.decisions ∧ vec[(g.mem v).topo.toNat]? = some (some ⟨v, s⟩) := by
    intro v hv s hc
    rw [asState_cell hv (topo_range w hs hv).1, entry_eq_some] at hc
    exact ⟨List.mem_of_getElem? (h.owner _ _ hc), hc⟩
  refine ⟨hO, hok, ⟨vals, hE, fun v hv hc => ?_, fun v hv s hc => ?_, fun v hv hc p hp => ?_⟩, fun d hd hc => ?_⟩
  · obtain ⟨s, hc⟩ := Option.isSome_iff_exists.1 hc
    have := (List.getElem?_eq_some_iff.1 (hcell v hv s hc).2).1
    show (g.mem v).topo < vec.length
    omega
  · obtain ⟨hd, hx⟩ := hcell v hv s hc
    unfold operands
    rw [if_pos hd]
    exact h.clean _ _ hx
  · obtain ⟨s, hc⟩ := Option.isSome_iff_exists.1 hc
    have := w.decPreds v (hcell v hv s hc).1
    simp only [predsOf] at this
    rw [this] at hp
    cases hp
  · rcases hO.slot w hs (w.decMem d hd) with ⟨s, _, e2⟩ | ⟨e1, _⟩
    · rw [hc] at e2; cases e2
    · exact h.default _ d (dec_slot w hd).2.1 e1

theorem Bare.unlock (w : g.WF) (hs : g.sorted = true) (h : Owned g vec) (k : Kept g sem C dflt A (asState g vec)) :
    Bare g.decisions C dflt A (vec.resize g.decisions.length) := by
  have hown : ∀ (i : Nat) (e : Entry sem), (vec.resize g.decisions.length)[i]? = some (some e) →
      e.owner ∈ g.decisions ∧ g.decisions[i]? = some e.owner ∧ vec[i]? = some (some e) ∧ (g.mem e.owner).topo = i := by
    intro i e he
    obtain ⟨hi, he⟩ := (resize_getElem? ..).1 he
    obtain ⟨h1, h2⟩ := h.owner i e he
    have hd : e.owner ∈ g.decisions := (w.topo_dec hs h1).2 (by omega)
    have := (dec_slot w hd).2.1
    rw [h2, Int.toNat_natCast] at this
    exact ⟨hd, this, he, h2⟩
  obtain ⟨_, ⟨vals, hE, hF⟩, hdef⟩ := k
  refine ⟨by rw [resize_length], fun i e he => (hown i e he).2.1, fun i e he => ?_, fun i d hd he => ?_⟩
  · obtain ⟨h1, h2, h3, h4⟩ := hown i e he
    have hc : (asState g vec).cell e.owner = some e.data := by
      rw [asState_cell (w.decMem _ h1) (by omega), entry_eq_some, h4]
      exact h3
    have := hF.clean _ (w.decMem _ h1) _ hc
    unfold operands at this
    rw [if_pos h1] at this
    exact this
  · have hdd := List.mem_of_getElem? hd
    have ht := dec_topo w hd
    apply hdef d hdd
    rcases h.slot w hs (w.decMem d hdd) with ⟨s, e1, _⟩ | ⟨_, e2⟩
    · rw [ht, Int.toNat_natCast] at e1
      exact absurd ((resize_getElem? ..).2 ⟨(List.getElem?_eq_some_iff.1 hd).1, e1⟩) (he _)
    · exact e2

theorem slot_inj {ds : List Nat} (hn : ds.Nodup) {i j d : Nat} (hi : ds[i]? = some d) (hj : ds[j]? = some d) : i = j :=
  (List.getElem?_inj (List.getElem?_eq_some_iff.1 hi).1 hn).1 (hi.trans hj.symm)

/-- Without its entry, a decision has its default value. -/
theorem Bare.clear {ds : List Nat} (hn : ds.Nodup) (h : Bare ds C dflt A vec) {d i : Nat} (hd : ds[i]? = some d) :
    Bare ds C dflt (upd A d (dflt d)) ((vec.extend i).set i none) where
  short := by
    have h1 := h.short
    have h2 := (List.getElem?_eq_some_iff.1 hd).1
    rw [List.length_set, extend_length]; omega
  owner j e he := by
    rw [set_getElem? (by rw [extend_length]; omega)] at he
    split at he
    · cases he
    · exact h.owner j e ((extend_getElem? ..).1 he)
  clean j e he := by
    rw [set_getElem? (by rw [extend_length]; omega)] at he
    split at he
    · cases he
    · rename_i hj
      have he := (extend_getElem? ..).1 he
      rw [upd_ne]
      · exact h.clean j e he
      · intro hc
        have h1 := h.owner j e he
        rw [hc] at h1
        exact hj (slot_inj hn h1 hd)
  default j c hc he := by
    by_cases hcd : c = d
    · subst hcd; simp
    · rw [upd_ne _ _ hcd]
      refine h.default j c hc fun e hx => ?_
      refine he e ?_
      rw [set_getElem? (by rw [extend_length]; omega), if_neg, extend_getElem?]
      · exact hx
      · rintro rfl
        rw [hd] at hc
        cases hc
        exact hcd rfl

/-- With a new entry, a decision has the entry's value. -/
theorem Bare.put {ds : List Nat} (hn : ds.Nodup) (h : Bare ds C dflt A vec) {d i : Nat} (hd : ds[i]? = some d) (hi : i < vec.length)
    {s : (sem d).σ} {x : V} (hs : (C d).Clean s [x]) : Bare ds C dflt (upd A d x) (vec.set i (some ⟨d, s⟩)) where
  short := by rw [List.length_set]; exact h.short
  owner j e he := by
    rw [set_getElem? hi] at he
    split at he
    · rename_i hj
      cases he
      rw [hj]; exact hd
    · exact h.owner j e he
  clean j e he := by
    rw [set_getElem? hi] at he
    split at he
    · cases he
      show (C d).Clean s [upd A d x d]
      rw [upd_same]
      exact hs
    · rename_i hj
      rw [upd_ne]
      · exact h.clean j e he
      · intro hc
        have h1 := h.owner j e he
        rw [hc] at h1
        exact hj (slot_inj hn h1 hd)
  default j c hc he := by
    by_cases hj : j = i
    · exact absurd (by rw [set_getElem? hi, if_pos hj]) (he ⟨d, s⟩)
    · have hcd : c ≠ d := by
        rintro rfl
        exact hj (slot_inj hn hc hd)
      rw [upd_ne _ _ hcd]
      refine h.default j c hc fun e hx => he e ?_
      rw [set_getElem? hi, if_neg hj]
      exact hx

theorem Bare.extend {ds : List Nat} (h : Bare ds C dflt A vec) {i : Nat} (hi : i < ds.length) : Bare ds C dflt A (vec.extend i) where
  short := by have := h.short; rw [extend_length]; omega
  owner j e he := h.owner j e ((extend_getElem? ..).1 he)
  clean j e he := h.clean j e ((extend_getElem? ..).1 he)
  default j c hc he := h.default j c hc fun e hx => he e ((extend_getElem? ..).2 hx)

theorem loadRow_spec (C : ∀ v, Settled quiet (sem v)) : ∀ (ds : List Nat) (row : List (Option V)), row.length ≤ ds.length →
    (∀ p ∈ ds.zip row, ∀ x ∈ p.2, (sem p.1).ok [x]) →
    ∃ vec : StateVec sem, loadRow ds row = .ok vec ∧ vec.length = row.length ∧
      (∀ (i d : Nat) (x : V), ds[i]? = some d → row[i]? = some (some x) → ∃ s, vec[i]? = some (some ⟨d, s⟩) ∧ (C d).Clean s [x]) ∧
      ∀ i : Nat, row[i]? = some none → vec[i]? = some none
  | ds, [], _, _ => ⟨[], by unfold loadRow; rw [List.zip_nil_right]; rfl, rfl, by simp, by simp⟩
  | [], o :: row, h, _ => by simp at h
  | d :: ds, o :: row, h, hok => by
    obtain ⟨vec, e, hl, h1, h2⟩ := loadRow_spec C ds row (by simpa using h) fun p hp => hok p (by simp [hp])
    have e : (ds.zip row).mapM loadEntry = .ok vec := e
    cases o with
    | none =>
      refine ⟨none :: vec, ?_, by simp [hl], fun i c x hc hx => ?_, fun i hi => ?_⟩
      · unfold loadRow
        rw [List.zip_cons_cons, List.mapM_cons, e]
        rfl
      · cases i with
        | zero => simp at hx
        | succ i => exact h1 i c x hc hx
      · cases i with
        | zero => rfl
        | succ i => exact h2 i hi
    | some y =>
      obtain ⟨s, es, hs⟩ := (C d).init (hok (d, some y) (by simp) y rfl)
      refine ⟨some ⟨d, s⟩ :: vec, ?_, by simp [hl], fun i c x hc hx => ?_, fun i hi => ?_⟩
      · unfold loadRow
        rw [List.zip_cons_cons, List.mapM_cons, e]
        unfold loadEntry
        dsimp only
        rw [es]
        rfl
      · cases i with
        | zero =>
          simp only [List.getElem?_cons_zero, Option.some.injEq] at hc hx
          subst hc hx
          exact ⟨s, rfl, hs⟩
        | succ i => exact h1 i c x hc hx
      · cases i with
        | zero => simp at hi
        | succ i => exact h2 i hi

theorem lookup_slot : ∀ (ds : List Nat) (row : List (Option V)) {i d : Nat}, ds.Nodup → ds[i]? = some d →
    (ds.zip row).lookup d = row[i]?
  | [], _, _, _, _, h => by simp at h
  | c :: ds, [], i, d, _, h => by simp
  | c :: ds, o :: row, i, d, hn, h => by
    rw [List.zip_cons_cons, List.lookup_cons]
    cases i with
    | zero =>
      simp only [List.getElem?_cons_zero, Option.some.injEq] at h
      subst h
      simp
    | succ i =>
      have h' : ds[i]? = some d := h
      have hne : d ≠ c := by
        rintro rfl
        exact (List.nodup_cons.1 hn).1 (List.mem_of_getElem? h')
      rw [show (d == c) = false from by simpa using hne]
      exact lookup_slot ds row (List.nodup_cons.1 hn).2 h'

theorem lookup_outside : ∀ (ds : List Nat) (row : List (Option V)) {v : Nat}, v ∉ ds → (ds.zip row).lookup v = none
  | [], _, _, _ => rfl
  | c :: ds, [], _, _ => by simp
  | c :: ds, o :: row, v, h => by
    rw [List.zip_cons_cons, List.lookup_cons, show (v == c) = false from by simpa using fun e : v = c => h (by simp [e])]
    exact lookup_outside ds row fun hx => h (List.mem_cons_of_mem _ hx)

theorem bare_load (C : ∀ v, Settled quiet (sem v)) {ds : List Nat} (hn : ds.Nodup) {row : List (Option V)} (hl : row.length ≤ ds.length)
    (hok : ∀ p ∈ ds.zip row, ∀ x ∈ p.2, (sem p.1).ok [x]) :
    ∃ vec : StateVec sem, loadRow ds row = .ok vec ∧ Bare ds C dflt (loadedValues ds dflt row) vec := by
  obtain ⟨vec, e, e1, h1, h2⟩ := loadRow_spec C ds row hl hok
  have hval : ∀ {i d : Nat}, ds[i]? = some d → loadedValues ds dflt row d = (row[i]?).join.getD (dflt d) := by
    intro i d hd
    unfold loadedValues
    rw [lookup_slot ds row hn hd]
  have hent : ∀ (i : Nat) (x : Entry sem), vec[i]? = some (some x) → ∃ d y, ds[i]? = some d ∧ row[i]? = some (some y) ∧
      ∃ s, x = ⟨d, s⟩ ∧ (C d).Clean s [y] := by
    intro i x hx
    have hi := (List.getElem?_eq_some_iff.1 hx).1
    have hr : i < row.length := by omega
    have hd : i < ds.length := by omega
    cases ho : row[i] with
    | none =>
      have := h2 i (by rw [List.getElem?_eq_getElem hr, ho])
      rw [this] at hx
      cases hx
    | some y =>
      have hy : row[i]? = some (some y) := by rw [List.getElem?_eq_getElem hr, ho]
      obtain ⟨s, k1, k2⟩ := h1 i ds[i] y (List.getElem?_eq_getElem hd) hy
      rw [k1] at hx
      exact ⟨ds[i], y, List.getElem?_eq_getElem hd, hy, s, by cases hx; rfl, k2⟩
  refine ⟨vec, e, by omega, fun i x hx => ?_, fun i x hx => ?_, fun i d hd hx => ?_⟩
  · obtain ⟨d, y, k1, k2, s, rfl, k3⟩ := hent i x hx
    exact k1
  · obtain ⟨d, y, k1, k2, s, rfl, k3⟩ := hent i x hx
    show (C d).Clean s [loadedValues ds dflt row d]
    rw [hval k1, k2]
    exact k3
  · rw [hval hd]
    cases ho : row[i]? with
    | none => rfl
    | some o =>
      cases o with
      | none => rfl
      | some y =>
        obtain ⟨s, k1, _⟩ := h1 i d y hd ho
        exact absurd k1 (hx _)

section unsorted

variable (w : g.WF) (hs : g.sorted = false) (h : Bare g.decisions C dflt A vec)
include w hs h

theorem bare_reset {v : Nat} (hv : v ∈ g.nodes) : ∃ vec', resetState g vec v = .ok vec' ∧
    Bare g.decisions C dflt (if v ∈ g.decisions then upd A v (dflt v) else A) vec' ∧
    (v ∈ g.decisions → vec'[(g.mem v).topo.toNat]? = some none) := by
  by_cases hd : v ∈ g.decisions
  · obtain ⟨h0, h1, h2⟩ := dec_slot w hd
    have hlt : (g.mem v).topo.toNat < (vec.extend (g.mem v).topo.toNat).length := by rw [extend_length]; omega
    refine ⟨(vec.extend (g.mem v).topo.toNat).set (g.mem v).topo.toNat none, ?_, ?_, fun _ => ?_⟩
    · unfold resetState
      rw [if_neg (by omega)]
      unfold recReset
      rw [if_neg (by omega), if_neg (by omega)]
      have hsu : ∀ u ∈ (g.mem v).succs, (g.mem u).topo < 0 := by
        intro u hu
        obtain ⟨hun, hud⟩ := w.succ_not_dec hv u hu
        have := w.unsorted hs u hun hud
        simp only [topoOf] at this
        omega
      revert hsu
      generalize (vec.extend (g.mem v).topo.toNat).set (g.mem v).topo.toNat none = vec0
      generalize (g.mem v).succs = us
      intro hsu
      induction us with
      | nil => rfl
      | cons u us ih =>
        rw [List.foldlM_cons, if_pos (hsu u List.mem_cons_self), Res.ok_bind]
        exact ih fun q hq => hsu q (List.mem_cons_of_mem _ hq)
    · rw [if_pos hd]
      exact h.clear w.decNodup h1
    · rw [set_getElem? hlt, if_pos rfl]
  · have := w.unsorted hs v hv hd
    simp only [topoOf] at this
    refine ⟨vec, ?_, by rw [if_neg hd]; exact h, fun hx => absurd hx hd⟩
    unfold resetState
    rw [if_pos (by omega)]

theorem bare_set {d : Nat} (hd : d ∈ g.decisions) {x : V} (hx : (sem d).ok [x]) :
    ∃ vec', setState g vec d x = .ok (vec', .done) ∧ Bare g.decisions C dflt (upd A d x) vec' := by
  obtain ⟨vec1, e1, b1, e2⟩ := bare_reset w hs h (w.decMem d hd)
  obtain ⟨h0, h1, h2⟩ := dec_slot w hd
  obtain ⟨s, es, hcl⟩ := (C d).init hx
  have e2 := e2 hd
  rw [if_pos hd] at b1
  refine ⟨vec1.set (g.mem d).topo.toNat (some ⟨d, s⟩), ?_, ?_⟩
  · unfold setState
    rw [e1, Res.ok_bind, es]
    unfold assign emplace
    dsimp only
    rw [if_neg (by omega), e2]
    rfl
  · have := b1.put w.decNodup h1 (List.getElem?_eq_some_iff.1 e2).1 hcl
    rwa [show upd (upd A d (dflt d)) d x = upd A d x from by
      funext u; by_cases hu : u = d
      · subst hu; simp
      · rw [upd_ne _ _ hu, upd_ne _ _ hu, upd_ne _ _ hu]] at this

theorem bare_read (hdflt : ∀ d ∈ g.decisions, (sem d).ok [dflt d]) {d : Nat} (hd : d ∈ g.decisions) :
    ∃ vec', readState g dflt vec d = .ok vec' ∧ value g vec' d = .ok ((sem d).f [A d]) ∧ Bare g.decisions C dflt A vec' := by
  obtain ⟨h0, h1, h2⟩ := dec_slot w hd
  have hb := h.extend (i := (g.mem d).topo.toNat) (by omega)
  have hlt : (g.mem d).topo.toNat < (vec.extend (g.mem d).topo.toNat).length := by rw [extend_length]; omega
  have hpr : (g.mem d).preds = [] := w.decPreds d hd
  unfold readState recInit
  rw [if_neg (by omega)]
  cases hx : (vec.extend (g.mem d).topo.toNat)[(g.mem d).topo.toNat] with
  | some e =>
    have hx' : (vec.extend (g.mem d).topo.toNat)[(g.mem d).topo.toNat]? = some (some e) := by rw [List.getElem?_eq_getElem hlt, hx]
    refine ⟨vec.extend (g.mem d).topo.toNat, by rw [hx'], ?_, hb⟩
    have ho := hb.owner _ _ hx'
    rw [h1] at ho
    have hc := hb.clean _ _ hx'
    unfold value
    rw [if_neg (by omega), hx']
    cases e with
    | mk o s =>
      simp only [Option.some.injEq] at ho
      subst ho
      dsimp only
      rw [if_pos rfl, (C d).view hc]
  | none =>
    have hx' : (vec.extend (g.mem d).topo.toNat)[(g.mem d).topo.toNat]? = some none := by rw [List.getElem?_eq_getElem hlt, hx]
    have hA : A d = dflt d := hb.default _ d h1 (by rw [hx']; simp)
    obtain ⟨s, es, hcl⟩ := (C d).init (hdflt d hd)
    refine ⟨(vec.extend (g.mem d).topo.toNat).set (g.mem d).topo.toNat (some ⟨d, s⟩), ?_, ?_, ?_⟩
    · rw [hx', hpr]
      show (initNode g dflt (vec.extend (g.mem d).topo.toNat) d) = _
      unfold initNode operandValues emplace
      rw [if_pos hd, Res.ok_bind, es, Res.ok_bind, if_neg (by omega), hx']
    · unfold value
      rw [if_neg (by omega), set_getElem? hlt, if_pos rfl]
      dsimp only
      rw [if_pos rfl, (C d).view hcl, hA]
    · have := hb.put w.decNodup h1 hlt hcl
      rw [← hA, show upd A d (A d) = A from by
        funext u; by_cases hu : u = d
        · subst hu; simp
        · rw [upd_ne _ _ hu]] at this
      exact this

end unsorted

end bare

/-! ## Edits of the model -/

/-- A state is as it should be. -/
structure Good (C : ∀ v, Settled quiet (sem v)) (dflt : Nat → V) (m : PyModel) (vec : StateVec sem) (A : Nat → V) : Prop where
  accepted : ∀ d ∈ m.g.decisions, (sem d).ok [A d]
  outside : ∀ v, v ∉ m.g.decisions → A v = dflt v
  locked : m.isLocked = true → Owned m.g vec ∧ Kept m.g sem C dflt A (asState m.g vec)
  free : m.isLocked = false → Bare m.g.decisions C dflt A vec

section transport

variable {g' : Graph} (w : g.WF) (w' : g'.WF) (hs : g.sorted = true) (hs' : g'.sorted = true) (hn : g'.nodes = g.nodes)
  (hd : g'.decisions = g.decisions) (hp : ∀ v, (g'.mem v).preds = (g.mem v).preds ∧ (g'.mem v).succs = (g.mem v).succs)
include w w' hs hs' hn hd hp

theorem same_topo {v : Nat} (hv : v ∈ g.nodes) : (g'.mem v).topo = (g.mem v).topo := by
  obtain ⟨i, hi, rfl⟩ := List.mem_iff_getElem.1 hv
  have h1 := w.positions hs i hi
  have h2 := w'.positions hs' i (by rw [hn]; exact hi)
  simp only [topoOf, hn] at h1 h2
  rw [h1, h2]

theorem kept_transport {C : ∀ v, Settled quiet (sem v)} {dflt A : Nat → V} {vec : StateVec sem} (h : Owned g vec)
    (k : Kept g sem C dflt A (asState g vec)) : Owned g' vec ∧ Kept g' sem C dflt A (asState g' vec) := by
  have ht : ∀ v ∈ g.nodes, (g'.mem v).topo = (g.mem v).topo := fun v hv => same_topo w w' hs hs' hn hd hp hv
  have hst : asState g' vec = asState g vec := by
    refine PState.ext rfl fun v => ?_
    show (if _ then _ else none) = (if _ then _ else none)
    rw [hn]
    by_cases hv : v ∈ g.nodes
    · rw [ht v hv]
    · rw [if_neg fun hc => hv hc.1, if_neg fun hc => hv hc.1]
  have hop : ∀ vals v, operands g' A vals v = operands g A vals v := by
    intro vals v
    unfold operands
    rw [hd, (hp v).1]
  obtain ⟨hok, ⟨vals, hE, hF⟩, hdef⟩ := k
  refine ⟨⟨by rw [hn]; exact h.short, fun i e he => ?_⟩, by rw [hd]; exact hok, ⟨vals, ⟨fun v hv => ?_, fun v hv => ?_⟩, ?_⟩, ?_⟩
  · obtain ⟨h1, h2⟩ := h.owner i e he
    rw [hn, ht _ h1]
    exact ⟨h1, h2⟩
  · rw [hop]; exact hE.value v (hn ▸ hv)
  · rw [hop]; exact hE.accepted v (hn ▸ hv)
  · rw [hst]
    refine ⟨fun v hv hx => ?_, fun v hv s hx => ?_, fun v hv hx p hpm => ?_⟩
    · rw [hn] at hv; rw [ht v hv]; exact hF.inside v hv hx
    · rw [hn] at hv; rw [hop]; exact hF.clean v hv s hx
    · rw [hn] at hv; rw [(hp v).1] at hpm; exact hF.preds v hv hx p hpm
  · rw [hst, hd]; exact hdef

end transport

theorem locked_sorted {m : PyModel} (h : m.Inv) : m.g.sorted = true ↔ m.isLocked = true := by
  rw [h.sorted]
  simp [PyModel.isLocked]

theorem free_unsorted {m : PyModel} (h : m.Inv) (hl : m.isLocked = false) : m.g.sorted = false := by
  by_contra hc
  have := (locked_sorted h).1 (by simpa using hc)
  rw [hl] at this
  cases this

/-- The model can be evaluated whenever the decisions' values are accepted. -/
def Total (sem : Nat → NodeSem V D) (m : PyModel) : Prop :=
  ∀ A : Nat → V, (∀ d ∈ m.g.decisions, (sem d).ok [A d]) → ∃ vals, Evaluates m.g sem A vals

theorem Good.edit {C : ∀ v, Settled quiet (sem v)} {dflt A : Nat → V} {ops : List ModelOp} {m m' : PyModel} {vec : StateVec sem}
    (hr : PyModel.new.run ops = .ok m) {op : ModelOp} (hop : m.perform op = .ok m') (hdflt : ∀ d ∈ m'.g.decisions, (sem d).ok [dflt d])
    (htotal : m'.isLocked = true → Total sem m') (h : Good C dflt m vec A) :
    Good C dflt m' (if m.isLocked = true ∧ m'.isLocked = false then vec.resize m'.g.decisions.length else vec) A := by
  have hi := reachable hr
  obtain ⟨hi', ⟨t, ht⟩, _⟩ := perform_inv hi hop
  have hout : ∀ v, v ∉ m'.g.decisions → A v = dflt v := fun v hv =>
    h.outside v fun hx => hv (by rw [ht]; exact List.mem_append_left _ hx)
  have hacc : ∀ d ∈ m'.g.decisions, (sem d).ok [A d] := by
    intro d hd
    by_cases hx : d ∈ m.g.decisions
    · exact h.accepted d hx
    · rw [h.outside d hx]; exact hdflt d hd
  cases hl : m.isLocked with
  | true =>
    have hlk : 0 < lockDepth ops := (C18_lock_count hr).1.1 hl
    obtain ⟨k1, k2, k3⟩ := C18_locked_same hr hlk hop
    obtain ⟨hO, hK⟩ := h.locked hl
    have hs := (locked_sorted hi).2 hl
    cases hl' : m'.isLocked with
    | true =>
      rw [if_neg (by simp)]
      exact ⟨hacc, hout, fun _ => kept_transport hi.wf hi'.wf hs ((locked_sorted hi').2 hl') k1 k2 k3 hO hK,
        fun hx => (by rw [hl'] at hx; cases hx)⟩
    | false =>
      rw [if_pos (by simp)]
      refine ⟨hacc, hout, fun hx => (by rw [hl'] at hx; cases hx), fun _ => ?_⟩
      rw [k2]
      exact Bare.unlock hi.wf hs hO hK
  | false =>
    rw [if_neg (by simp)]
    have hb : Bare m'.g.decisions C dflt A vec := by
      have hn := hi'.wf.decNodup
      rw [ht] at hn ⊢
      exact (h.free hl).append hn h.outside
    exact ⟨hacc, hout, fun hl' => hb.lock hi'.wf ((locked_sorted hi').2 hl') hacc (htotal hl'), fun _ => hb⟩

end StateVec

/-! ## Sessions -/

namespace Session

open StateVec

variable {sem : Nat → NodeSem V D} {C : ∀ v, Settled quiet (sem v)} {dflt : Nat → V}

theorem forall₂_get {α β : Type} {R : α → β → Prop} {l : List α} {l' : List β} (h : List.Forall₂ R l l') {i : Nat} (hi : i < l'.length) :
    ∃ x y, l[i]? = some x ∧ l'[i]? = some y ∧ R x y := by
  induction h generalizing i with
  | nil => cases hi
  | cons hr _ ih =>
    cases i with
    | zero => exact ⟨_, _, rfl, rfl, hr⟩
    | succ i => exact ih (by simpa using hi)

theorem forall₂_set {α β : Type} {R : α → β → Prop} {l : List α} {l' : List β} (h : List.Forall₂ R l l') (i : Nat) {x : α} {y : β}
    (hr : R x y) : List.Forall₂ R (l.set i x) (l'.set i y) := by
  induction h generalizing i with
  | nil => exact .nil
  | cons hr' h' ih =>
    cases i with
    | zero => exact .cons hr h'
    | succ i => exact .cons hr' (ih i)

theorem forall₂_take {α β : Type} {R : α → β → Prop} {l : List α} {l' : List β} (h : List.Forall₂ R l l') (n : Nat) {x : α} {y : β}
    (hr : R x y) (k : Nat) : List.Forall₂ R (l.take n ++ List.replicate k x) (l'.take n ++ List.replicate k y) := by
  have hrep : List.Forall₂ R (List.replicate k x) (List.replicate k y) := by
    induction k with
    | zero => exact .nil
    | succ k ih => exact .cons hr ih
  induction h generalizing n with
  | nil => simpa using hrep
  | cons hr' h' ih =>
    cases n with
    | zero => simpa using hrep
    | succ n => exact .cons hr' (ih n)

theorem set_get {α : Type} {l : List α} {i : Nat} {x : α} (h : l[i]? = some x) : l.set i x = l := by
  obtain ⟨hi, rfl⟩ := List.getElem?_eq_some_iff.1 h
  exact List.set_getElem_self hi

theorem step_sees {ops : List ModelOp} {m m' : PyModel} (hr : PyModel.new.run ops = .ok m) {sts : List (StateVec sem)} {T : List (Nat → V)}
    (h : List.Forall₂ (Good C dflt m) sts T) {op : SessionOp V} (hn : op.Names sem m) (hm : op.model m = .ok m')
    (hdflt : ∀ d ∈ m'.g.decisions, (sem d).ok [dflt d]) (htotal : m.isLocked = true → Total sem m)
    (htotal' : m'.isLocked = true → Total sem m') :
    ∃ sts' o T', step dflt ⟨m, sts⟩ op = .ok (⟨m', sts'⟩, o) ∧ op.Sees sem dflt m T o m' T' ∧ List.Forall₂ (Good C dflt m') sts' T' := by
  have hlen := h.length_eq
  have hi := reachable hr
  have w := hi.wf
  -- a change of one state
  have change : ∀ (f : StateVec sem → Res (StateVec sem × Seen V)) (o : Seen V) (B : (Nat → V) → Nat → V) (i : Int), 0 ≤ i ∧ i < T.length →
      (∀ vec A, Good C dflt m vec A → ∃ vec', f vec = .ok (vec', o) ∧ Good C dflt m vec' (B A)) →
      ∃ sts', onState ⟨m, sts⟩ i.toNat f = .ok (⟨m, sts'⟩, o) ∧
        ∃ A, T[i.toNat]? = some A ∧ List.Forall₂ (Good C dflt m) sts' (T.set i.toNat (B A)) := by
    intro f o B i hi hf
    obtain ⟨vec, A, e1, e2, hg⟩ := forall₂_get h (i := i.toNat) (by omega)
    obtain ⟨vec', e3, hg'⟩ := hf vec A hg
    refine ⟨sts.set i.toNat vec', ?_, A, e2, forall₂_set h _ hg'⟩
    unfold onState
    dsimp only
    rw [e1]
    dsimp only
    rw [e3]
    rfl
  -- resetting
  have clears : ∀ {v : Nat}, v ∈ m.g.nodes → (∀ d ∈ m.g.decisions, (sem d).ok [dflt d]) → ∀ vec A, Good C dflt m vec A →
      ∃ vec', resetState m.g vec v = .ok vec' ∧ Good C dflt m vec' (if v ∈ m.g.decisions then upd A v (dflt v) else A) := by
    intro v hv hdflt vec A hg
    have hacc : ∀ e ∈ m.g.decisions, (sem e).ok [(if v ∈ m.g.decisions then upd A v (dflt v) else A) e] := by
      intro e he
      split
      · by_cases hed : e = v
        · subst hed; rw [upd_same]; exact hdflt e he
        · rw [upd_ne _ _ hed]; exact hg.accepted e he
      · exact hg.accepted e he
    have hout : ∀ u, u ∉ m.g.decisions → (if v ∈ m.g.decisions then upd A v (dflt v) else A) u = dflt u := by
      intro u hu
      split
      · rename_i hv
        rw [upd_ne]
        · exact hg.outside u hu
        · rintro rfl; exact hu hv
      · exact hg.outside u hu
    cases hl : m.isLocked with
    | true =>
      obtain ⟨hO, hK⟩ := hg.locked hl
      obtain ⟨vec', f1, f2, f3⟩ := locked_reset w ((locked_sorted hi).2 hl) C hdflt (htotal hl) hO hK hv
      exact ⟨vec', f1, hacc, hout, fun _ => ⟨f2, f3⟩, fun hx => by rw [hl] at hx; cases hx⟩
    | false =>
      obtain ⟨vec', f1, f2, _⟩ := bare_reset w (free_unsorted hi hl) (hg.free hl) hv
      exact ⟨vec', f1, hacc, hout, fun hx => (by rw [hl] at hx; cases hx), fun _ => f2⟩
  cases op with
  | edit op =>
    have hm : m.perform op = .ok m' := hm
    refine ⟨afterEdit ⟨m, sts⟩ m', match m.step op with | .throw => .raised | _ => .done, T, ?_, ⟨hm, ?_, rfl⟩, ?_⟩
    · show edit ⟨m, sts⟩ op = _
      unfold edit
      dsimp only
      rw [hm, Res.ok_bind]
      rfl
    · unfold perform at hm
      cases hst : m.step op with
      | ok m1 => rw [hst] at hm; cases hm; exact .inr ⟨rfl, rfl⟩
      | throw => exact .inl ⟨rfl, rfl⟩
      | ub => rw [hst] at hm; cases hm
    · have : ∀ {l : List (StateVec sem)} {l' : List (Nat → V)}, List.Forall₂ (Good C dflt m) l l' →
          List.Forall₂ (Good C dflt m') (afterEdit ⟨m, l⟩ m') l' := by
        intro l l' hl
        unfold afterEdit
        dsimp only
        have hg : ∀ vec A, Good C dflt m vec A → _ := fun vec A hg => Good.edit hr hm hdflt htotal' hg
        split
        · rename_i hc
          rw [List.forall₂_map_left_iff]
          refine hl.imp fun vec A hx => ?_
          have := hg vec A hx
          rwa [if_pos hc] at this
        · rename_i hc
          refine hl.imp fun vec A hx => ?_
          have := hg vec A hx
          rwa [if_neg hc] at this
      exact this h
  | resize n =>
    cases hm
    unfold step SessionOp.Sees
    dsimp only
    by_cases hneg : n < 0
    · exact ⟨sts, .raised, T, by rw [if_pos hneg], ⟨rfl, by rw [if_pos hneg]; exact ⟨rfl, rfl⟩⟩, h⟩
    · refine ⟨_, .done, _, by rw [if_neg hneg], ⟨rfl, by rw [if_neg hneg]; exact ⟨rfl, rfl⟩⟩, ?_⟩
      rw [hlen]
      refine forall₂_take h _ ⟨hdflt, fun _ _ => rfl, fun hl => ?_, fun hl => ?_⟩ _
      · have hb : Bare m.g.decisions C dflt dflt ([] : StateVec sem) := ⟨by simp, by simp, by simp, fun _ _ _ _ => rfl⟩
        exact hb.lock w ((locked_sorted hi).2 hl) hdflt (htotal hl)
      · exact ⟨by simp, by simp, by simp, fun _ _ _ _ => rfl⟩
  | set d i x =>
    cases hm
    unfold step SessionOp.Sees
    dsimp only
    rw [hlen]
    by_cases hin : 0 ≤ i ∧ i < (T.length : Int)
    · obtain ⟨hnd, hx | hx⟩ := hn
      · obtain ⟨sts', e1, A, e2, h1⟩ := change (fun vec => setState m.g vec d x) .done (fun A => upd A d x) i hin (by
          intro vec A hg
          have hacc : ∀ e ∈ m.g.decisions, (sem e).ok [upd A d x e] := by
            intro e he
            by_cases hed : e = d
            · subst hed; rw [upd_same]; exact hx
            · rw [upd_ne _ _ hed]; exact hg.accepted e he
          have hout : ∀ v, v ∉ m.g.decisions → upd A d x v = dflt v := by
            intro v hv
            rw [upd_ne]
            · exact hg.outside v hv
            · rintro rfl; exact hv hnd
          cases hl : m.isLocked with
          | true =>
            obtain ⟨hO, hK⟩ := hg.locked hl
            obtain ⟨vec', f1, f2, f3⟩ := locked_set w ((locked_sorted hi).2 hl) C hdflt (htotal hl) hO hK hnd hx
            exact ⟨vec', f1, hacc, hout, fun _ => ⟨f2, f3⟩, fun hx => by rw [hl] at hx; cases hx⟩
          | false =>
            obtain ⟨vec', f1, f2⟩ := bare_set w (free_unsorted hi hl) (hg.free hl) hnd hx
            exact ⟨vec', f1, hacc, hout, fun hx => (by rw [hl] at hx; cases hx), fun _ => f2⟩)
        exact ⟨sts', .done, _, by rw [if_pos hin]; exact e1, ⟨rfl, by rw [if_pos hin]; exact ⟨A, e2, .inl ⟨hx, rfl, rfl⟩⟩⟩, h1⟩
      · obtain ⟨sts', e1, A, e2, h1⟩ := change (fun vec => setState m.g vec d x) .raised (fun A => upd A d (dflt d)) i hin (by
          intro vec A hg
          obtain ⟨vec', f1, f2⟩ := clears (w.decMem d hnd) hdflt vec A hg
          rw [if_pos hnd] at f2
          refine ⟨vec', ?_, f2⟩
          show (resetState m.g vec d >>= fun vec => assign m.g vec d ((sem d).init [x])) = _
          rw [f1, Res.ok_bind, hx]
          rfl)
        exact ⟨sts', .raised, _, by rw [if_pos hin]; exact e1, ⟨rfl, by rw [if_pos hin]; exact ⟨A, e2, .inr ⟨hx, rfl, rfl⟩⟩⟩, h1⟩
    · exact ⟨sts, .raised, T, by rw [if_neg hin], ⟨rfl, by rw [if_neg hin]; exact ⟨rfl, rfl⟩⟩, h⟩
  | reset v i =>
    cases hm
    unfold step SessionOp.Sees
    dsimp only
    rw [hlen]
    by_cases hin : 0 ≤ i ∧ i < (T.length : Int)
    · obtain ⟨sts', e1, A, e2, h1⟩ := change (fun vec => (resetState m.g vec v).bind fun vec => .ok (vec, .done)) .done
          (fun A => if v ∈ m.g.decisions then upd A v (dflt v) else A) i hin (by
        intro vec A hg
        obtain ⟨vec', f1, f2⟩ := clears hn hdflt vec A hg
        refine ⟨vec', ?_, f2⟩
        rw [f1]
        rfl)
      exact ⟨sts', .done, _, by rw [if_pos hin]; exact e1, ⟨rfl, by rw [if_pos hin]; exact ⟨rfl, A, e2, rfl⟩⟩, h1⟩
    · exact ⟨sts, .raised, T, by rw [if_neg hin], ⟨rfl, by rw [if_neg hin]; exact ⟨rfl, rfl⟩⟩, h⟩
  | read v i =>
    cases hm
    have hv : v ∈ m.g.nodes := hn
    unfold step SessionOp.Sees
    unfold read
    dsimp only
    rw [hlen]
    by_cases hin : -(T.length : Int) ≤ i ∧ i < T.length
    · rw [if_pos hin]
      have hj : (if i < 0 then i + (T.length : Int) else i).toNat < T.length := by
        split <;> omega
      obtain ⟨vec, A, e1, e2, hg⟩ := forall₂_get h hj
      revert e1 e2
      generalize (if i < 0 then i + (T.length : Int) else i).toNat = j
      intro e1 e2
      cases hl : m.isLocked with
      | true =>
        obtain ⟨hO, hK⟩ := hg.locked hl
        obtain ⟨vals, vec', f0, f1, f2, f3, f4⟩ := locked_read w ((locked_sorted hi).2 hl) C hdflt (htotal hl) hO hK hv
        refine ⟨sts.set j vec', .shown (vals v), T, ?_, ⟨rfl, rfl, ?_⟩, ?_⟩
        · rw [if_neg (by simp), e1]
          dsimp only
          rw [f1]
          dsimp only
          rw [f2]
        · rw [if_pos ⟨hin.1, hin.2, .inl rfl⟩]
          exact ⟨A, e2, .inr ⟨rfl, vals, f0, rfl⟩⟩
        · have := forall₂_set h j (x := vec') (y := A) ⟨hg.accepted, hg.outside, fun _ => ⟨f3, f4⟩, fun hx => by rw [hl] at hx; cases hx⟩
          rwa [set_get e2] at this
      | false =>
        by_cases hd : v ∈ m.g.decisions
        · obtain ⟨vec', f1, f2, f3⟩ := bare_read w (free_unsorted hi hl) (hg.free hl) hdflt hd
          refine ⟨sts.set j vec', .shown ((sem v).f [A v]), T, ?_, ⟨rfl, rfl, ?_⟩, ?_⟩
          · have := (dec_slot w hd).1
            rw [if_neg (by omega), e1]
            dsimp only
            rw [f1]
            dsimp only
            rw [f2]
          · rw [if_pos ⟨hin.1, hin.2, .inr hd⟩]
            exact ⟨A, e2, .inl ⟨hd, rfl⟩⟩
          · have := forall₂_set h j (x := vec') (y := A) ⟨hg.accepted, hg.outside, fun hx => (by rw [hl] at hx; cases hx), fun _ => f3⟩
            rwa [set_get e2] at this
        · refine ⟨sts, .raised, T, ?_, ⟨rfl, rfl, ?_⟩, h⟩
          · have := w.unsorted (free_unsorted hi hl) v hv hd
            simp only [topoOf] at this
            rw [if_pos ⟨rfl, by omega⟩]
          · rw [if_neg]
            rintro ⟨_, _, hx | hx⟩
            · cases hx
            · exact hd hx
    · rw [if_neg hin]
      exact ⟨sts, .raised, T, rfl, ⟨rfl, rfl, by rw [if_neg fun hx => hin ⟨hx.1, hx.2.1⟩]⟩, h⟩
  | fill =>
    cases hm
    unfold step SessionOp.Sees
    dsimp only
    cases hl : m.isLocked with
    | false => exact ⟨sts, .raised, T, by rw [if_pos rfl], ⟨rfl, rfl, rfl⟩, h⟩
    | true =>
      have hall : ∀ {l : List (StateVec sem)} {l' : List (Nat → V)}, List.Forall₂ (Good C dflt m) l l' →
          ∃ l1, l.mapM (initAll m.g dflt) = .ok l1 ∧ List.Forall₂ (Good C dflt m) l1 l' := by
        intro l l' hx
        induction hx with
        | nil => exact ⟨[], rfl, .nil⟩
        | cons hg _ ih =>
          obtain ⟨l1, k1, k2⟩ := ih
          obtain ⟨hO, hK⟩ := hg.locked hl
          obtain ⟨vec', f1, f2, f3⟩ := locked_fill w ((locked_sorted hi).2 hl) C hdflt (htotal hl) hO hK
          refine ⟨vec' :: l1, ?_, .cons ⟨hg.accepted, hg.outside, fun _ => ⟨f2, f3⟩, fun hx => by rw [hl] at hx; cases hx⟩ k2⟩
          rw [List.mapM_cons, f1, Res.ok_bind, k1]
          rfl
      obtain ⟨l1, k1, k2⟩ := hall h
      refine ⟨l1, .done, T, ?_, ⟨rfl, rfl, rfl⟩, k2⟩
      rw [if_neg (by simp), k1]
      rfl
  | load rows =>
    cases hm
    unfold step SessionOp.Sees
    dsimp only
    have hall : ∀ l : List (List (Option V)), (∀ row ∈ l, row.length ≤ m.g.decisions.length ∧
        ∀ p ∈ m.g.decisions.zip row, ∀ x ∈ p.2, (sem p.1).ok [x]) →
        ∃ l1, l.mapM (loadRow m.g.decisions) = .ok l1 ∧ List.Forall₂ (Good C dflt m) l1 (l.map (loadedValues m.g.decisions dflt)) := by
      intro l hl
      induction l with
      | nil => exact ⟨[], rfl, .nil⟩
      | cons row l ih =>
        obtain ⟨l1, k1, k2⟩ := ih fun r hr => hl r (List.mem_cons_of_mem _ hr)
        obtain ⟨h1, h2⟩ := hl row List.mem_cons_self
        obtain ⟨vec, f1, f2⟩ := bare_load (dflt := dflt) C w.decNodup h1 h2
        have hacc : ∀ d ∈ m.g.decisions, (sem d).ok [loadedValues m.g.decisions dflt row d] := by
          intro d hd
          obtain ⟨i, hi, rfl⟩ := List.mem_iff_getElem.1 hd
          unfold loadedValues
          rw [lookup_slot _ row w.decNodup (List.getElem?_eq_getElem hi)]
          by_cases hr : i < row.length
          · rw [List.getElem?_eq_getElem hr]
            cases ho : row[i] with
            | none => exact hdflt _ hd
            | some x =>
              refine h2 (m.g.decisions[i], row[i]) ?_ x ho
              rw [List.mem_iff_getElem]
              exact ⟨i, by rw [List.length_zip]; omega, by rw [List.getElem_zip]⟩
          · rw [List.getElem?_eq_none (by omega)]
            exact hdflt _ hd
        have hout : ∀ v, v ∉ m.g.decisions → loadedValues m.g.decisions dflt row v = dflt v := by
          intro v hv
          unfold loadedValues
          rw [lookup_outside _ row hv]
          rfl
        refine ⟨vec :: l1, ?_, .cons ⟨hacc, hout, fun hl => f2.lock w ((locked_sorted hi).2 hl) hacc (htotal hl), fun _ => f2⟩ k2⟩
        rw [List.mapM_cons, f1, Res.ok_bind, k1]
        rfl
    obtain ⟨l1, k1, k2⟩ := hall rows hn
    refine ⟨l1, .done, _, ?_, ⟨rfl, rfl, rfl⟩, k2⟩
    rw [k1]
    rfl

theorem model_edits {m m' : PyModel} {op : SessionOp V} (hm : op.model m = .ok m') (ops : List (SessionOp V)) :
    m.run (edits (op :: ops)) = m'.run (edits ops) := by
  cases op with
  | edit op =>
    have hm : m.perform op = .ok m' := hm
    show List.foldlM _ _ _ = List.foldlM _ _ _
    rw [show edits (SessionOp.edit op :: ops) = op :: edits ops from rfl, List.foldlM_cons, hm, Res.ok_bind]
  | _ => cases hm; rfl

theorem run_sees {mf : PyModel} (hdflt : ∀ d ∈ mf.g.decisions, (sem d).ok [dflt d]) :
    ∀ (hist : List (SessionOp V)) {ops : List ModelOp} {m : PyModel} {sts : List (StateVec sem)} {T : List (Nat → V)},
      PyModel.new.run ops = .ok m → PyModel.run m (edits hist) = .ok mf → List.Forall₂ (Good C dflt m) sts T → SessionOp.NamesAll sem m hist →
      (∀ pre, pre <+: hist → ∀ m1, PyModel.run m (edits pre) = .ok m1 → m1.isLocked = true → Total sem m1) →
      ∃ s os T', run dflt ⟨m, sts⟩ hist = .ok (s, os) ∧ s.m = mf ∧ SessionOp.SeesAll sem dflt m T hist os mf T'
  | [], ops, m, sts, T, hr, hf, h, _, _ => by
    cases hf
    exact ⟨⟨mf, sts⟩, [], T, rfl, rfl, rfl, rfl, rfl⟩
  | op :: hist, ops, m, sts, T, hr, hf, h, hn, ht => by
    obtain ⟨m', hm, hr'⟩ : ∃ m', op.model m = .ok m' ∧ ∃ ops', PyModel.new.run ops' = .ok m' := by
      cases op with
      | edit op =>
        have hf' : (op :: edits hist).foldlM perform m = .ok mf := hf
        rw [List.foldlM_cons] at hf'
        obtain ⟨m', e1, _⟩ := Res.bind_eq_ok.1 hf'
        refine ⟨m', e1, ops ++ [op], ?_⟩
        rw [run_append, hr, Res.ok_bind]
        show List.foldlM _ _ _ = _
        rw [List.foldlM_cons, e1, Res.ok_bind]
        rfl
      | _ => exact ⟨m, rfl, ops, hr⟩
    obtain ⟨ops', hr'⟩ := hr'
    have hf' : m'.run (edits hist) = .ok mf := by rw [← model_edits hm]; exact hf
    have hd' : ∀ d ∈ m'.g.decisions, (sem d).ok [dflt d] := by
      obtain ⟨_, ⟨t, e⟩, _⟩ := run_inv (reachable hr') hf'
      intro d hd
      exact hdflt d (by rw [e]; exact List.mem_append_left _ hd)
    have ht0 : m.isLocked = true → Total sem m := ht [] (List.nil_prefix) m rfl
    have ht1 : ∀ pre, pre <+: hist → ∀ m1, m'.run (edits pre) = .ok m1 → m1.isLocked = true → Total sem m1 := by
      intro pre hp m1 hm1
      refine ht (op :: pre) ((List.prefix_cons_inj op).2 hp) m1 ?_
      rw [model_edits hm]
      exact hm1
    obtain ⟨sts', o, T', e1, e2, h'⟩ := step_sees hr h hn.1 hm hd' ht0 (ht1 [] (List.nil_prefix) m' rfl)
    obtain ⟨s, os, T'', f1, f2, f3⟩ := run_sees hdflt hist hr' hf' h' (hn.2 m' hm) ht1
    refine ⟨s, o :: os, T'', ?_, f2, o, os, m', T', rfl, e2, f3⟩
    show (step dflt ⟨m, sts⟩ op >>= _) = _
    rw [e1, Res.ok_bind]
    dsimp only
    rw [f1, Res.ok_bind]

end Session

/-- C64.  In every session in which a model is made, locked, unlocked, extended and cleaned up, and in between its states are created,
removed, set, reset, loaded and read: every operation shows what the specification says, nothing is undefined, and no symbol ever uses what
another symbol has left in a state.  Values of decisions survive all operations on the model, and values of other symbols are never
stale.  The symbols keep their contract; whenever the model is locked, they can be evaluated for all values their decisions accept. -/
theorem C64_sessions {hist : List (SessionOp V)} {mf : PyModel} (hr : PyModel.new.run (edits hist) = .ok mf)
    {sem : Nat → NodeSem V D} (C : ∀ v, Settled quiet (sem v)) {dflt : Nat → V} (hdflt : ∀ d ∈ mf.g.decisions, (sem d).ok [dflt d])
    (htotal : ∀ pre, pre <+: hist → ∀ m, PyModel.new.run (edits pre) = .ok m → m.isLocked = true →
      ∀ A : Nat → V, (∀ d ∈ m.g.decisions, (sem d).ok [A d]) → ∃ vals, Evaluates m.g sem A vals)
    (hnames : SessionOp.NamesAll sem PyModel.new hist) :
    ∃ s os T, Session.run dflt (⟨PyModel.new, []⟩ : Session sem) hist = .ok (s, os) ∧ s.m = mf ∧
      SessionOp.SeesAll sem dflt PyModel.new [] hist os mf T :=
  Session.run_sees (C := C) hdflt hist (ops := []) rfl hr .nil hnames htotal

/-! ## An example -/

namespace SessionExample

/-- Symbols 0, 1 and 2 are decisions between 0 and 10, all others are sums of their operands. -/
def sem (v : Nat) : NodeSem Int Unit where
  σ := Int
  f xs := xs.sum
  ok xs := v < 3 → ∀ x ∈ xs, 0 ≤ x ∧ x ≤ 10
  init xs := if v < 3 → ∀ x ∈ xs, 0 ≤ x ∧ x ≤ 10 then .ok xs.sum else .throw
  propagate s _ := .ok s
  commit s := .ok s
  revert s := .ok s
  view s := s
  diff _ := ()

def settled (v : Nat) : Settled () (sem v) where
  Clean s xs := s = xs.sum
  init {xs} h := ⟨xs.sum, if_pos h, rfl⟩
  view h := h
  diff _ := rfl

/-- A model with a decision and its double (a sum of the decision with itself): the decision is set and the sum is read; then the model
is unlocked, gets another decision and another sum, and is locked again; the first decision still has its value, the second one the
default.  Then a sum is not used any more and removed, and the decisions still have their values, in both states.  A
value that a decision refuses leaves it with the default.  Loading replaces the states. -/
def hist : List (SessionOp Int) :=
  [.edit (.decision 0), .edit (.node 5 [0, 0] true), .resize 2, .set 0 0 7, .read 5 0, .edit .lock, .read 5 0, .read 5 (-1), .set 0 1 3,
    .read 5 1, .edit .unlock, .read 0 0, .edit (.decision 1), .edit (.node 6 [0, 1] true), .set 1 0 4, .edit .lock, .read 6 0, .read 6 1,
    .read 5 0, .fill, .edit (.decision 2), .edit .unlock, .edit (.minimize 6), .edit .removeUnused, .edit (.decision 2), .edit .lock,
    .read 6 0, .read 2 0, .set 0 1 11, .read 6 1, .reset 0 0, .read 6 0,
    .load [[some 2], [none, some 3, some 4]], .read 6 0, .read 6 1, .edit .unlock, .read 2 1]

/-- What is seen. -/
def seen : List (Seen Int) :=
  [.done, .done, .done, .done, .raised, .done, .shown 14, .shown 2, .done, .shown 6, .done, .shown 7, .done, .done, .done, .done,
    .shown 11, .shown 4, .shown 14, .done, .raised, .done, .done, .done, .done, .done, .shown 11, .shown 1, .raised, .shown 2, .done, .shown 5,
    .done, .shown 3, .shown 4, .done, .shown 4]

instance (v : Nat) (xs : List Int) : Decidable ((sem v).ok xs) := inferInstanceAs (Decidable (v < 3 → ∀ x ∈ xs, 0 ≤ x ∧ x ≤ 10))

instance (v : Nat) (xs : List Int) : Decidable ((sem v).init xs = .throw) := by
  unfold sem
  infer_instance

instance (m : PyModel) (op : SessionOp Int) : Decidable (op.Names sem m) := by
  cases op <;> unfold SessionOp.Names <;> infer_instance

def checkNames (m : PyModel) : List (SessionOp Int) → Bool
  | [] => true
  | op :: ops => decide (op.Names sem m) && match op.model m with | .ok m' => checkNames m' ops | _ => true

theorem names_of_check : ∀ (ops : List (SessionOp Int)) (m : PyModel), checkNames m ops = true → SessionOp.NamesAll sem m ops
  | [], _, _ => trivial
  | op :: ops, m, h => by
    unfold checkNames at h
    rw [Bool.and_eq_true] at h
    refine ⟨of_decide_eq_true h.1, fun m' hm => ?_⟩
    have h2 := h.2
    rw [hm] at h2
    exact names_of_check ops m' h2

def checkModel : Res PyModel → Bool
  | .ok m => m.g.nodes.all fun v => decide (v < 3 → v ∈ m.g.decisions)
  | _ => true

theorem total {pre : List (SessionOp Int)} (hp : pre <+: hist) {m : PyModel} (hm : PyModel.new.run (edits pre) = .ok m)
    (hl : m.isLocked = true) (A : Nat → Int) (hA : ∀ d ∈ m.g.decisions, (sem d).ok [A d]) : ∃ vals, Evaluates m.g sem A vals := by
  have hi := reachable hm
  obtain ⟨vals, hv⟩ := exists_vals hi.wf ((StateVec.locked_sorted hi).2 hl) sem A
  refine ⟨vals, hv, fun v hvn => ?_⟩
  have hall : ∀ pre ∈ hist.inits, checkModel (PyModel.new.run (edits pre)) = true := by decide +kernel
  have hc := hall pre ((List.mem_inits ..).2 hp)
  rw [hm] at hc
  have hd := of_decide_eq_true (List.all_eq_true.1 hc v hvn)
  by_cases h3 : v < 3
  · unfold operands
    rw [if_pos (hd h3)]
    exact hA v (hd h3)
  · exact fun hx => absurd hx h3

example : ∃ s T, Session.run (fun _ => 1) (⟨PyModel.new, []⟩ : Session sem) hist = .ok (s, seen) ∧
    SessionOp.SeesAll sem (fun _ => 1) PyModel.new [] hist seen s.m T := by
  have hrun : ((PyModel.new.run (edits hist)).bind fun m => .ok m.g.decisions) = .ok [0, 1, 2] := by decide +kernel
  obtain ⟨mf, hf, hd⟩ := Res.bind_eq_ok.1 hrun
  have hd : mf.g.decisions = [0, 1, 2] := Res.ok.inj hd
  obtain ⟨s, os, T, h1, rfl, h3⟩ := C64_sessions hf settled (dflt := fun _ => 1) (by rw [hd]; decide)
    (fun pre hp m hm hl A hA => total hp hm hl A hA) (names_of_check _ _ (by decide +kernel))
  have hos : ((Session.run (fun _ => 1) (⟨PyModel.new, []⟩ : Session sem) hist).bind fun r => .ok r.2) = .ok seen := by decide +kernel
  rw [h1] at hos
  cases hos
  exact ⟨s, T, h1, h3⟩

end SessionExample

end Verif
