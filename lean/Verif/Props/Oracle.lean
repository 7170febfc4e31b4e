import Verif.Lemmas.Oracle
import Mathlib.Tactic.Linarith

/-!
# C66: the symbols for tests
-/

namespace Verif

open Oracle

theorem guardUB_bind_ok {α : Type} {p : Prop} [Decidable p] {f : Unit → Res α} {a : α} :
    (guardUB p >>= f) = .ok a ↔ p ∧ f () = .ok a := by
  by_cases h : p <;> simp [h]

/-- Only the first dimension can vary. -/
def Declaration.Proper (d : Declaration) : Prop := ∀ n ∈ d.shape.tail, 0 ≤ n

instance (d : Declaration) : Decidable d.Proper := by unfold Declaration.Proper; infer_instance

theorem Declaration.Fits.check {d : Declaration} (hd : d.Proper) {o : Observation} (h : d.Fits o) {n : Nat} (hn : o.view.length = n) :
    checkShape o.shape d.shape n := by
  refine ⟨h.ndim.symm, ?_, by rw [h.product, hn]⟩
  refine List.ext_getElem? fun i => ?_
  rw [List.getElem?_tail, List.getElem?_tail]
  cases hi : d.shape[i + 1]? with
  | none =>
    rw [List.getElem?_eq_none_iff] at hi
    rw [List.getElem?_eq_none (by rw [h.ndim]; exact hi)]
  | some m =>
    refine (h.fixed (i + 1) m hi (hd m ?_)).symm
    rw [List.mem_iff_getElem?]
    exact ⟨i, by rw [List.getElem?_tail]; exact hi⟩

/-- Beginning at a state in which the watching symbol has the right data. -/
theorem watch_honest {d : Declaration} (hd : d.Proper) {base cur : List Rat} {es : List WatchEvent} (ha : Alternating es)
    (hc : (∃ o es', es = .propagated o :: es') → cur = base) (h : Honest d.Fits base cur es) :
    ∃ s, es.foldlM (Oracle.step d) ⟨base.map some, cur.map some⟩ = .ok s := by
  induction es generalizing base cur with
  | nil => exact ⟨_, rfl⟩
  | cons e es ih =>
    have hshape : ∀ {o : Observation} {n : Nat}, d.Fits o → o.view.length = n → checkShape o.shape d.shape n :=
      fun h hn => h.check hd hn
    rw [List.foldlM_cons]
    cases e with
    | propagated o =>
      obtain ⟨h1, h2, h3, h4⟩ := h
      obtain rfl := hc ⟨o, es, rfl⟩
      have ha' : Alternating es := by
        cases es with
        | nil => trivial
        | cons e es => cases e <;> first | exact ha.elim | exact ha
      have hstep : Oracle.step d ⟨cur.map some, cur.map some⟩ (.propagated o) = .ok ⟨cur.map some, o.view.map some⟩ := by
        unfold Oracle.step propagate
        rw [guardUB_bind_ok, guardUB_bind_ok, guardUB_bind_ok, guardUB_bind_ok, guardUB_bind_ok]
        refine ⟨(check_iff _ _ _).2 h1, ?_, h3.size, hshape h3 (replays_length h1).symm, (checkRange_iff h3.size).2 h3.range, rfl⟩
        rw [List.length_map, h2]
      rw [hstep]
      refine ih ha' ?_ h4
      rintro ⟨o', es', rfl⟩
      exact ha.elim
    | committed o =>
      obtain ⟨h1, h2, h3, h4, h5⟩ := h
      have hstep : Oracle.step d ⟨base.map some, cur.map some⟩ (.committed o) = .ok ⟨cur.map some, cur.map some⟩ := by
        unfold Oracle.step commit
        rw [guardUB_bind_ok, guardUB_bind_ok, guardUB_bind_ok, guardUB_bind_ok, guardUB_bind_ok]
        subst h3
        exact ⟨by rw [h1]; rfl, h2, by rw [List.length_map]; exact h4.size, (equal_iff _ _).2 rfl, hshape h4 (by rw [List.length_map]), rfl⟩
      rw [hstep]
      exact ih ha (fun _ => rfl) h5
    | reverted o =>
      obtain ⟨h1, h2, h3, h4, h5⟩ := h
      have hstep : Oracle.step d ⟨base.map some, cur.map some⟩ (.reverted o) = .ok ⟨base.map some, base.map some⟩ := by
        unfold Oracle.step revert
        rw [guardUB_bind_ok, guardUB_bind_ok, guardUB_bind_ok, guardUB_bind_ok, guardUB_bind_ok]
        subst h3
        exact ⟨by rw [h1]; rfl, h2, by rw [List.length_map]; exact h4.size, (equal_iff _ _).2 rfl, hshape h4 (by rw [List.length_map]), rfl⟩
      rw [hstep]
      exact ih ha (fun _ => rfl) h5

theorem watch_catches {d : Declaration} {base cur : List Rat} {es : List WatchEvent} (ha : Alternating es)
    (hc : (∃ o es', es = .propagated o :: es') → cur = base)
    (hb : ∀ x ∈ base, d.lo ≤ x ∧ x ≤ d.hi ∧ (d.integral = true → x.den = 1))
    (hr : ∀ x ∈ cur, d.lo ≤ x ∧ x ≤ d.hi ∧ (d.integral = true → x.den = 1)) {s : Oracle}
    (h : es.foldlM (Oracle.step d) ⟨base.map some, cur.map some⟩ = .ok s) : Honest d.FitsContents base cur es := by
  induction es generalizing base cur with
  | nil => trivial
  | cons e es ih =>
    rw [List.foldlM_cons] at h
    obtain ⟨s', hs, hf⟩ := Res.bind_eq_ok.1 h
    cases e with
    | propagated o =>
      obtain rfl := hc ⟨o, es, rfl⟩
      have ha' : Alternating es := by
        cases es with
        | nil => trivial
        | cons e es => cases e <;> first | exact ha.elim | exact ha
      unfold Oracle.step propagate at hs
      rw [guardUB_bind_ok, guardUB_bind_ok, guardUB_bind_ok, guardUB_bind_ok, guardUB_bind_ok] at hs
      obtain ⟨h1, h2, h3, h4, h5, h6⟩ := hs
      have hv := (checkRange_iff h3).1 h5
      rw [List.length_map] at h2
      refine ⟨(check_iff _ _ _).1 h1, h2.symm, ⟨h3, hv⟩, ih ha' ?_ hb hv ?_⟩
      · rintro ⟨o', es', rfl⟩
        exact ha.elim
      · rw [← Res.ok.inj h6] at hf
        exact hf
    | committed o =>
      unfold Oracle.step commit at hs
      rw [guardUB_bind_ok, guardUB_bind_ok, guardUB_bind_ok, guardUB_bind_ok, guardUB_bind_ok] at hs
      obtain ⟨h1, h2, h3, h4, h5, h6⟩ := hs
      have hv : o.view = cur := List.map_injective_iff.2 (Option.some_injective _) ((equal_iff _ _).1 h4)
      rw [List.length_map] at h3
      refine ⟨List.length_eq_zero_iff.1 h1, h2, hv, ⟨by rw [hv]; exact h3, by rw [hv]; exact hr⟩, ih ha (fun _ => rfl) hr hr ?_⟩
      rw [← Res.ok.inj h6] at hf
      exact hf
    | reverted o =>
      unfold Oracle.step revert at hs
      rw [guardUB_bind_ok, guardUB_bind_ok, guardUB_bind_ok, guardUB_bind_ok, guardUB_bind_ok] at hs
      obtain ⟨h1, h2, h3, h4, h5, h6⟩ := hs
      have hv : o.view = base := List.map_injective_iff.2 (Option.some_injective _) ((equal_iff _ _).1 h4)
      rw [List.length_map] at h3
      refine ⟨List.length_eq_zero_iff.1 h1, h2, hv, ⟨by rw [hv]; exact h3, by rw [hv]; exact hb⟩, ih ha (fun _ => rfl) hb hb ?_⟩
      rw [← Res.ok.inj h6] at hf
      exact hf

/-- C66, no false alarms.  An array that says what it does, and starts with fewer than 2³¹ elements, can be watched without any failed
assertion, if there is a commit or a reversal between any two propagations. -/
theorem C66_no_false_alarms_partial {d : Declaration} (hd : d.Proper) {o : Observation} {es : List WatchEvent} (ha : Alternating es)
    (hsize : o.view.length < 2 ^ 31) (h : HonestFrom d.Fits o es) : ∃ s, Oracle.watch d o es = .ok s := by
  obtain ⟨h1, h2, h3, h4⟩ := h
  have hs : start d o = .ok ⟨o.view.map some, o.view.map some⟩ := by
    unfold start
    rw [guardUB_bind_ok, guardUB_bind_ok, guardUB_bind_ok, guardUB_bind_ok, guardUB_bind_ok]
    refine ⟨by rw [h1]; rfl, h2, h3.size.symm, ?_, (checkRange_iff h3.size).2 h3.range, rfl⟩
    rw [productInt_eq (by rw [h3.product]; omega) (by rw [h3.product]; exact_mod_cast hsize), h3.product, h3.size]
  unfold Oracle.watch
  rw [hs]
  exact watch_honest hd ha (fun _ => rfl) h4

/-- C66, no misses.  If no assertion fails, then the array says what it does: its changes lead from its old to its new elements, sizes and
changes of sizes are right, commits keep the elements, reversals restore them, and all elements are as declared.  (Of the shape, not
everything is checked: `C66_shape_fails`.) -/
theorem C66_no_misses_partial {d : Declaration} {o : Observation} {es : List WatchEvent} (ha : Alternating es) {s : Oracle}
    (h : Oracle.watch d o es = .ok s) : HonestFrom d.FitsContents o es := by
  unfold Oracle.watch at h
  obtain ⟨s', hs, h⟩ := Res.bind_eq_ok.1 h
  unfold start at hs
  rw [guardUB_bind_ok, guardUB_bind_ok, guardUB_bind_ok, guardUB_bind_ok, guardUB_bind_ok] at hs
  obtain ⟨h1, h2, h3, _, h5, h6⟩ := hs
  have hv := (checkRange_iff h3.symm).1 h5
  refine ⟨List.length_eq_zero_iff.1 h1, h2, ⟨h3.symm, hv⟩, ?_⟩
  rw [← Res.ok.inj h6] at h
  exact watch_catches ha (fun _ => rfl) hv hv h

/-! ## The dynamic decision -/

namespace Pile

/-- A change of the elements. -/
inductive Move where
  | grow (values : List Rat)
  | set (i : Int) (v : Rat)
  | shrink
  | random (r : Draw)

/-- Make a change. -/
def move (shape : List Int) (s : Pile) : Move → Res Pile
  | .grow values => s.grow shape values
  | .set i v => s.set i v
  | .shrink => s.shrink shape
  | .random r => s.randomMove shape r

/-- Some changes, a propagation, and then a commit or a reversal: the state and the events that a watching symbol sees. -/
def round (shape : List Int) (s : Pile) (r : List Move × Bool) : Res (Pile × List WatchEvent) := do
  let t ← r.1.foldlM (move shape) s
  if r.2 then .ok (t.commit, [.propagated t.show_, .committed t.commit.show_])
  else .ok (t.revert, [.propagated t.show_, .reverted t.revert.show_])

/-- Any number of rounds. -/
def rounds (shape : List Int) : Pile → List (List Move × Bool) → Res (Pile × List WatchEvent)
  | s, [] => .ok (s, [])
  | s, r :: rs => do
    let t ← round shape s r
    let u ← rounds shape t.1 rs
    .ok (u.1, t.2 ++ u.2)

/-- All values are in the declared range. -/
def Move.Within (p : Rat → Prop) : Move → Prop
  | .grow values => ∀ v ∈ values, p v
  | .set _ v => p v
  | .shrink => True
  | .random r => (∀ v ∈ r.row, p v) ∧ p r.value

/-- What the decision keeps. -/
structure Sound (shape : List Int) (p : Rat → Prop) (s : Pile) : Prop where
  replays : Replays s.old s.diff s.cur
  curShape : ∃ n : Nat, s.curShape = (n : Int) :: shape.tail ∧ (n : Int) * rowSize shape = s.cur.length
  oldShape : ∃ n : Nat, s.oldShape = (n : Int) :: shape.tail ∧ (n : Int) * rowSize shape = s.old.length
  cur : ∀ x ∈ s.cur, p x
  old : ∀ x ∈ s.old, p x

theorem replays_snoc {a b c : List Rat} {us : List (Update Rat)} {u : Update Rat} (h : Replays a us b) (hu : u.step b = some c) :
    Replays a (us ++ [u]) c := by
  unfold Replays at h ⊢
  rw [List.foldlM_append, h]
  simp [hu]

theorem place_all (values : List Rat) (s : Pile) (h : Replays s.old s.diff s.cur) :
    Replays s.old (values.foldl place s).diff (values.foldl place s).cur ∧ (values.foldl place s).cur = s.cur ++ values ∧
      (values.foldl place s).old = s.old ∧ (values.foldl place s).curShape = s.curShape ∧ (values.foldl place s).oldShape = s.oldShape := by
  induction values generalizing s with
  | nil => exact ⟨h, by simp, rfl, rfl, rfl⟩
  | cons v values ih =>
    rw [List.foldl_cons]
    obtain ⟨h1, h2, h3, h4, h5⟩ := ih (s.place v) (replays_snoc h (by simp [Update.step, place]))
    exact ⟨h1, by rw [h2]; simp [place], h3, h4, h5⟩

theorem pop_all (k : Nat) (s : Pile) (hk : k ≤ s.cur.length) (h : Replays s.old s.diff s.cur) :
    Replays s.old (pop^[k] s).diff (pop^[k] s).cur ∧ (pop^[k] s).cur = s.cur.take (s.cur.length - k) ∧
      (pop^[k] s).old = s.old ∧ (pop^[k] s).curShape = s.curShape ∧ (pop^[k] s).oldShape = s.oldShape := by
  induction k generalizing s with
  | zero => exact ⟨h, by simp, rfl, rfl, rfl⟩
  | succ k ih =>
    rw [Function.iterate_succ_apply]
    have hne : s.cur ≠ [] := by intro e; rw [e] at hk; simp at hk
    have hp : Replays s.pop.old s.pop.diff s.pop.cur := by
      refine replays_snoc h ?_
      have h1 : s.cur.length - 1 + 1 = s.cur.length := by omega
      have h2 : s.cur[s.cur.length - 1]? = some (s.cur.getLastD 0) := by
        rw [← List.getLast?_eq_getElem?, List.getLast?_eq_some_getLast hne, List.getLastD_eq_getLast?, List.getLast?_eq_some_getLast hne]
        rfl
      simp [Update.step, h1, h2, pop]
    obtain ⟨h1, h2, h3, h4, h5⟩ := ih s.pop (by simp [pop]; omega) hp
    refine ⟨h1, ?_, h3, h4, h5⟩
    rw [h2]
    simp only [pop, List.dropLast_eq_take, List.take_take, List.length_take]
    congr 1
    omega

theorem sound_start {shape : List Int} {p : Rat → Prop} {values : List Rat} (hrow : 0 < rowSize shape) (hv : ∀ x ∈ values, p x)
    {s : Pile} (h : start shape values = .ok s) : s.Sound shape p := by
  unfold start at h
  rw [guardUB_bind_ok, guardUB_bind_ok, guardUB_bind_ok] at h
  obtain ⟨_, h2, _, h⟩ := h
  obtain ⟨n, hn⟩ := Int.eq_ofNat_of_zero_le (Int.ediv_nonneg (Int.natCast_nonneg values.length) hrow.le)
  have hm : (n : Int) * rowSize shape = values.length := by
    rw [← hn]
    exact Int.ediv_mul_cancel (Int.dvd_of_emod_eq_zero h2)
  rw [← Res.ok.inj h]
  exact ⟨rfl, ⟨n, by rw [hn], hm⟩, ⟨n, by rw [hn], hm⟩, hv, hv⟩

theorem Sound.grow {shape : List Int} {p : Rat → Prop} {s t : Pile} (hrow : 0 < rowSize shape) (hs : s.Sound shape p) {values : List Rat}
    (hv : ∀ x ∈ values, p x) (h : s.grow shape values = .ok t) : t.Sound shape p := by
  unfold Pile.grow at h
  rw [guardUB_bind_ok, guardUB_bind_ok, guardUB_bind_ok] at h
  obtain ⟨_, _, h2, h⟩ := h
  rw [← Res.ok.inj h]
  obtain ⟨e1, e2, e3, e4, e5⟩ := place_all values s hs.replays
  obtain ⟨n, hn⟩ := Int.eq_ofNat_of_zero_le (Int.ediv_nonneg (Int.natCast_nonneg values.length) hrow.le)
  obtain ⟨m, hm, hm2⟩ := hs.curShape
  have hk : (n : Int) * rowSize shape = values.length := by
    rw [← hn]
    exact Int.ediv_mul_cancel (Int.dvd_of_emod_eq_zero h2)
  refine ⟨?_, ⟨m + n, ?_, ?_⟩, ?_, ?_, ?_⟩
  · show Replays (values.foldl place s).old _ _
    rw [e3]
    exact e1
  · show (values.foldl place s).curShape.modifyHead _ = _
    rw [e4, hm, hn]
    simp
  · show _ = (((values.foldl place s).cur.length : Nat) : Int)
    rw [e2, List.length_append]
    push_cast
    rw [add_mul, hm2, hk]
  · show ∃ n : Nat, (values.foldl place s).oldShape = _ ∧ _ = (((values.foldl place s).old.length : Nat) : Int)
    rw [e3, e5]
    exact hs.oldShape
  · show ∀ x ∈ (values.foldl place s).cur, p x
    rw [e2]
    intro x hx
    rcases List.mem_append.1 hx with hx | hx
    · exact hs.cur x hx
    · exact hv x hx
  · show ∀ x ∈ (values.foldl place s).old, p x
    rw [e3]
    exact hs.old

theorem Sound.set {shape : List Int} {p : Rat → Prop} {s t : Pile} (hs : s.Sound shape p) {i : Int} {v : Rat}
    (hv : p v) (h : s.set i v = .ok t) : t.Sound shape p := by
  unfold Pile.set at h
  rw [guardUB_bind_ok] at h
  obtain ⟨⟨h1, h2⟩, h⟩ := h
  rw [← Res.ok.inj h]
  have hlt : i.toNat < s.cur.length := by omega
  refine ⟨replays_snoc hs.replays ?_, ?_, hs.oldShape, ?_, hs.old⟩
  · simp [Update.step, List.getElem?_eq_getElem hlt]
  · obtain ⟨n, h3, h4⟩ := hs.curShape
    exact ⟨n, h3, by rw [h4]; simp⟩
  · intro x hx
    rcases List.mem_or_eq_of_mem_set hx with hx | rfl
    · exact hs.cur x hx
    · exact hv

theorem Sound.shrink {shape : List Int} {p : Rat → Prop} {s t : Pile} (hrow : 0 < rowSize shape) (hs : s.Sound shape p)
    (h : s.shrink shape = .ok t) : t.Sound shape p := by
  unfold Pile.shrink at h
  rw [guardUB_bind_ok] at h
  obtain ⟨h1, h⟩ := h
  rw [← Res.ok.inj h]
  obtain ⟨e1, e2, e3, e4, e5⟩ := pop_all (rowSize shape).toNat s (by omega) hs.replays
  obtain ⟨m, hm, hm2⟩ := hs.curShape
  have hpos : 1 ≤ m := by
    rcases Nat.eq_zero_or_pos m with rfl | h
    · simp at hm2; omega
    · exact h
  refine ⟨?_, ⟨m - 1, ?_, ?_⟩, ?_, ?_, ?_⟩
  · show Replays (pop^[_] s).old _ _
    rw [e3]
    exact e1
  · show (pop^[_] s).curShape.modifyHead _ = _
    rw [e4, hm, List.modifyHead_cons]
    congr 1
    omega
  · show _ = (((pop^[_] s).cur.length : Nat) : Int)
    rw [e2, List.length_take, Nat.cast_sub hpos, sub_mul, hm2]
    omega
  · show ∃ n : Nat, (pop^[_] s).oldShape = _ ∧ _ = (((pop^[_] s).old.length : Nat) : Int)
    rw [e3, e5]
    exact hs.oldShape
  · show ∀ x ∈ (pop^[_] s).cur, p x
    rw [e2]
    exact fun x hx => hs.cur x (List.mem_of_mem_take hx)
  · show ∀ x ∈ (pop^[_] s).old, p x
    rw [e3]
    exact hs.old

theorem Sound.move {shape : List Int} {p : Rat → Prop} {s t : Pile} (hrow : 0 < rowSize shape) (hs : s.Sound shape p) {m : Move}
    (hm : m.Within p) (h : s.move shape m = .ok t) : t.Sound shape p := by
  cases m with
  | grow values => exact hs.grow hrow hm h
  | set i v => exact hs.set hm h
  | shrink => exact hs.shrink hrow h
  | random r =>
    unfold Pile.move randomMove at h
    dsimp only at h
    split_ifs at h with h1 h2 h3
    · exact hs.grow hrow hm.1 h
    · exact hs.shrink hrow h
    · exact hs.set hm.2 h
    · rw [← Res.ok.inj h]
      exact hs

theorem move_old {shape : List Int} {s t : Pile} {m : Move} (h : s.move shape m = .ok t) : t.old = s.old := by
  have place_old : ∀ (values : List Rat) (s : Pile), (values.foldl place s).old = s.old := by
    intro values
    induction values with
    | nil => intro s; rfl
    | cons v values ih => intro s; exact ih (s.place v)
  have pop_old : ∀ (k : Nat) (s : Pile), (pop^[k] s).old = s.old := by
    intro k
    induction k with
    | zero => intro s; rfl
    | succ k ih => intro s; rw [Function.iterate_succ_apply]; exact ih s.pop
  have hgrow : ∀ {values}, s.grow shape values = .ok t → t.old = s.old := by
    intro values h
    unfold Pile.grow at h
    rw [guardUB_bind_ok, guardUB_bind_ok, guardUB_bind_ok] at h
    rw [← Res.ok.inj h.2.2.2]
    exact place_old _ _
  have hset : ∀ {i v}, s.set i v = .ok t → t.old = s.old := by
    intro i v h
    unfold Pile.set at h
    rw [guardUB_bind_ok] at h
    rw [← Res.ok.inj h.2]
  have hshrink : s.shrink shape = .ok t → t.old = s.old := by
    intro h
    unfold Pile.shrink at h
    rw [guardUB_bind_ok] at h
    rw [← Res.ok.inj h.2]
    exact pop_old _ _
  cases m with
  | grow values => exact hgrow h
  | set i v => exact hset h
  | shrink => exact hshrink h
  | random r =>
    unfold Pile.move randomMove at h
    dsimp only at h
    split_ifs at h with h1 h2 h3
    · exact hgrow h
    · exact hshrink h
    · exact hset h
    · rw [← Res.ok.inj h]

theorem Sound.moves {shape : List Int} {p : Rat → Prop} {s t : Pile} (hrow : 0 < rowSize shape) (hs : s.Sound shape p) {ms : List Move}
    (hm : ∀ m ∈ ms, m.Within p) (h : ms.foldlM (Pile.move shape) s = .ok t) : t.Sound shape p ∧ t.old = s.old := by
  induction ms generalizing s with
  | nil =>
    obtain rfl : s = t := Res.ok.inj h
    exact ⟨hs, rfl⟩
  | cons m ms ih =>
    rw [List.foldlM_cons] at h
    obtain ⟨s', h1, h2⟩ := Res.bind_eq_ok.1 h
    obtain ⟨h3, h4⟩ := ih (hs.move hrow (hm m List.mem_cons_self) h1) (fun m hm' => hm m (List.mem_cons_of_mem _ hm')) h2
    exact ⟨h3, h4.trans (move_old h1)⟩

/-- Between the rounds. -/
structure Rest (shape : List Int) (p : Rat → Prop) (s : Pile) : Prop extends s.Sound shape p where
  same : s.cur = s.old
  diff : s.diff = []
  sameShape : s.curShape = s.oldShape

theorem Sound.commit {shape : List Int} {p : Rat → Prop} {s : Pile} (hs : s.Sound shape p) : s.commit.Rest shape p :=
  ⟨⟨rfl, hs.curShape, hs.curShape, hs.cur, hs.cur⟩, rfl, rfl, rfl⟩

theorem Sound.revert {shape : List Int} {p : Rat → Prop} {s : Pile} (hs : s.Sound shape p) : s.revert.Rest shape p :=
  ⟨⟨rfl, hs.oldShape, hs.oldShape, hs.old, hs.old⟩, rfl, rfl, rfl⟩

/-- What the declaration says about single elements. -/
def _root_.Verif.Declaration.Contains (d : Declaration) (x : Rat) : Prop := d.lo ≤ x ∧ x ≤ d.hi ∧ (d.integral = true → x.den = 1)

theorem Sound.fits {d : Declaration} (hne : d.shape.headD 0 = -1) {s : Pile} (hs : s.Sound d.shape d.Contains) : d.Fits s.show_ := by
  obtain ⟨n, h1, h2⟩ := hs.curShape
  obtain ⟨a, l, hl⟩ : ∃ a l, d.shape = a :: l := by
    cases h : d.shape with
    | nil => rw [h] at hne; cases hne
    | cons a l => exact ⟨a, l, rfl⟩
  obtain rfl : a = -1 := by rw [hl] at hne; exact hne
  refine ⟨⟨rfl, hs.cur⟩, ?_, ?_, ?_⟩
  · show s.curShape.length = _
    rw [h1, hl]
    rfl
  · show s.curShape.prod = _
    rw [h1, List.prod_cons]
    exact h2
  · intro i m hi hm
    show s.curShape[i]? = _
    rw [hl] at hi
    rw [h1, hl]
    cases i with
    | zero =>
      rw [List.getElem?_cons_zero] at hi
      cases hi
      exact absurd hm (by decide)
    | succ i => exact hi

theorem Rest.fits {d : Declaration} (hne : d.shape.headD 0 = -1) {s : Pile} (hs : s.Rest d.shape d.Contains) :
    s.show_.diff = [] ∧ s.show_.sizeDiff = 0 ∧ d.Fits s.show_ :=
  ⟨hs.diff, by show (s.cur.length : Int) - s.old.length = 0; rw [hs.same]; omega, hs.toSound.fits hne⟩

theorem rounds_honest {d : Declaration} (hne : d.shape.headD 0 = -1) (hrow : 0 < rowSize d.shape) {rs : List (List Move × Bool)}
    (hv : ∀ r ∈ rs, ∀ m ∈ r.1, m.Within d.Contains) {s : Pile} (hs : s.Rest d.shape d.Contains) {t : Pile} {es : List WatchEvent}
    (h : s.rounds d.shape rs = .ok (t, es)) : t.Rest d.shape d.Contains ∧ Alternating es ∧ Honest d.Fits s.cur s.cur es := by
  induction rs generalizing s es with
  | nil =>
    obtain ⟨rfl, rfl⟩ := Prod.mk.inj (Res.ok.inj h)
    exact ⟨hs, trivial, trivial⟩
  | cons r rs ih =>
    unfold rounds at h
    obtain ⟨⟨u, es1⟩, h1, h2⟩ := Res.bind_eq_ok.1 h
    obtain ⟨⟨w, es2⟩, h3, h4⟩ := Res.bind_eq_ok.1 h2
    obtain ⟨rfl, rfl⟩ := Prod.mk.inj (Res.ok.inj h4)
    unfold round at h1
    obtain ⟨x, hx, h1⟩ := Res.bind_eq_ok.1 h1
    obtain ⟨hX, hold⟩ := hs.toSound.moves hrow (hv r List.mem_cons_self) hx
    have hv' : ∀ r ∈ rs, ∀ m ∈ r.1, m.Within d.Contains := fun r hr => hv r (List.mem_cons_of_mem _ hr)
    have hb : x.old = s.cur := hold.trans hs.same.symm
    have hp : Replays s.cur x.show_.diff x.show_.view ∧ x.show_.sizeDiff = (x.show_.view.length : Int) - s.cur.length ∧ d.Fits x.show_ := by
      refine ⟨by rw [← hb]; exact hX.replays, ?_, hX.fits hne⟩
      rw [← hb]
      rfl
    split_ifs at h1 with hr
    · obtain ⟨rfl, rfl⟩ := Prod.mk.inj (Res.ok.inj h1)
      obtain ⟨i1, i2, i3⟩ := ih hv' hX.commit h3
      obtain ⟨c1, c2, c3⟩ := hX.commit.fits hne
      exact ⟨i1, i2, hp.1, hp.2.1, hp.2.2, c1, c2, rfl, c3, i3⟩
    · obtain ⟨rfl, rfl⟩ := Prod.mk.inj (Res.ok.inj h1)
      obtain ⟨i1, i2, i3⟩ := ih hv' hX.revert h3
      obtain ⟨c1, c2, c3⟩ := hX.revert.fits hne
      have hrv : x.revert.cur = s.cur := hb
      rw [hrv] at i3
      exact ⟨i1, i2, hp.1, hp.2.1, hp.2.2, c1, c2, hrv, c3, i3⟩

end Pile

open Pile in
/-- C66 for the decision that grows and shrinks: whatever is done to it with values in the declared range, as long as none of its own
assertions fails, it says what it does, and a symbol that watches it does not fail. -/
theorem C66_dynamic {d : Declaration} (hd : d.Proper) (hne : d.shape.headD 0 = -1) (hrow : 0 < rowSize d.shape) {values : List Rat}
    (hsize : values.length < 2 ^ 31) (hval : ∀ x ∈ values, d.lo ≤ x ∧ x ≤ d.hi ∧ (d.integral = true → x.den = 1))
    {rs : List (List Move × Bool)} (hv : ∀ r ∈ rs, ∀ m ∈ r.1, m.Within fun x => d.lo ≤ x ∧ x ≤ d.hi ∧ (d.integral = true → x.den = 1))
    {s t : Pile} {es : List WatchEvent} (hs : Pile.start d.shape values = .ok s) (h : s.rounds d.shape rs = .ok (t, es)) :
    HonestFrom d.Fits s.show_ es ∧ ∃ o, Oracle.watch d s.show_ es = .ok o := by
  have hS : s.Sound d.shape d.Contains := sound_start hrow hval hs
  have hR : s.Rest d.shape d.Contains := by
    unfold Pile.start at hs
    rw [guardUB_bind_ok, guardUB_bind_ok, guardUB_bind_ok] at hs
    rw [← Res.ok.inj hs.2.2.2] at hS ⊢
    exact ⟨hS, rfl, rfl, rfl⟩
  obtain ⟨_, h2, h3⟩ := rounds_honest hne hrow hv hR h
  obtain ⟨f1, f2, f3⟩ := hR.fits hne
  have hf : HonestFrom d.Fits s.show_ es := ⟨f1, f2, f3, h3⟩
  refine ⟨hf, C66_no_false_alarms_partial hd h2 ?_ hf⟩
  unfold Pile.start at hs
  rw [guardUB_bind_ok, guardUB_bind_ok, guardUB_bind_ok] at hs
  rw [← Res.ok.inj hs.2.2.2]
  exact hsize

/-- What `random_move` draws: a row of the right length, and an index in range if there is one. -/
def Pile.Draw.Possible (shape : List Int) (s : Pile) (r : Pile.Draw) : Prop :=
  (r.row.length : Int) = Pile.rowSize shape ∧ (0 < s.cur.length → r.index < s.cur.length)

open Pile in
/-- Random moves of the decision are defined in all states that can be reached. -/
theorem C66_random_moves {d : Declaration} (hne : d.shape.headD 0 = -1) (hrow : 0 < rowSize d.shape) {values : List Rat}
    {s : Pile} (hs : Pile.start d.shape values = .ok s) {rs : List (List Move × Bool)} {t u : Pile} {es : List WatchEvent}
    (h : s.rounds d.shape rs = .ok (t, es)) {ms : List Move} (hm : ms.foldlM (Pile.move d.shape) t = .ok u) {r : Draw}
    (hr : r.Possible d.shape u) : ∃ v, u.randomMove d.shape r = .ok v := by
  have hw : ∀ m : Move, m.Within fun _ => True := by
    intro m
    cases m <;> simp [Move.Within]
  have hS : s.Sound d.shape fun _ => True := sound_start hrow (fun _ _ => trivial) hs
  have hrounds : ∀ (rs : List (List Move × Bool)) (s t : Pile) (es : List WatchEvent), s.Sound d.shape (fun _ => True) →
      s.rounds d.shape rs = .ok (t, es) → t.Sound d.shape fun _ => True := by
    intro rs
    induction rs with
    | nil =>
      intro s t es hs h
      obtain ⟨rfl, _⟩ := Prod.mk.inj (Res.ok.inj h)
      exact hs
    | cons r rs ih =>
      intro s t es hs h
      unfold rounds at h
      obtain ⟨⟨a, es1⟩, h1, h2⟩ := Res.bind_eq_ok.1 h
      obtain ⟨⟨b, es2⟩, h3, h4⟩ := Res.bind_eq_ok.1 h2
      obtain ⟨rfl, _⟩ := Prod.mk.inj (Res.ok.inj h4)
      unfold round at h1
      obtain ⟨x, hx, h1⟩ := Res.bind_eq_ok.1 h1
      have hX := (hs.moves hrow (fun m _ => hw m) hx).1
      refine ih a b es2 ?_ h3
      split_ifs at h1
      · obtain ⟨rfl, _⟩ := Prod.mk.inj (Res.ok.inj h1)
        exact hX.commit.toSound
      · obtain ⟨rfl, _⟩ := Prod.mk.inj (Res.ok.inj h1)
        exact hX.revert.toSound
  have hU := ((hrounds rs s t es hS h).moves hrow (fun m _ => hw m) hm).1
  have hlen : 1 ≤ d.shape.length := by
    cases hsh : d.shape with
    | nil => rw [hsh] at hne; cases hne
    | cons a l => simp
  unfold randomMove
  split_ifs with h1 h2 h3
  · unfold Pile.grow
    refine ⟨_, guardUB_bind_ok.2 ⟨hlen, guardUB_bind_ok.2 ⟨by omega, guardUB_bind_ok.2 ⟨by rw [hr.1]; exact Int.emod_self, rfl⟩⟩⟩⟩
  · unfold Pile.shrink
    refine ⟨_, guardUB_bind_ok.2 ⟨?_, rfl⟩⟩
    obtain ⟨n, _, hn⟩ := hU.curShape
    rw [← hn]
    have h0 : n ≠ 0 := by
      rintro rfl
      rw [Nat.cast_zero, zero_mul] at hn
      omega
    have h1 : (1 : Int) ≤ n := by omega
    nlinarith
  · unfold Pile.set
    exact ⟨_, guardUB_bind_ok.2 ⟨⟨by omega, by have := hr.2 h3; omega⟩, rfl⟩⟩
  · exact ⟨_, rfl⟩

/-! ## Not vacuous -/

namespace OracleExample

open Pile

/-- Rows of two integers between 0 and 9. -/
def rows : Declaration := ⟨[-1, 2], 0, 9, true⟩

/-- Grow and change, and keep that; shrink twice, grow, and take that back. -/
def history : List (List Move × Bool) :=
  [([.grow [1, 2, 3, 4], .set 1 5], true), ([.shrink, .shrink, .grow [6, 7]], false), ([.random ⟨1, [0, 0], 0, 0⟩], true)]

def pile : Pile := ⟨[], [], [], [0, 2], [0, 2]⟩

example : Pile.start rows.shape [] = .ok pile ∧
    ∃ t es, pile.rounds rows.shape history = .ok (t, es) ∧ t.cur = [1, 5] ∧ es.length = 6 ∧ rows.Proper ∧ 0 < rowSize rows.shape ∧
      ∀ r ∈ history, ∀ m ∈ r.1, m.Within fun x => rows.lo ≤ x ∧ x ≤ rows.hi ∧ (rows.integral = true → x.den = 1) := by
  refine ⟨rfl, _, _, rfl, by decide +kernel, rfl, by decide, by decide, ?_⟩
  simp only [history, List.forall_mem_cons, Move.Within, rows, List.not_mem_nil, false_implies, implies_true, and_true, forall_const]
  decide +kernel

/-- A wrong old value is caught. -/
example : Oracle.watch rows ⟨[1, 2], [1, 2], 2, 0, []⟩ [.propagated ⟨[3, 2], [1, 2], 2, 0, [Update.change 0 2 3]⟩] = .ub := by
  decide +kernel

end OracleExample

/-! ## Where it fails -/

/-- C66: two propagations without a commit between them.  The array says what it does, but an assertion fails, because the changes are
carried out twice. -/
theorem C66_twice_fails :
    ∃ (d : Declaration) (o : Observation) (es : List WatchEvent), d.Proper ∧ HonestFrom d.Fits o es ∧ Oracle.watch d o es = .ub := by
  refine ⟨⟨[1], 0, 9, true⟩, ⟨[1], [1], 1, 0, []⟩,
    [.propagated ⟨[2], [1], 1, 0, [Update.change 0 1 2]⟩, .propagated ⟨[2], [1], 1, 0, [Update.change 0 1 2]⟩], by decide, ?_, by decide +kernel⟩
  have hf : ∀ x ∈ [(1 : Rat), 2], Declaration.Fits ⟨[1], 0, 9, true⟩ ⟨[x], [1], 1, 0, []⟩ ∧
      Declaration.Fits ⟨[1], 0, 9, true⟩ ⟨[x], [1], 1, 0, [Update.change 0 1 2]⟩ := by
    intro x hx
    have hr : ∀ y ∈ [x], (0 : Rat) ≤ y ∧ y ≤ 9 ∧ (true = true → y.den = 1) := by
      intro y hy
      obtain rfl := List.mem_singleton.1 hy
      revert y
      decide +kernel
    exact ⟨⟨⟨rfl, hr⟩, rfl, rfl, fun i n h _ => h⟩, ⟨⟨rfl, hr⟩, rfl, rfl, fun i n h _ => h⟩⟩
  have h2 := (hf 2 (by simp)).2
  exact ⟨rfl, rfl, (hf 1 (by simp)).1, by decide +kernel, rfl, h2, by decide +kernel, rfl, h2, trivial⟩

/-- C66: an array with 2³¹ elements that says what it does cannot be watched, because its size is computed as an `int`. -/
theorem C66_large_fails :
    ∃ (d : Declaration) (o : Observation), d.Proper ∧ HonestFrom d.Fits o [] ∧ Oracle.watch d o [] = .ub := by
  obtain ⟨N, hN⟩ : ∃ N : Nat, N = 2 ^ 31 := ⟨_, rfl⟩
  have hr : ∀ y ∈ List.replicate N (0 : Rat), (0 : Rat) ≤ y ∧ y ≤ 9 ∧ (true = true → y.den = 1) := by
    intro y hy
    rw [List.eq_of_mem_replicate hy]
    decide +kernel
  refine ⟨⟨[N], 0, 9, true⟩, ⟨List.replicate N 0, [N], N, 0, []⟩, (by intro n hn; cases hn),
    ⟨rfl, rfl, ⟨⟨by simp, hr⟩, rfl, by simp, fun i n h _ => h⟩, trivial⟩, ?_⟩
  unfold Oracle.watch start
  have hp : ¬((N : Int) = productInt [(N : Int)]) := by
    rw [hN]
    decide +kernel
  rw [guardUB_true (by rfl), Res.ok_bind, guardUB_true (by rfl), Res.ok_bind, guardUB_true (by simp), Res.ok_bind, guardUB_false hp]
  rfl

/-- C66: an array that has declared a fixed size can grow unnoticed, as the first dimension is not compared. -/
theorem C66_shape_fails :
    ∃ (d : Declaration) (o : Observation) (es : List WatchEvent) (s : Oracle), d.Proper ∧ (∀ n ∈ d.shape, 0 ≤ n) ∧ Alternating es ∧
      Oracle.watch d o es = .ok s ∧ ¬HonestFrom d.Fits o es := by
  refine ⟨⟨[1], 0, 9, true⟩, ⟨[1], [1], 1, 0, []⟩, [.propagated ⟨[1, 2], [2], 2, 1, [Update.placement 1 2]⟩], ⟨[some 1], [some 1, some 2]⟩,
    by decide, by decide, trivial, by decide +kernel, ?_⟩
  rintro ⟨_, _, _, _, _, h, _⟩
  have := h.fixed 0 1 rfl (by decide)
  revert this
  decide

/-- C66: taking a row from an empty array violates an assertion; so does the initialisation of an array with rows of no elements. -/
theorem C66_empty_fails :
    (∃ s, Pile.start [-1] [] = .ok s ∧ s.shrink [-1] = .ub) ∧ Pile.accepts [-1, 0] = .ok () ∧ Pile.start [-1, 0] [] = .ub :=
  ⟨⟨_, rfl, by decide +kernel⟩, by decide +kernel, by decide +kernel⟩

/-- C66: dynamic test arrays are made for a first dimension of -1, and refused with an exception for every other shape. -/
theorem C66_accepted (shape : List Int) :
    (Pile.accepts shape = .ok () ↔ ∃ rest, shape = -1 :: rest) ∧ (Pile.accepts shape = .throw ↔ ¬ ∃ rest, shape = -1 :: rest) := by
  cases shape with
  | nil => simp [Pile.accepts, guardThrow]
  | cons d rest => by_cases h : d = -1 <;> simp [Pile.accepts, guardThrow, h]

example : Pile.accepts [-1, 2] = .ok () ∧ Pile.accepts [2, 2] = .throw ∧ Pile.accepts [] = .throw := by decide

end Verif
