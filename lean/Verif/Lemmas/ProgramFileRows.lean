import Verif.Spec.ProgramFile
import Verif.Lemmas.ConstructRename
import Verif.Props.InferIndices

set_option linter.unusedSimpArgs false
set_option linter.unusedVariables false

/-! Helper lemmas: rows of a loaded program. -/

namespace Verif

/-- A loaded symbol and the saved one, with what later constructors can find out. -/
structure Row.Loads (f : Nat → Nat) (r' r : Row) : Prop where
  same : Row.Same f r' r
  kind : Kind.Alike r'.built.asKind r.built.asKind
  contiguous : r'.built.contiguous = r.built.contiguous

theorem Row.Loads.like {f : Nat → Nat} {r' r : Row} (h : Row.Loads f r' r) : r'.out.Like f r.out :=
  ⟨h.same.shapes, h.same.claim, h.same.size, h.same.const⟩

theorem qModel_n {n : Nat} {ops : List BiasOp} (ho : ∀ op ∈ ops, op.inRange n) : (Kind.qModel n ops).n = n := by
  obtain ⟨q, e, hn, h⟩ := build_inv n ho
  unfold Kind.qModel
  rw [e]
  exact hn

/-- Symbols of the catalog that cannot be told apart. -/
theorem alike_same {k' k : Kind} (h : Kind.Alike k' k) (ps : List (List (List Int))) (o : List (List Int)) :
    (k.isDecision = true → k'.node ps o = k.node ps o) ∧ (∀ xs, (k'.node ps o).ok xs ↔ (k.node ps o).ok xs) ∧
      ∀ xs, (k'.node ps o).f xs = (k.node ps o).f xs := by
  cases h with
  | same k => exact ⟨fun _ => rfl, fun _ => Iff.rfl, fun _ => rfl⟩
  | integer s h1 h2 =>
    have e : (Kind.integer s _ _).node ps o = (Kind.integer s _ _).node ps o := (Kind.Alike.integer s h1 h2).node rfl ps o
    rw [e]
    exact ⟨fun _ => rfl, fun _ => Iff.rfl, fun _ => rfl⟩
  | quadratic n h1 h2 h3 =>
    refine ⟨?_, fun xs => ?_, fun xs => ?_⟩
    · intro hd
      simp [Kind.isDecision] at hd
    · simp only [Kind.node, liftNode, quadraticNode, quadraticShape, qModel_n h1, qModel_n h2]
    · simp only [Kind.node, liftNode, quadraticNode, h3]

/-- A size refers to an earlier symbol, or to the symbol itself. -/
theorem Script.Made.size_down {s : Script} (h : s.Made) {i : Nat} (hi : i < s.length) {a : Nat} (ha : (s.row i).out.size.array = some a) :
    a ≤ i := by
  obtain ⟨t, sizes, h1, h2, h3, h4⟩ := h i hi
  rw [h2] at h4
  generalize ho : (s.row i).ops = ops at h1 h4
  generalize hb : (s.row i).built = b at h4
  generalize hout : (s.row i).out = out at h4 ha
  match t, ops, h1, h4 with
  | .kind k, ops, h1, h4 =>
    have h4 : k.construct i sizes ops _ = _ := h4
    rw [Kind.construct_eq] at h4
    obtain ⟨asked, _, h4⟩ := Res.bind_eq_ok.1 h4
    obtain ⟨_, _, h4⟩ := Res.bind_eq_ok.1 h4
    obtain ⟨shapes, _, h4⟩ := Res.bind_eq_ok.1 h4
    simp only [Res.ok.injEq, Prod.mk.injEq] at h4
    obtain ⟨-, rfl⟩ := h4
    simp only [Kind.sizeFrom] at ha
    split_ifs at ha
    · split at ha
      · split_ifs at ha <;> simp only [SizeInfo.of, Option.some.injEq] at ha <;> subst ha
        · exact (h1 _ (by simp)).le
        · exact (h1 _ (by simp)).le
      all_goals simp only [SizeInfo.of, Option.some.injEq] at ha; omega
    · simp [SizeInfo.fixed] at ha
  | .basic idx, [], _, h4 => simp [Term.construct] at h4
  | .basic idx, _ :: _ :: _, _, h4 => simp [Term.construct] at h4
  | .basic idx, [x], h1, h4 =>
    simp only [Term.construct, List.map_cons, List.map_nil] at h4
    obtain ⟨sh, _, h4⟩ := Res.bind_eq_ok.1 h4
    obtain ⟨P, _, h4⟩ := Res.bind_eq_ok.1 h4
    cases hax : P.axis0 with
    | none =>
      rw [hax] at h4
      simp only [Res.ok_bind, Res.ok.injEq, Prod.mk.injEq] at h4
      obtain ⟨-, rfl⟩ := h4
      simp [SizeInfo.fixed] at ha
    | some sl =>
      rw [hax] at h4
      obtain ⟨z, hz, h4⟩ := Res.bind_eq_ok.1 h4
      simp only [Res.ok.injEq, Prod.mk.injEq] at h4
      obtain ⟨-, rfl⟩ := h4
      unfold SizeInfo.ofSlice at hz
      obtain ⟨_, _, hz⟩ := Res.bind_eq_ok.1 hz
      obtain ⟨_, _, hz⟩ := Res.bind_eq_ok.1 hz
      rw [← Res.ok.inj hz] at ha
      simp only [Option.some.injEq] at ha
      subst ha
      exact (h1 _ (by simp)).le
  | .advanced slots, [], _, h4 => simp [Term.construct] at h4
  | .advanced slots, x :: xs, h1, h4 =>
    simp only [Term.construct, List.map_cons] at h4
    obtain ⟨sh, _, h4⟩ := Res.bind_eq_ok.1 h4
    obtain ⟨idx, h5, h4⟩ := Res.bind_eq_ok.1 h4
    obtain ⟨z, _, h4⟩ := Res.bind_eq_ok.1 h4
    obtain ⟨P, h6, h4⟩ := Res.bind_eq_ok.1 h4
    simp only [Res.ok.injEq, Prod.mk.injEq] at h4
    obtain ⟨-, rfl⟩ := h4
    simp only at ha
    split_ifs at ha
    · simp only [SizeInfo.of, Option.some.injEq] at ha
      subst ha
      cases xs with
      | nil => exact Nat.zero_le _
      | cons y ys => exact (h1 _ (by simp)).le
    · simp [SizeInfo.fixed] at ha
  | .permutation, [], _, h4 => simp [Term.construct] at h4
  | .permutation, [_], _, h4 => simp [Term.construct] at h4
  | .permutation, _ :: _ :: _ :: _, _, h4 => simp [Term.construct] at h4
  | .permutation, [x, y], h1, h4 =>
    simp only [Term.construct, List.map_cons, List.map_nil] at h4
    obtain ⟨_, _, h4⟩ := Res.bind_eq_ok.1 h4
    obtain ⟨_, _, h4⟩ := Res.bind_eq_ok.1 h4
    obtain ⟨_, _, h4⟩ := Res.bind_eq_ok.1 h4
    obtain ⟨_, _, h4⟩ := Res.bind_eq_ok.1 h4
    simp only [Res.ok.injEq, Prod.mk.injEq] at h4
    obtain ⟨-, rfl⟩ := h4
    simp [SizeInfo.fixed] at ha

/-- A slice is built again from the indices that it saves. -/
theorem Viewed.again {sh : List Int} {idx : List BasicIndex} {P : Parsed} (h : Viewed sh idx P) (hP : basicParse sh idx = .ok P) :
    ∃ out Q, reportedIndices sh P = .ok out ∧ basicParse sh out = .ok Q ∧ Q.shape = P.shape ∧ Q.axis0 = P.axis0 ∧
      Q.contiguous = P.contiguous ∧ ∀ x : Arr Rat, x.shape = sh → x.WF → (x.data.length : Int) ≤ ssMax →
        selectCoords x.shapeNow out = selectCoords x.shapeNow idx := by
  cases h with
  | fixed dims small fits some strides =>
    have hd0 : ∀ d ∈ sh, 0 ≤ d ∧ d ≤ ssMax := by
      intro d hd
      have := le_shapeProd dims hd
      have := shapeProd_pos dims
      have := dims d hd
      omega
    have ho : SelectOk sh idx := by
      by_contra hn
      rw [(C30_accepts sh idx hd0 fits).2 hn] at hP
      cases hP
    have hdyn : dynamicShape sh = false := by
      cases sh with
      | nil => rfl
      | cons d sh => have := dims d List.mem_cons_self; simp [dynamicShape]; omega
    have hax : ∀ (l : List BasicIndex) (R : Parsed), basicParse sh l = .ok R → R.axis0 = none := by
      intro l R hR
      unfold basicParse parseIndex at hR
      rw [hdyn] at hR
      obtain ⟨_, _, hR⟩ := Res.bind_eq_ok.1 hR
      obtain ⟨_, _, hR⟩ := Res.bind_eq_ok.1 hR
      simp only at hR
      obtain ⟨_, _, hR⟩ := Res.bind_eq_ok.1 hR
      rw [← Res.ok.inj hR]
    obtain ⟨out, Q, h1, h2, h3, h4, h5⟩ := C47_fixed_partial sh idx P dims small ho fits some hP strides
    refine ⟨out, Q, h1, h2, h3, by rw [hax _ _ h2, hax _ _ hP], h4, fun x hx _ _ => ?_⟩
    have : x.shapeNow = sh := by
      unfold Arr.shapeNow Arr.dynamic
      rw [hx, hdyn]
      simp
    rw [this, h5]
  | @dynamic rest a b c more shape indices index small some strides =>
    subst shape
    subst indices
    obtain ⟨out, Q, h1, h2, h3, h4, h5, h6⟩ := C47_dynamic_partial rest a b c more P index small some hP strides
    refine ⟨out, Q, h1, h2, h3, h4, h5, fun x hx hw hl => ?_⟩
    have hdyn : dynamicShape (-1 :: rest) = true := by simp [dynamicShape]
    have hpos := index.pos
    obtain ⟨n, hl', hn⟩ := rows_of_wf index.pos hx hw
    have hpos := index.pos
    have hle : (n : Int) ≤ ssMax := by
      have : (n : Int) * 1 ≤ n * shapeProd rest := Int.mul_le_mul_of_nonneg_left (by omega) (by omega)
      omega
    rw [hn]
    exact (h6 n hle).2

/-- A symbol of the catalog. -/
theorem loads_kind {f : Nat → Nat} {k' k : Kind} (hk : Kind.Alike k' k) {ops' ops : List Nat} {ins' ins : List Info} {out' out : Info}
    (ho : ops'.map f = ops) (hi : ins'.map Info.shapes = ins.map Info.shapes) (hl : out'.Like f out) :
    Row.Loads f ⟨.kind k', ops', ins', out'⟩ ⟨.kind k, ops, ins, out⟩ := by
  obtain ⟨h1, h2, h3⟩ := alike_same hk (ins.map Info.shapes) out.shapes
  refine ⟨⟨ho, hl.shapes, hl.claim, hl.size, hl.const, hk.isDecision, ?_, ?_, ?_⟩, hk, rfl⟩
  · intro hd
    show k'.node (ins'.map Info.shapes) out'.shapes = _
    rw [hi, hl.shapes]
    exact h1 hd
  · show ∀ xs, (k'.node (ins'.map Info.shapes) out'.shapes).ok xs ↔ _
    rw [hi, hl.shapes]
    exact h2
  · show ∀ xs, _ → (k'.node (ins'.map Info.shapes) out'.shapes).f xs = _
    rw [hi, hl.shapes]
    exact fun xs _ => h3 xs

/-- An indexing symbol built in the same way. -/
theorem loads_same {f : Nat → Nat} {b : Built} (hb : ∀ k, b ≠ .kind k) {ops' ops : List Nat} {ins' ins : List Info} {out' out : Info}
    (ho : ops'.map f = ops) (hl : out'.Like f out) : Row.Loads f ⟨b, ops', ins', out'⟩ ⟨b, ops, ins, out⟩ := by
  have e : b.node ins' out' = b.node ins out := by
    cases b with
    | kind k => exact absurd rfl (hb k)
    | basic _ _ _ => rfl
    | advanced _ _ o => cases o <;> rfl
    | permutation _ => rfl
  refine ⟨⟨ho, hl.shapes, hl.claim, hl.size, hl.const, rfl, fun _ => e, ?_, ?_⟩, .same _, rfl⟩
  · show ∀ xs, (b.node ins' out').ok xs ↔ _
    rw [e]
    exact fun _ => Iff.rfl
  · show ∀ xs, _ → (b.node ins' out').f xs = _
    rw [e]
    exact fun _ _ => rfl

/-- A slice with other indices. -/
theorem loads_basic {f : Nat → Nat} {sh : List Int} {idx' idx : List BasicIndex} {Q P : Parsed} (hs : Q.shape = P.shape)
    (hc : Q.contiguous = P.contiguous)
    (he : ∀ x : Arr Rat, x.shape = sh → x.WF → (x.data.length : Int) ≤ ssMax →
      selectCoords x.shapeNow idx' = selectCoords x.shapeNow idx) {ops' ops : List Nat} {ins' ins : List Info} {out' out : Info}
    (ho : ops'.map f = ops) (hl : out'.Like f out) :
    Row.Loads f ⟨.basic sh idx' Q, ops', ins', out'⟩ ⟨.basic sh idx P, ops, ins, out⟩ := by
  refine ⟨⟨ho, hl.shapes, hl.claim, hl.size, hl.const, rfl, ?_, fun _ => Iff.rfl, ?_⟩, .same _, hc⟩
  · intro hd
    simp [Row.decision, Built.decision] at hd
  · intro xs hx
    obtain ⟨-, x, hx, h1, h2, h3⟩ := hx
    show [(⟨Q.shape, _⟩ : Arr Rat)] = [⟨P.shape, _⟩]
    rw [hx, hs]
    simp only [List.headD_cons]
    rw [basicSelect_congr (he x h1 h2 h3)]

end Verif
