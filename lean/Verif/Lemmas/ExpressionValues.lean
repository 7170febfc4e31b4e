import Verif.Model.Expressions
import Verif.Lemmas.NumpyValues
import Verif.Props.Power

set_option linter.unusedSimpArgs false
set_option linter.unusedVariables false

/-! Helper lemmas: the value of a new symbol is what NumPy computes from the values of its operands. -/

namespace Verif

theorem PyReduce.numpy_kind {op : PyReduce} {x : Arr Rat} {out : List (List Int)} (hx : x.Fine) (hm : op.kind.make [[x.shape]] = .ok out) :
    ∃ v, op.numpy x.data = some v ∧ (op.kind.node [[x.shape]] out).f [[x]] = [⟨[], [v]⟩] := by
  cases op with
  | all =>
    refine ⟨_, rfl, ?_⟩
    simp [PyReduce.kind, Kind.node, allValue, single]
  | any =>
    refine ⟨_, rfl, ?_⟩
    simp [PyReduce.kind, Kind.node, anyValue, single]
  | sum =>
    refine ⟨_, rfl, ?_⟩
    simp [PyReduce.kind, Kind.node, single]
  | prod =>
    refine ⟨_, rfl, ?_⟩
    simp [PyReduce.kind, Kind.node, single]
  | max =>
    have : x.data ≠ [] := by
      simp only [PyReduce.kind, Kind.make, Kind.arrayShape, Res.bind_eq_ok, Res.ok.injEq] at hm
      obtain ⟨s, rfl, _, hg, _⟩ := hm
      obtain ⟨hd, hp⟩ := guardThrow_eq_ok.1 hg trivial
      have hw := hx.wf
      simp only [Arr.WF, Arr.dynamic, hd] at hw
      intro e
      rw [e] at hw
      simp at hw
      omega
    refine ⟨_, if_neg this, ?_⟩
    simp [PyReduce.kind, Kind.node, single]
  | min =>
    have : x.data ≠ [] := by
      simp only [PyReduce.kind, Kind.make, Kind.arrayShape, Res.bind_eq_ok, Res.ok.injEq] at hm
      obtain ⟨s, rfl, _, hg, _⟩ := hm
      obtain ⟨hd, hp⟩ := guardThrow_eq_ok.1 hg trivial
      have hw := hx.wf
      simp only [Arr.WF, Arr.dynamic, hd] at hw
      intro e
      rw [e] at hw
      simp at hw
      omega
    refine ⟨_, if_neg this, ?_⟩
    simp [PyReduce.kind, Kind.node, single]

theorem unary_call {op : UnaryOp} {x : Arr Rat} {out : List (List Int)} (hm : (Kind.unary op).make [[x.shape]] = .ok out) :
    (single (((Kind.unary op).node [[x.shape]] out).f [[x]])).present = ⟨x.present.shape, x.present.data.map op.numpy⟩ := by
  simp only [Kind.make, Kind.arrayShape, Res.ok_bind, Res.ok.injEq] at hm
  subst hm
  rw [← op.func_numpy, ← unary_present]
  rfl

theorem binary_call {op : BinaryOp} {x y : Arr Rat} {out : List (List Int)} (hx : x.Fine) (hy : y.Fine)
    (hm : (Kind.binary op).make [[x.shape], [y.shape]] = .ok out) (hr : (Kind.binary op).Regular [[x.shape], [y.shape]]) :
    numpyZip op.numpy x.present y.present =
      some (single (((Kind.binary op).node [[x.shape], [y.shape]] out).f [[x], [y]])).present := by
  simp only [Kind.make, Kind.arrayShape, Res.ok_bind, Res.bind_eq_ok, Res.ok.injEq] at hm
  obtain ⟨s, hs, rfl⟩ := hm
  rw [binary_numpy hx hy hs hr, ← op.func_numpy]
  rfl

/-- The operation of an n-ary symbol commutes. -/
theorem NaryOp.numpy_comm (op : NaryOp) (a b : Rat) : op.numpy a b = op.numpy b a := by
  cases op
  · exact add_comm a b
  · exact mul_comm a b
  · exact max_comm a b
  · exact min_comm a b

theorem nary_f {op : NaryOp} (ps : List (List (List Int))) (out : List (List Int)) (xs : List (Arr Rat)) :
    ((Kind.nary op).node ps out).f (xs.map fun x => [x]) = [⟨Kind.shape1 out, naryValue op.numpy xs⟩] := by
  have e : (xs.map fun x => [x]).map single = xs := by
    rw [List.map_map]
    conv_rhs => rw [← List.map_id xs]
    rfl
  cases op <;> simp only [Kind.node, e] <;> rfl

theorem where_call {c x y : Arr Rat} {out : List (List Int)} (hc : c.Fine) (hx : x.Fine) (hy : y.Fine)
    (hm : Kind.where_.make [[c.shape], [x.shape], [y.shape]] = .ok out) (hp : Kind.where_.PlainWhere [[c.shape], [x.shape], [y.shape]]) :
    numpyWhere c.present x.present y.present =
      some (single ((Kind.where_.node [[c.shape], [x.shape], [y.shape]] out).f [[c], [x], [y]])).present := by
  simp only [Kind.make, Kind.arrayShape, Res.ok_bind, Res.bind_eq_ok, Res.ok.injEq] at hm
  obtain ⟨s, hs, rfl⟩ := hm
  rw [where_numpy hc hx hy hs hp.1 hp.2]
  rfl

theorem reshape_call {shape : List Int} {x : Arr Rat} {out : List (List Int)} (hg : ∀ d ∈ out, GoodShape d) (hx : x.Fine)
    (hm : (Kind.reshape shape).make [[x.shape]] = .ok out) :
    ((∀ d ∈ shape, 0 ≤ d) ∧ shapeProd shape = shapeProd x.present.shape) ∧
    (single (((Kind.reshape shape).node [[x.shape]] out).f [[x]])).present = ⟨shape, x.present.data⟩ := by
  simp only [Kind.make, Kind.arrayShape, Res.ok_bind, Res.bind_eq_ok, Res.ok.injEq, reshapeShape] at hm
  obtain ⟨s, ⟨_, h1, _, h2, _, h3, rfl⟩, rfl⟩ := hm
  have h1 := guardThrow_eq_ok.1 h1
  have h2 := guardThrow_eq_ok.1 h2
  refine ⟨⟨Kind.nonneg_of_good (hg shape (by simp)) h2, ?_⟩, ?_⟩
  · rw [present_fixed h1, shapeProd_eq, shapeProd_eq, guardThrow_eq_ok.1 h3]
  · exact present_fixed (x := ⟨shape, x.data⟩) h2

theorem sumAxis_call {axis : Nat} {x : Arr Rat} {out : List (List Int)} (hx : x.Fine)
    (hm : (Kind.partialSum axis 0).make [[x.shape]] = .ok out) :
    axis < x.present.shape.length ∧
    (single (((Kind.partialSum axis 0).node [[x.shape]] out).f [[x]])).present =
      ⟨x.present.shape.eraseIdx axis, partialSumValue x.present.shape axis 0 x.present.data⟩ := by
  simp only [Kind.make, Kind.arrayShape, Res.ok_bind, Res.bind_eq_ok, Res.ok.injEq] at hm
  obtain ⟨_, h1, _, h2, _, h3, rfl⟩ := hm
  have h1 := guardUB_eq_ok.1 h1
  have h2 := guardThrow_eq_ok.1 h2
  rw [present_fixed h2]
  refine ⟨h1, ?_⟩
  rw [present_fixed (x := single _)]
  · rfl
  · refine fixed_of_nonneg fun d hd => ?_
    exact Kind.nonneg_of_good hx.good h2 d (List.mem_of_mem_eraseIdx hd)

theorem numpy_lookups {op : Rat → Rat → Rat} {env : Nat → Option (Arr Rat)} : ∀ {ys : List Nat} {bs : List (Arr Rat)},
    List.Forall₂ (fun y b => env y = some b) ys bs → ∀ a : Arr Rat,
    ys.foldlM (fun a y => do
      let b ← env y
      numpyZip op a b) a = bs.foldlM (numpyZip op) a
  | [], [], _, a => rfl
  | y :: ys, b :: bs, .cons h hs, a => by
    rw [List.foldlM_cons, List.foldlM_cons, h]
    show (numpyZip op a b).bind _ = (numpyZip op a b).bind _
    congr 1
    funext a'
    exact numpy_lookups hs a'

theorem nary_call {op : NaryOp} {x : Arr Rat} {ys : List (Arr Rat)} {out : List (List Int)}
    (hf : ∀ z ∈ x :: ys, z.Fine) (hm : (Kind.nary op).make ((x :: ys).map fun z => [z.shape]) = .ok out) :
    (ys.map Arr.present).foldlM (numpyZip op.numpy) x.present =
      some (single (((Kind.nary op).node ((x :: ys).map fun z => [z.shape]) out).f ((x :: ys).map fun z => [z]))).present ∧
    out = [x.shape] ∧ dynamicShape x.shape = false ∧ ∀ z ∈ ys, z.shape = x.shape := by
  have key : ∀ zs : List (Arr Rat), (zs.map fun z => [z.shape]).mapM Kind.arrayShape = .ok (zs.map Arr.shape) := by
    intro zs
    induction zs with
    | nil => rfl
    | cons z zs ih =>
      rw [List.map_cons, List.mapM_cons, ih]
      rfl
  have hfor : ∀ (s : List Int) (l : List (List Int)),
      (l.forM fun t => do guardThrow (dynamicShape t = false); guardThrow (s = t)) = Res.ok () →
      ∀ t ∈ l, dynamicShape t = false ∧ s = t := by
    intro s l
    induction l with
    | nil => simp
    | cons t l ih =>
      intro h
      obtain ⟨_, h1, h⟩ := Res.bind_eq_ok.1 (show (guardThrow (dynamicShape t = false) >>= fun _ => guardThrow (s = t)) >>= (fun _ =>
        l.forM fun t => do guardThrow (dynamicShape t = false); guardThrow (s = t)) = Res.ok () from h)
      obtain ⟨_, h0, h2⟩ := Res.bind_eq_ok.1 h1
      intro u hu
      rcases List.mem_cons.1 hu with rfl | hu
      · exact ⟨guardThrow_eq_ok.1 h0, guardThrow_eq_ok.1 h2⟩
      · exact ih h u hu
  simp only [Kind.make] at hm
  rw [key, Res.ok_bind] at hm
  simp only [List.map_cons, naryShape, Res.bind_eq_ok, Res.ok.injEq] at hm
  obtain ⟨s, ⟨_, hs, rfl⟩, rfl⟩ := hm
  have hs := hfor _ _ hs
  have hd := (hs x.shape (by simp)).1
  have hy : ∀ z ∈ ys, z.shape = x.shape := fun z hz => (hs z.shape (List.mem_cons_of_mem _ (List.mem_map.2 ⟨z, hz, rfl⟩))).2.symm
  refine ⟨?_, rfl, hd, hy⟩
  rw [nary_f]
  show _ = some (⟨x.shape, naryValue op.numpy (x :: ys)⟩ : Arr Rat).present
  rw [present_fixed (x := ⟨x.shape, naryValue op.numpy (x :: ys)⟩) hd, present_fixed hd]
  have e : ys.map Arr.present = ys := by
    conv_rhs => rw [← List.map_id ys]
    refine List.map_congr_left fun z hz => ?_
    exact present_fixed (by rw [hy z hz]; exact hd)
  rw [e]
  have hx := (hf x (by simp))
  have fx := hx.full
  rw [present_fixed hd] at fx
  refine nary_numpy op.numpy_comm (Kind.nonneg_of_good hx.good hd) rfl fx fun z hz => ⟨hy z hz, ?_⟩
  have fz := (hf z (by simp [hz])).full
  rwa [present_fixed (by rw [hy z hz]; exact hd)] at fz

end Verif
