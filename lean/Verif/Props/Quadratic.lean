import Verif.Lemmas.Quadratic
import Mathlib.Algebra.BigOperators.Group.Finset.Sigma

set_option linter.unusedSectionVars false
set_option linter.unusedSimpArgs false
set_option linter.unusedVariables false

/-!
# C34: the quadratic model
-/

namespace Verif

open QModel

/-- The model `q` holds the biases `b`. -/
structure QInv (q : QModel) (b : Biases) : Prop where
  linear_length : q.linear.length = q.n
  square_length : q.square.length = q.n
  adj_length : q.adj.length = q.n
  linear : ∀ v, v < q.n → q.linear[v]? = some (b.linear v)
  square : ∀ v, v < q.n → q.square[v]? = some (b.square v)
  adj : ∀ u, u < q.n → ∃ N, q.adj[u]? = some N ∧ NInv q.n u N (b.pair u)

theorem QInv.mk'_ {n : Int} (hn : 0 ≤ n) : ∃ q, QModel.mk' n = .ok q ∧ q.n = n.toNat ∧ QInv q Biases.zero := by
  refine ⟨⟨n.toNat, List.replicate n.toNat 0, List.replicate n.toNat 0,
    List.replicate n.toNat Neighborhood.empty⟩,
    by simp only [QModel.mk', guardThrow_true hn, Res.ok_bind], rfl, ?_⟩
  constructor
  · simp
  · simp
  · simp
  · intro v hv; simp at hv; simp [hv, Biases.zero]
  · intro v hv; simp at hv; simp [hv, Biases.zero]
  · intro u hu; simp at hu
    refine ⟨Neighborhood.empty, by simp [hu], ⟨[], ⟨rfl, rfl⟩, List.Pairwise.nil, rfl, by simp, fun v => rfl⟩⟩

theorem QInv.onLinear {q : QModel} {b : Biases} (h : QInv q b) {v : Nat} (hv : v < q.n) (f : Rat → Rat) :
    ∃ q', q.onLinear v f = .ok q' ∧ q'.n = q.n ∧ QInv q' (b.onLinear v f) := by
  refine ⟨{ q with linear := q.linear.modify v f },
    by simp only [QModel.onLinear, guardUB_true hv, Res.ok_bind], rfl, ?_⟩
  refine ⟨by simp [h.linear_length], h.square_length, h.adj_length, ?_, h.square, h.adj⟩
  intro w hw
  simp only [Biases.onLinear, List.getElem?_modify, h.linear w hw]
  by_cases c : w = v
  · simp [c]
  · simp [c, Ne.symm c]

theorem QInv.onQuadratic {q : QModel} {b : Biases} (h : QInv q b) {u v : Nat} (hu : u < q.n)
    (hv : v < q.n) (f : Rat → Rat) :
    ∃ q', q.onQuadratic u v f = .ok q' ∧ q'.n = q.n ∧ QInv q' (b.onQuadratic u v f) := by
  by_cases c : u = v
  · subst c
    refine ⟨{ q with square := q.square.modify u f }, by
      simp only [QModel.onQuadratic, guardUB_true (show u < q.n ∧ u < q.n from ⟨hu, hu⟩), Res.ok_bind,
        if_true], rfl, ?_⟩
    refine ⟨h.linear_length, by simp [h.square_length], h.adj_length, ?_, ?_, ?_⟩
    · intro w hw; simpa [Biases.onQuadratic] using h.linear w hw
    · intro w hw
      simp only [Biases.onQuadratic, if_true, List.getElem?_modify, h.square w hw]
      by_cases c : w = u
      · simp [c]
      · simp [c, Ne.symm c]
    · intro w hw; simpa [Biases.onQuadratic] using h.adj w hw
  · refine ⟨{ q with adj := (q.adj.modify u (fun N => N.onRef u v f)).modify v (fun N => N.onRef v u f) },
      by simp only [QModel.onQuadratic, guardUB_true (show u < q.n ∧ v < q.n from ⟨hu, hv⟩), Res.ok_bind,
        if_neg c], rfl, ?_⟩
    refine ⟨h.linear_length, h.square_length, by simp [h.adj_length], ?_, ?_, ?_⟩
    · intro w hw; simpa [Biases.onQuadratic, c] using h.linear w hw
    · intro w hw; simpa [Biases.onQuadratic, c] using h.square w hw
    · intro w hw
      obtain ⟨N, hN, hi⟩ := h.adj w hw
      simp only [List.getElem?_modify, hN, Biases.onQuadratic, if_neg c]
      by_cases c1 : w = u
      · subst c1
        refine ⟨N.onRef w v f, by simp [Ne.symm c], ?_⟩
        have := hi.onRef hv (Ne.symm c) f
        refine ⟨?_⟩
        obtain ⟨ps, h1, h2, h3, h4, h5⟩ := this.ex
        refine ⟨ps, h1, h2, h3, h4, fun x => ?_⟩
        rw [h5 x]
        by_cases c2 : x = v
        · subst c2; simp
        · simp [c2, c]
      · by_cases c2 : w = v
        · subst c2
          refine ⟨N.onRef w u f, by simp [c], ?_⟩
          obtain ⟨ps, h1, h2, h3, h4, h5⟩ := (hi.onRef hu c f).ex
          refine ⟨ps, h1, h2, h3, h4, fun x => ?_⟩
          rw [h5 x]
          by_cases c3 : x = u
          · subst c3; simp
          · simp [c3, c1]
        · refine ⟨N, by simp [Ne.symm c1, Ne.symm c2], ?_⟩
          obtain ⟨ps, h1, h2, h3, h4, h5⟩ := hi.ex
          exact ⟨ps, h1, h2, h3, h4, fun x => by rw [h5 x]; simp [c1, c2]⟩

theorem QInv.run1 {q : QModel} {b : Biases} (h : QInv q b) {op : BiasOp} (ho : op.inRange q.n) :
    ∃ q', q.run1 op = .ok q' ∧ q'.n = q.n ∧ QInv q' (op.apply b) := by
  cases op with
  | setLinear v c => exact h.onLinear ho _
  | addLinear v c => exact h.onLinear ho _
  | setQuadratic u v c => exact h.onQuadratic ho.1 ho.2 _
  | addQuadratic u v c => exact h.onQuadratic ho.1 ho.2 _

theorem QInv.run {q : QModel} {b : Biases} (h : QInv q b) {ops : List BiasOp}
    (ho : ∀ op ∈ ops, op.inRange q.n) :
    ∃ q', ops.foldlM QModel.run1 q = .ok q' ∧ q'.n = q.n ∧ QInv q' (ops.foldl BiasOp.apply b) := by
  induction ops generalizing q b with
  | nil => exact ⟨q, rfl, rfl, h⟩
  | cons op ops ih =>
    obtain ⟨q1, e1, n1, h1⟩ := h.run1 (ho op List.mem_cons_self)
    obtain ⟨q2, e2, n2, h2⟩ := ih h1 (fun o h => by rw [n1]; exact ho o (List.mem_cons_of_mem _ h))
    exact ⟨q2, by simp only [List.foldlM_cons, e1, Res.ok_bind, e2], by rw [n2, n1], h2⟩

theorem build_inv (n : Nat) {ops : List BiasOp} (ho : ∀ op ∈ ops, op.inRange n) :
    ∃ q, QModel.build n ops = .ok q ∧ q.n = n ∧ QInv q (biasesOf ops) := by
  obtain ⟨q, e, hn, h⟩ := QInv.mk'_ (n := n) (by omega)
  have hn : q.n = n := by rw [hn]; simp
  obtain ⟨q', e', hn', h'⟩ := h.run (ops := ops) (by rw [hn]; exact ho)
  exact ⟨q', by simp only [QModel.build, e, Res.ok_bind, e'], by rw [hn', hn], h'⟩

/-! ## Symmetry -/

theorem pair_symm (ops : List BiasOp) : ∀ (b : Biases), (∀ u v, b.pair u v = b.pair v u) →
    (∀ u, b.pair u u = none) →
    (∀ u v, (ops.foldl BiasOp.apply b).pair u v = (ops.foldl BiasOp.apply b).pair v u) ∧
      ∀ u, (ops.foldl BiasOp.apply b).pair u u = none := by
  induction ops with
  | nil => intro b h h'; exact ⟨h, h'⟩
  | cons op ops ih =>
    intro b h h'
    have key : ∀ (u v : Nat) (f : Rat → Rat), (∀ x y, (b.onQuadratic u v f).pair x y =
        (b.onQuadratic u v f).pair y x) ∧ ∀ x, (b.onQuadratic u v f).pair x x = none := by
      intro u v f
      by_cases c : u = v
      · subst c
        simp only [Biases.onQuadratic, if_true]
        exact ⟨h, h'⟩
      · simp only [Biases.onQuadratic, if_neg c]
        refine ⟨fun x y => ?_, fun x => ?_⟩
        · rw [h x y]
          by_cases c1 : (x = u ∧ y = v) ∨ (x = v ∧ y = u)
          · rw [if_pos c1, if_pos (by tauto)]
          · rw [if_neg c1, if_neg (by tauto)]
        · rw [if_neg (by rintro (⟨rfl, rfl⟩ | ⟨rfl, rfl⟩) <;> exact c rfl), h' x]
    cases op with
    | setLinear v c => exact ih _ h h'
    | addLinear v c => exact ih _ h h'
    | setQuadratic u v c => exact ih _ (key u v _).1 (key u v _).2
    | addQuadratic u v c => exact ih _ (key u v _).1 (key u v _).2

theorem biasesOf_symm (ops : List BiasOp) (u v : Nat) : (biasesOf ops).pair u v = (biasesOf ops).pair v u :=
  (pair_symm ops Biases.zero (fun _ _ => rfl) (fun _ => rfl)).1 u v

theorem biasesOf_diag (ops : List BiasOp) (u : Nat) : (biasesOf ops).pair u u = none :=
  (pair_symm ops Biases.zero (fun _ _ => rfl) (fun _ => rfl)).2 u

/-- C34, biases.  A model built by any sequence of set and add requests on existing variables returns, for
every variable and every pair of variables, the bias the requests describe; the order of the two variables
does not matter. -/
theorem C34_biases (n : Nat) (ops : List BiasOp) (ho : ∀ op ∈ ops, op.inRange n) :
    ∃ q, QModel.build n ops = .ok q ∧
      (∀ v, v < n → q.getLinear v = .ok ((biasesOf ops).linear v)) ∧
      (∀ u v, u < n → v < n → q.getQuadratic u v = .ok ((biasesOf ops).quadratic u v) ∧
        q.getQuadratic u v = q.getQuadratic v u) := by
  obtain ⟨q, e, rfl, h⟩ := build_inv n ho
  have hq : ∀ u v, u < q.n → v < q.n → q.getQuadratic u v = .ok ((biasesOf ops).quadratic u v) := by
    intro u v hu hv
    simp only [QModel.getQuadratic, guardUB_true (show u < q.n ∧ v < q.n from ⟨hu, hv⟩), Res.ok_bind,
      Biases.quadratic]
    by_cases c : u = v
    · subst c
      simp only [if_true, h.square u hu]
    · obtain ⟨N, hN, hi⟩ := h.adj u hu
      simp only [if_neg c, hN, hi.get v]
  refine ⟨q, e, ?_, ?_⟩
  · intro v hv
    simp only [QModel.getLinear, guardUB_true hv, Res.ok_bind, h.linear v hv]
  · intro u v hu hv
    refine ⟨hq u v hu hv, ?_⟩
    rw [hq u v hu hv, hq v u hv hu]
    simp only [Biases.quadratic]
    by_cases c : u = v
    · subst c; rfl
    · rw [if_neg c, if_neg (Ne.symm c), biasesOf_symm ops u v]

/-! ## Value -/

theorem QInv.computeValue {q : QModel} {b : Biases} (h : QInv q b) {x : List Rat} (hx : x.length = q.n) :
    q.computeValue x = .ok (b.value q.n (fun i => x.getD i 0)) := by
  have hterm : ∀ i ∈ List.range q.n, q.valueTerm x i =
      .ok (b.linear i * x.getD i 0 + b.square i * (x.getD i 0 * x.getD i 0) +
        ∑ j ∈ Finset.range i, (b.pair i j).getD 0 * (x.getD i 0 * x.getD j 0)) := by
    intro i hi
    have hi : i < q.n := List.mem_range.1 hi
    obtain ⟨N, hN, hinv⟩ := h.adj i hi
    obtain ⟨terms, et, es⟩ := hinv.smaller_sum hx
    have hg : x[i]? = some (x.getD i 0) := by
      simp [List.getD_eq_getElem?_getD, hx, hi]
    simp only [QModel.valueTerm, hg, h.linear i hi, h.square i hi, hN]
    generalize x.getD i 0 = a
    by_cases c : a = 0
    · simp [c]
    · simp only [if_neg c, et, Res.ok_bind, es, Res.ok.injEq]
      rw [mul_add, Finset.mul_sum]
      have : ∀ j ∈ Finset.range i, a * (x.getD j 0 * (b.pair i j).getD 0) =
          (b.pair i j).getD 0 * (a * x.getD j 0) := fun j _ => by ring
      rw [Finset.sum_congr rfl this]
      ring
  have hsum : ∀ (g : Nat → Rat) (n : Nat), ((List.range n).map g).sum = ∑ i ∈ Finset.range n, g i := by
    intro g n
    induction n with
    | zero => rfl
    | succ n ih => rw [List.range_succ, List.map_append, List.sum_append, ih, Finset.sum_range_succ]; simp
  simp only [QModel.computeValue, guardUB_true hx, Res.ok_bind, mapM_ok _ _ _ hterm, Res.ok.injEq, hsum]
  rw [Finset.sum_add_distrib, Finset.sum_add_distrib]
  rfl

theorem QInv.effective {q : QModel} {b : Biases} (h : QInv q b) {x : List Rat} (hx : x.length = q.n)
    {u : Nat} (hu : u < q.n) :
    q.effectiveLinearBias u x =
      .ok (b.linear u + ∑ w ∈ Finset.range q.n, x.getD w 0 * (b.pair u w).getD 0) := by
  obtain ⟨N, hN, hinv⟩ := h.adj u hu
  obtain ⟨terms, et, es⟩ := hinv.all_sum hx
  simp only [QModel.effectiveLinearBias, guardUB_true hx, Res.ok_bind, h.linear u hu, hN, et, es]

/-- A sum in which the function was changed at one place. -/
theorem sum_bump {n k : Nat} (hk : k < n) (g : Nat → Rat → Rat) (x : Nat → Rat) (a : Rat) :
    ∑ i ∈ Finset.range n, g i (if i = k then a else x i) =
      ∑ i ∈ Finset.range n, g i (x i) + (g k a - g k (x k)) := by
  have e : ∀ i ∈ Finset.range n, g i (if i = k then a else x i) =
      g i (x i) + if i = k then g k a - g k (x k) else 0 := by
    intro i _
    by_cases c : i = k
    · subst c; simp
    · simp [c]
  rw [Finset.sum_congr rfl e, Finset.sum_add_distrib, Finset.sum_ite_eq',
    if_pos (Finset.mem_range.2 hk)]

/-- The pairs below the diagonal are half of all pairs. -/
theorem half_pairs (p : Nat → Nat → Rat) (hs : ∀ u v, p u v = p v u) (hd : ∀ u, p u u = 0) (n : Nat) :
    ∑ i ∈ Finset.range n, ∑ j ∈ Finset.range n, p i j =
      2 * ∑ i ∈ Finset.range n, ∑ j ∈ Finset.range i, p i j := by
  induction n with
  | zero => simp
  | succ n ih =>
    rw [Finset.sum_range_succ (fun i => ∑ j ∈ Finset.range i, p i j)]
    rw [Finset.sum_range_succ]
    have : ∀ i ∈ Finset.range n, ∑ j ∈ Finset.range (n + 1), p i j =
        ∑ j ∈ Finset.range n, p i j + p n i := fun i _ => by rw [Finset.sum_range_succ, hs i n]
    rw [Finset.sum_congr rfl this, Finset.sum_add_distrib, ih, Finset.sum_range_succ, hd n]
    ring

theorem value_bump (b : Biases) (hs : ∀ u v, b.pair u v = b.pair v u) (hd : ∀ u, b.pair u u = none)
    {n k : Nat} (hk : k < n) (x : Nat → Rat) (a : Rat) :
    b.value n (fun i => if i = k then a else x i) =
      b.value n x + (a - x k) * (b.square k * (a + x k) +
        (b.linear k + ∑ w ∈ Finset.range n, x w * (b.pair k w).getD 0)) := by
  have h1 := half_pairs (fun i j => (b.pair i j).getD 0 * (x i * x j))
    (fun u v => by simp only [hs u v]; ring) (fun u => by simp [hd u]) n
  have h2 := half_pairs (fun i j => (b.pair i j).getD 0 *
      ((if i = k then a else x i) * (if j = k then a else x j)))
    (fun u v => by simp only [hs u v]; ring) (fun u => by simp [hd u]) n
  have h3 : ∑ i ∈ Finset.range n, ∑ j ∈ Finset.range n, (b.pair i j).getD 0 *
      ((if i = k then a else x i) * (if j = k then a else x j)) =
      ∑ i ∈ Finset.range n, ∑ j ∈ Finset.range n, (b.pair i j).getD 0 * (x i * x j) +
        2 * ((a - x k) * ∑ w ∈ Finset.range n, x w * (b.pair k w).getD 0) := by
    have e1 : ∀ i ∈ Finset.range n, ∑ j ∈ Finset.range n, (b.pair i j).getD 0 *
        ((if i = k then a else x i) * (if j = k then a else x j)) =
        ∑ j ∈ Finset.range n, (b.pair i j).getD 0 * ((if i = k then a else x i) * x j) +
          (b.pair k i).getD 0 * (if i = k then a else x i) * (a - x k) := by
      intro i _
      rw [sum_bump hk (fun j y => (b.pair i j).getD 0 * ((if i = k then a else x i) * y)) x a, hs i k]
      ring
    rw [Finset.sum_congr rfl e1, Finset.sum_add_distrib]
    rw [sum_bump hk (fun i y => ∑ j ∈ Finset.range n, (b.pair i j).getD 0 * (y * x j)) x a]
    rw [sum_bump hk (fun i y => (b.pair k i).getD 0 * y * (a - x k)) x a]
    have e2 : ∀ y : Rat, ∑ j ∈ Finset.range n, (b.pair k j).getD 0 * (y * x j) =
        y * ∑ w ∈ Finset.range n, x w * (b.pair k w).getD 0 := by
      intro y
      rw [Finset.mul_sum]
      exact Finset.sum_congr rfl (fun j _ => by ring)
    have e3 : ∑ i ∈ Finset.range n, (b.pair k i).getD 0 * x i * (a - x k) =
        (a - x k) * ∑ w ∈ Finset.range n, x w * (b.pair k w).getD 0 := by
      rw [Finset.mul_sum]
      exact Finset.sum_congr rfl (fun j _ => by ring)
    rw [e2, e2, e3, hd k]
    simp only [Option.getD_none]
    ring
  unfold Biases.value
  rw [sum_bump hk (fun i y => b.linear i * y) x a, sum_bump hk (fun i y => b.square i * (y * y)) x a]
  have h4 : ∑ i ∈ Finset.range n, ∑ j ∈ Finset.range i, (b.pair i j).getD 0 *
      ((if i = k then a else x i) * (if j = k then a else x j)) =
      ∑ i ∈ Finset.range n, ∑ j ∈ Finset.range i, (b.pair i j).getD 0 * (x i * x j) +
        (a - x k) * ∑ w ∈ Finset.range n, x w * (b.pair k w).getD 0 := by linarith
  rw [h4]
  ring

theorem undo_set (cs : List (Nat × Rat)) : ∀ (l : List Rat) (i : Nat) (a b : Rat),
    (cs.foldl QState.undo (l.set i a)).set i b = (cs.foldl QState.undo l).set i b := by
  induction cs with
  | nil => intro l i a b; simp
  | cons c cs ih =>
    intro l i a b
    simp only [List.foldl_cons, QState.undo]
    by_cases e : c.1 = i
    · subst e; simp
    · rw [List.set_comm _ _ (Ne.symm e), ih]

/-- Where the loop over the diff stands. -/
structure QLoop (q : QModel) (b : Biases) (com tgt : List Rat) (done : List Nat) (s : QState) : Prop where
  length : s.previous.length = q.n
  value : s.value = b.value q.n (fun i => s.previous.getD i 0)
  old : s.valueOld = b.value q.n (fun i => com.getD i 0)
  back : s.changes.foldl QState.undo s.previous = com
  either : ∀ i : Nat, s.previous[i]? = com[i]? ∨ s.previous[i]? = tgt[i]?
  reached : ∀ i ∈ done, s.previous[i]? = tgt[i]?

theorem getD_set {x : List Rat} {k : Nat} (hk : k < x.length) (a : Rat) :
    (fun i => (x.set k a).getD i 0) = fun i => if i = k then a else x.getD i 0 := by
  funext i
  simp only [List.getD_eq_getElem?_getD, List.getElem?_set]
  by_cases c : i = k
  · subst c; simp [hk]
  · simp [c, Ne.symm c]

theorem QLoop.step {q : QModel} {b : Biases} (h : QInv q b) (hs : ∀ u v, b.pair u v = b.pair v u)
    (hd : ∀ u, b.pair u u = none) {com tgt : List Rat} (hc : com.length = q.n) (ht : tgt.length = q.n)
    {done : List Nat} {s : QState} (hl : QLoop q b com tgt done s) {u : Update Rat} (hu : u.index < q.n) :
    ∃ s', quadraticStep q tgt s u = .ok s' ∧ QLoop q b com tgt (u.index :: done) s' := by
  have g1 : tgt[u.index]? = some (tgt.getD u.index 0) := by simp [List.getD_eq_getElem?_getD, ht, hu]
  have g2 : s.previous[u.index]? = some (s.previous.getD u.index 0) := by
    simp [List.getD_eq_getElem?_getD, hl.length, hu]
  simp only [quadraticStep, g1, g2]
  by_cases c : tgt.getD u.index 0 = s.previous.getD u.index 0
  · refine ⟨s, by rw [if_neg (by simpa using c)], hl.length, hl.value, hl.old, hl.back, hl.either, ?_⟩
    intro i hi
    rcases List.mem_cons.1 hi with rfl | hi
    · rw [g1, g2, c]
    · exact hl.reached i hi
  · have hsq : q.getQuadratic u.index u.index = .ok (b.square u.index) := by
      simp only [QModel.getQuadratic, guardUB_true (show u.index < q.n ∧ u.index < q.n from ⟨hu, hu⟩),
        Res.ok_bind, if_true, h.square _ hu]
    simp only [ne_eq, c, not_false_eq_true, if_true, hsq, Res.ok_bind, h.effective hl.length hu]
    refine ⟨_, rfl, ?_⟩
    constructor
    · simp [hl.length]
    · simp only [hl.value]
      rw [getD_set (by rw [hl.length]; exact hu), value_bump b hs hd hu]
    · exact hl.old
    · simp only [List.foldl_append, List.foldl_cons, List.foldl_nil]
      have hcom : com[u.index]? = some (s.previous.getD u.index 0) := by
        rcases hl.either u.index with e | e
        · rw [← e, g2]
        · rw [g1, g2] at e; exact absurd (Option.some.inj e).symm c
      conv_lhs => rw [QState.undo]
      rw [undo_set, hl.back]
      refine List.ext_getElem? (fun i => ?_)
      rw [List.getElem?_set]
      split_ifs with e1 e2
      · subst e1; exact hcom.symm
      · subst e1; rw [List.getElem?_eq_none (by omega)]
      · rfl
    · intro i
      rw [List.getElem?_set]
      split_ifs with e1 e2
      · subst e1; right; exact g1.symm
      · rw [hl.length] at e2; exact absurd (e1 ▸ hu) e2
      · exact hl.either i
    · intro i hi
      rw [List.getElem?_set]
      split_ifs with e1 e2
      · subst e1; exact g1.symm
      · rw [hl.length] at e2; exact absurd (e1 ▸ hu) e2
      · rcases List.mem_cons.1 hi with rfl | hi
        · exact absurd rfl e1
        · exact hl.reached i hi

theorem QLoop.run {q : QModel} {b : Biases} (h : QInv q b) (hs : ∀ u v, b.pair u v = b.pair v u)
    (hd : ∀ u, b.pair u u = none) {com tgt : List Rat} (hc : com.length = q.n) (ht : tgt.length = q.n)
    (d : List (Update Rat)) : ∀ {done : List Nat} {s : QState}, QLoop q b com tgt done s →
    (∀ u ∈ d, u.index < q.n) →
    ∃ s', d.foldlM (quadraticStep q tgt) s = .ok s' ∧
      QLoop q b com tgt ((d.map Update.index).reverse ++ done) s' := by
  induction d with
  | nil => intro done s hl _; exact ⟨s, rfl, by simpa using hl⟩
  | cons u d ih =>
    intro done s hl hu
    obtain ⟨s1, e1, h1⟩ := hl.step h hs hd hc ht (hu u List.mem_cons_self)
    obtain ⟨s2, e2, h2⟩ := ih h1 (fun w hw => hu w (List.mem_cons_of_mem _ hw))
    exact ⟨s2, by simp only [List.foldlM_cons, e1, Res.ok_bind, e2], by simpa using h2⟩

/-- The quadratic model symbol keeps the symbol contract. -/
def quadraticContract {q : QModel} {b : Biases} (h : QInv q b) (hs : ∀ u v, b.pair u v = b.pair v u)
    (hd : ∀ u, b.pair u u = none) :
    Contract ArrRel [] (quadraticNode q (fun x => b.value q.n (fun i => x.getD i 0))) where
  Clean := fun s xs => ∃ x : Arr Rat, xs = [x] ∧
    s = ⟨b.value q.n (fun i => x.data.getD i 0), b.value q.n (fun i => x.data.getD i 0), x.data, []⟩
  init := by
    rintro xs ⟨x, rfl, hx, hw⟩
    have hsh : x.shape = [(q.n : Int)] := by
      simpa [quadraticShape, Res.bind_eq_ok, guardThrow_eq_ok] using hx
    have hl : x.data.length = q.n := by
      simp only [Arr.WF, Arr.dynamic, hsh, dynamicShape, show ¬ ((q.n : Int) < 0) by omega] at hw
      simpa using hw
    exact ⟨_, by simp only [h.computeValue hl, Res.ok_bind], x, rfl, rfl⟩
  view := by rintro s xs ⟨x, rfl, rfl⟩; rfl
  diff := by rintro s xs ⟨x, rfl, rfl⟩; simp [QState.diff]
  propagate := by
    rintro s xs ins ys ⟨x, rfl, rfl⟩ ⟨_, hx, hsx, hwx⟩ hy hi
    obtain ⟨d, y, rfl, rfl, hr⟩ := hi.one
    obtain ⟨_, hy, hsy, hwy⟩ := hy
    cases hx; cases hy
    have shp : ∀ {z : Arr Rat}, quadraticShape q z.shape = .ok [] → z.WF →
        z.data.length = q.n ∧ z.dynamic = false := by
      intro z hz hw
      have hsh : z.shape = [(q.n : Int)] := by
        simpa [quadraticShape, Res.bind_eq_ok, guardThrow_eq_ok] using hz
      refine ⟨?_, by simp [Arr.dynamic, hsh, dynamicShape]⟩
      simp only [Arr.WF, Arr.dynamic, hsh, dynamicShape, show ¬ ((q.n : Int) < 0) by omega] at hw
      simpa using hw
    obtain ⟨lx, dx⟩ := shp hsx hwx
    obtain ⟨ly, dy⟩ := shp hsy hwy
    obtain ⟨_, hin, hkeep⟩ := replays_changes hr.replays (hr.fixed dx)
    have l0 : QLoop q b x.data y.data [] ⟨b.value q.n (fun i => x.data.getD i 0),
        b.value q.n (fun i => x.data.getD i 0), x.data, []⟩ :=
      ⟨lx, rfl, rfl, rfl, fun i => .inl rfl, by simp⟩
    obtain ⟨s', e, l⟩ := l0.run h hs hd lx ly d (fun u hu => by have := hin u hu; omega)
    have hend : s'.previous = y.data := by
      refine List.ext_getElem? (fun i => ?_)
      by_cases c : ∃ u ∈ d, u.index = i
      · obtain ⟨u, hu, rfl⟩ := c
        exact l.reached _ (by simp only [List.append_nil, List.mem_reverse, List.mem_map]; exact ⟨u, hu, rfl⟩)
      · rcases l.either i with e | e
        · rw [e, hkeep i (fun u hu hi => c ⟨u, hu, hi⟩)]
        · exact e
    refine ⟨s', ?_, ?_, ⟨rfl, ?_, ?_⟩, ⟨_, rfl, y, rfl, ?_⟩, ⟨_, rfl, x, rfl, ?_⟩⟩
    · by_cases c : d = []
      · subst c
        simp only [List.foldlM_nil] at e
        simp only [if_true]; exact e
      · simp only [if_neg c, e]
    · simp only [l.value, hend, List.headD_cons]
    · simp only [QState.diff, List.headD_cons]
      rw [← hend, ← l.value, ← l.old]
      split_ifs with c
      · simp [Replays, Update.step, Update.change]
      · have : s'.valueOld = s'.value := by simpa using c
        simp [Replays, this]
    · intro _ u hu
      simp only [QState.diff] at hu
      split_ifs at hu with c
      · simp at hu; subst hu; rfl
      · simp at hu
    · simp only [QState.commit, l.value, hend]
    · simp only [QState.revert, l.old, l.back]

/-- C34, value.  For a model built by any sequence of requests, the symbol's value is, after every history
of changes of its operand, the sum of the linear terms, the square terms and one term per interacting
pair; changes are reported exactly and reverted. -/
theorem C34_value (n : Nat) (ops : List BiasOp) (ho : ∀ op ∈ ops, op.inRange n) :
    ∃ q, QModel.build n ops = .ok q ∧
      Incremental ArrRel [] (quadraticNode q (fun x => (biasesOf ops).value n (fun i => x.getD i 0)))
        (fun xs => ⟨[], [(biasesOf ops).value n (fun i => (xs.headD ⟨[], []⟩).data.getD i 0)]⟩)
        (fun xs => ∃ x : Arr Rat, xs = [x] ∧ x.shape = [(n : Int)] ∧ x.WF) := by
  obtain ⟨q, e, rfl, h⟩ := build_inv n ho
  refine ⟨q, e, ?_⟩
  have := (quadraticContract h (biasesOf_symm ops) (biasesOf_diag ops)).incremental
  simpa [quadraticShape, Res.bind_eq_ok, guardThrow_eq_ok] using this

/-- C34.  The symbol is rejected unless its operand is one-dimensional with one element per variable. -/
theorem C34_shape (q : QModel) (shape : List Int) :
    quadraticShape q shape = if shape = [(q.n : Int)] then .ok [] else .throw := by
  unfold quadraticShape guardThrow
  split_ifs <;> rfl

/-! ## Export -/

theorem mem_of_alook {ps : List (Nat × Rat)} {v : Nat} {b : Rat} (h : alook ps v = some b) : (v, b) ∈ ps := by
  induction ps with
  | nil => simp [alook] at h
  | cons p ps ih =>
    rw [alook] at h
    split_ifs at h with c
    · cases h; subst c; exact List.mem_cons_self
    · exact List.mem_cons_of_mem _ (ih h)

theorem alook_of_mem {ps : List (Nat × Rat)} (hs : Sorted ps) {v : Nat} {b : Rat} (h : (v, b) ∈ ps) :
    alook ps v = some b := by
  induction ps with
  | nil => simp at h
  | cons p ps ih =>
    obtain ⟨h1, h2⟩ := List.pairwise_cons.1 hs
    rcases List.mem_cons.1 h with rfl | h
    · simp [alook]
    · have := h1 _ h
      rw [alook, if_neg (by simp only at this; omega)]
      exact ih h2 h

theorem mem_exportRow {n i : Nat} {N : Neighborhood} {look : Nat → Option Rat} (h : NInv n i N look)
    (t : Nat × Nat × Rat) :
    t ∈ exportRow i N ↔ t.1 = i ∧ i < t.2.1 ∧ t.2.1 < n ∧ look t.2.1 = some t.2.2 := by
  obtain ⟨ps, hp, hs, hb, hr, hl⟩ := h.ex
  obtain ⟨a, j, c⟩ := t
  simp only [exportRow, hp.zip, List.mem_map, List.mem_filter, decide_eq_true_eq, Prod.mk.injEq]
  constructor
  · rintro ⟨⟨j', c'⟩, ⟨hm, hlt⟩, rfl, rfl, rfl⟩
    exact ⟨rfl, hlt, (hr _ hm).1, by rw [← hl]; exact alook_of_mem hs hm⟩
  · rintro ⟨rfl, hlt, _, hlk⟩
    exact ⟨(j, c), ⟨mem_of_alook (by rw [hl]; exact hlk), hlt⟩, rfl, rfl, rfl⟩

theorem nodup_exportRow {n i : Nat} {N : Neighborhood} {look : Nat → Option Rat} (h : NInv n i N look) :
    (exportRow i N).Pairwise (fun s t => s.2.1 < t.2.1) := by
  obtain ⟨ps, hp, hs, hb, hr, hl⟩ := h.ex
  simp only [exportRow, hp.zip]
  rw [List.pairwise_map]
  exact List.Pairwise.filter _ hs

/-- 1 if present. -/
def present (o : Option Rat) : Nat := if o.isSome then 1 else 0

theorem length_pairs {m : Nat} {ps : List (Nat × Rat)} (hs : Sorted ps) (hm : ∀ p ∈ ps, p.1 < m) :
    ps.length = ∑ w ∈ Finset.range m, present (alook ps w) := by
  induction ps with
  | nil => simp [alook, present]
  | cons p ps ih =>
    obtain ⟨h1, h2⟩ := List.pairwise_cons.1 hs
    have hn : alook ps p.1 = none := alook_none (fun q hq => by have := h1 q hq; omega)
    have e : ∀ w ∈ Finset.range m, present (alook (p :: ps) w) =
        (if w = p.1 then 1 else 0) + present (alook ps w) := by
      intro w _
      by_cases c : w = p.1
      · subst c; simp [alook, hn, present]
      · simp [alook, c, Ne.symm c]
    rw [Finset.sum_congr rfl e, Finset.sum_add_distrib, Finset.sum_ite_eq' (Finset.range m) p.1,
      if_pos (Finset.mem_range.2 (hm p List.mem_cons_self)), List.length_cons,
      ih h2 (fun q hq => hm q (List.mem_cons_of_mem _ hq))]
    omega

theorem alook_filter' {ps : List (Nat × Rat)} {w : Nat} (f : Nat → Bool) :
    alook (ps.filter (fun p => f p.1)) w = if f w then alook ps w else none := by
  induction ps with
  | nil => simp [alook]
  | cons p ps ih =>
    by_cases c : f p.1
    · simp only [List.filter_cons, c, if_true, alook, ih]
      by_cases e : p.1 = w
      · subst e; simp [c]
      · simp [e]
    · rw [List.filter_cons, if_neg c, ih, alook]
      by_cases e : p.1 = w
      · subst e; simp [c]
      · simp [e]

theorem NInv.counts {n u : Nat} {N : Neighborhood} {look : Nat → Option Rat} (h : NInv n u N look) :
    N.smaller = ∑ w ∈ Finset.range n, (if w < u then present (look w) else 0) ∧
    (exportRow u N).length = ∑ w ∈ Finset.range n, (if u < w then present (look w) else 0) := by
  obtain ⟨ps, hp, hs, hb, hr, hl⟩ := h.ex
  constructor
  · rw [hb, below, length_pairs (m := n) (List.Pairwise.filter _ hs)
      (fun p hp => (hr p (List.mem_of_mem_filter hp)).1)]
    refine Finset.sum_congr rfl (fun w _ => ?_)
    rw [alook_filter' (fun i => decide (i < u)), hl]
    by_cases c : w < u <;> simp [c, present]
  · simp only [exportRow, hp.zip, List.length_map]
    rw [length_pairs (m := n) (List.Pairwise.filter _ hs)
      (fun p hp => (hr p (List.mem_of_mem_filter hp)).1)]
    refine Finset.sum_congr rfl (fun w _ => ?_)
    rw [alook_filter' (fun i => decide (u < i)), hl]
    by_cases c : u < w <;> simp [c, present]

theorem sum_adj {l : List Neighborhood} {n : Nat} (hl : l.length = n) (g : Nat → Neighborhood → Nat)
    (c : Nat → Nat) (h : ∀ u, u < n → ∃ N, l[u]? = some N ∧ g u N = c u) :
    (l.zipIdx.map (fun p => g p.2 p.1)).sum = ∑ u ∈ Finset.range n, c u := by
  have e : l.zipIdx.map (fun p => g p.2 p.1) = (List.range n).map c := by
    refine List.ext_getElem? (fun i => ?_)
    by_cases hi : i < n
    · obtain ⟨N, hN, hc⟩ := h i hi
      simp [List.getElem?_zipIdx, hN, hi, hc]
    · rw [List.getElem?_eq_none (by simp; omega), List.getElem?_eq_none (by simp; omega)]
  rw [e]
  clear h e hl
  induction n with
  | zero => rfl
  | succ n ih => rw [List.range_succ, List.map_append, List.sum_append, ih, Finset.sum_range_succ]; simp

theorem QInv.export {q : QModel} {b : Biases} (h : QInv q b) (hs : ∀ u v, b.pair u v = b.pair v u) :
    q.exportQuadratic = .ok (q.adj.zipIdx.flatMap (fun p => exportRow p.2 p.1)) ∧
    (q.adj.zipIdx.flatMap (fun p => exportRow p.2 p.1)).length = q.numInteractions := by
  have e : (q.adj.zipIdx.flatMap (fun p => exportRow p.2 p.1)).length = q.numInteractions := by
    rw [List.length_flatMap, numInteractions]
    have h1 := sum_adj h.adj_length (fun u N => (exportRow u N).length)
      (fun u => ∑ w ∈ Finset.range q.n, (if u < w then present (b.pair u w) else 0))
      (fun u hu => by obtain ⟨N, hN, hi⟩ := h.adj u hu; exact ⟨N, hN, hi.counts.2⟩)
    have h2 := sum_adj h.adj_length (fun u N => N.smaller)
      (fun u => ∑ w ∈ Finset.range q.n, (if w < u then present (b.pair u w) else 0))
      (fun u hu => by obtain ⟨N, hN, hi⟩ := h.adj u hu; exact ⟨N, hN, hi.counts.1⟩)
    have h3 : (q.adj.zipIdx.map (fun p => p.1.smaller)).sum = (q.adj.map Neighborhood.smaller).sum := by
      congr 1
      refine List.ext_getElem? (fun i => ?_)
      simp only [List.getElem?_map, List.getElem?_zipIdx, Option.map_map]
      rfl
    rw [h1, ← h3, h2, Finset.sum_comm]
    refine Finset.sum_congr rfl (fun u _ => Finset.sum_congr rfl (fun w _ => ?_))
    rw [hs]
  exact ⟨by simp only [exportQuadratic, guardUB_true e, Res.ok_bind], e⟩

/-- C34, export.  The list of interactions a built model gives out contains exactly the interacting
pairs, each once, the smaller variable first, with its bias; its length is the number of interactions. -/
theorem C34_export (n : Nat) (ops : List BiasOp) (ho : ∀ op ∈ ops, op.inRange n) :
    ∃ q ts, QModel.build n ops = .ok q ∧ q.exportQuadratic = .ok ts ∧ ts.length = q.numInteractions ∧
      (ts.map (fun t => (t.1, t.2.1))).Nodup ∧
      ∀ u v b, (u, v, b) ∈ ts ↔ u < v ∧ v < n ∧ (biasesOf ops).pair u v = some b := by
  obtain ⟨q, e, rfl, h⟩ := build_inv n ho
  obtain ⟨e1, e2⟩ := h.export (biasesOf_symm ops)
  have hrow : ∀ i N, q.adj[i]? = some N → i < q.n ∧ NInv q.n i N ((biasesOf ops).pair i) := by
    intro i N hN
    have hi : i < q.n := by
      rw [← h.adj_length]
      exact (List.getElem?_eq_some_iff.1 hN).1
    obtain ⟨N', hN', hi'⟩ := h.adj i hi
    rw [hN] at hN'; cases hN'
    exact ⟨hi, hi'⟩
  refine ⟨q, _, e, e1, e2, ?_, ?_⟩
  · have key : (q.adj.zipIdx.flatMap (fun p => exportRow p.2 p.1)).Pairwise
        (fun s t => s.1 < t.1 ∨ (s.1 = t.1 ∧ s.2.1 < t.2.1)) := by
      rw [List.pairwise_flatMap]
      constructor
      · rintro ⟨N, i⟩ hm
        obtain ⟨_, hi⟩ := hrow i N (List.mk_mem_zipIdx_iff_getElem?.1 hm)
        refine (nodup_exportRow hi).imp_of_mem ?_
        intro s t hs ht hlt
        right
        exact ⟨((mem_exportRow hi s).1 hs).1.trans ((mem_exportRow hi t).1 ht).1.symm, hlt⟩
      · have hz : q.adj.zipIdx.Pairwise (fun s t => s.2 < t.2) := by
          have : (q.adj.zipIdx.map Prod.snd).Pairwise (· < ·) := by
            rw [List.zipIdx_map_snd]
            exact List.pairwise_lt_range'
          rwa [List.pairwise_map] at this
        refine hz.imp_of_mem ?_
        rintro ⟨N, i⟩ ⟨M, j⟩ hN hM hlt s hs t ht
        left
        obtain ⟨_, hi⟩ := hrow i N (List.mk_mem_zipIdx_iff_getElem?.1 hN)
        obtain ⟨_, hj⟩ := hrow j M (List.mk_mem_zipIdx_iff_getElem?.1 hM)
        rw [((mem_exportRow hi s).1 hs).1, ((mem_exportRow hj t).1 ht).1]
        exact hlt
    rw [List.Nodup, List.pairwise_map]
    refine key.imp ?_
    rintro s t hst heq
    simp only [Prod.mk.injEq] at heq
    omega
  · intro u v b
    simp only [List.mem_flatMap, Prod.exists]
    constructor
    · rintro ⟨N, i, hm, ht⟩
      obtain ⟨hi, hinv⟩ := hrow i N (List.mk_mem_zipIdx_iff_getElem?.1 hm)
      obtain ⟨h1, h2, h3, h4⟩ := (mem_exportRow hinv _).1 ht
      simp only at h1 h2 h3 h4
      subst h1
      exact ⟨h2, h3, h4⟩
    · rintro ⟨h1, h2, h3⟩
      obtain ⟨N, hN, hinv⟩ := h.adj u (by omega)
      exact ⟨N, u, List.mk_mem_zipIdx_iff_getElem?.2 hN, (mem_exportRow hinv _).2 ⟨rfl, h1, h2, h3⟩⟩

/-! ## A concrete model -/

/-- Three variables, set and added biases, a square and interactions in both orders. -/
def quadOps : List BiasOp :=
  [.addLinear 0 2, .setLinear 0 1, .addLinear 2 (-3), .setQuadratic 2 0 5, .addQuadratic 0 2 (-1),
   .addQuadratic 1 2 7, .addQuadratic 1 1 (1/2)]

example : ∀ op ∈ quadOps, op.inRange 3 := by decide

example : (do
    let q ← QModel.build 3 quadOps
    let a ← q.getQuadratic 0 2
    let b ← q.getQuadratic 2 0
    let c ← q.getQuadratic 1 1
    let d ← q.getQuadratic 0 1
    let l ← q.getLinear 0
    .ok [a, b, c, d, l] : Res (List Rat)) = .ok [4, 4, 1/2, 0, 1] := by decide +kernel

example : (do
    let q ← QModel.build 3 quadOps
    q.exportQuadratic : Res (List (Nat × Nat × Rat))) = .ok [(0, 2, 4), (1, 2, 7)] := by decide +kernel

/-- An operand [2, 3, -1]; a reverted change to [2, 0, 5] and an accepted one, with a repeated index, to
[0, 3, 1]. -/
def quadRounds : List (Round (Arr Rat) (List (Update Rat))) :=
  [⟨[(⟨[3], [2, 0, 5]⟩, [.change 1 3 0, .change 2 (-1) 5])], false⟩,
   ⟨[(⟨[3], [0, 3, 1]⟩, [.change 2 (-1) 5, .change 0 2 0, .change 2 5 1])], true⟩]

example : Legal ArrRel (fun xs => xs.map Arr.shape = [[3]]) [⟨[3], [2, 3, -1]⟩] quadRounds
    [⟨[3], [0, 3, 1]⟩] := by decide +kernel

example : (do
    let q ← QModel.build 3 quadOps
    (quadraticNode q (fun _ => 0)).after [⟨[3], [2, 3, -1]⟩] quadRounds) =
    .ok (⟨[], [-3 + 9/2 + 21]⟩, []) := by decide +kernel

end Verif
