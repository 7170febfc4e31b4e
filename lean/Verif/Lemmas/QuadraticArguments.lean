import Verif.Lemmas.BiasValues
import Verif.Props.Quadratic
import Verif.Model.QuadraticArguments

/-! Helper lemmas: what quadratic models made from dictionaries and arrays of coordinates compute. -/

namespace Verif

theorem Biases.value_addSquare (b : Biases) {n v : Nat} (hv : v < n) (c : Rat) (x : Nat → Rat) :
    (b.onQuadratic v v fun a => a + c).value n x = b.value n x + c * (x v * x v) := by
  have h : ∑ i ∈ Finset.range n, (if i = v then b.square i + c else b.square i) * (x i * x i) =
      ∑ i ∈ Finset.range n, b.square i * (x i * x i) + c * (x v * x v) := by
    have : ∀ i ∈ Finset.range n, (if i = v then b.square i + c else b.square i) * (x i * x i) =
        b.square i * (x i * x i) + if i = v then c * (x v * x v) else 0 := by
      intro i _
      split_ifs with hi
      · subst hi; ring
      · ring
    rw [Finset.sum_congr rfl this, Finset.sum_add_distrib, Finset.sum_ite_eq', if_pos (Finset.mem_range.2 hv)]
  unfold Biases.value Biases.onQuadratic
  simp only [if_true]
  rw [h]
  ring

namespace BiasOp

/-- Requests that add. -/
def Adds : BiasOp → Prop
  | .addLinear _ _ => True
  | .addQuadratic _ _ _ => True
  | _ => False

/-- What a request adds to the linear bias of a variable. -/
def toLinear (v : Nat) : BiasOp → Rat
  | .addLinear w c => if w = v then c else 0
  | _ => 0

/-- What a request adds to the bias of a product. -/
def toQuadratic (u v : Nat) : BiasOp → Rat
  | .addQuadratic a b c => if (a = u ∧ b = v) ∨ (a = v ∧ b = u) then c else 0
  | _ => 0

end BiasOp

theorem biasesOf_adds {n : Nat} {ops : List BiasOp} (hr : ∀ op ∈ ops, op.inRange n) (ha : ∀ op ∈ ops, op.Adds) :
    (∀ x, (biasesOf ops).value n x = (ops.map (BiasOp.adds x)).sum) ∧
    (∀ v, (biasesOf ops).linear v = (ops.map (BiasOp.toLinear v)).sum) ∧
    ∀ u v, (biasesOf ops).quadratic u v = (ops.map (BiasOp.toQuadratic u v)).sum := by
  have : ∀ (ops : List BiasOp) (b : Biases), (∀ op ∈ ops, op.inRange n) → (∀ op ∈ ops, op.Adds) →
      (∀ x, (ops.foldl BiasOp.apply b).value n x = b.value n x + (ops.map (BiasOp.adds x)).sum) ∧
      (∀ v, (ops.foldl BiasOp.apply b).linear v = b.linear v + (ops.map (BiasOp.toLinear v)).sum) ∧
      ∀ u v, (ops.foldl BiasOp.apply b).quadratic u v = b.quadratic u v + (ops.map (BiasOp.toQuadratic u v)).sum := by
    intro ops
    induction ops with
    | nil =>
      intro b _ _
      simp
    | cons op ops ih =>
      intro b hr ha
      obtain ⟨i1, i2, i3⟩ := ih (op.apply b) (fun o ho => hr o (by simp [ho])) (fun o ho => ha o (by simp [ho]))
      have h1 := hr op (by simp)
      have h2 := ha op (by simp)
      simp only [List.foldl_cons, List.map_cons, List.sum_cons]
      cases op with
      | setLinear v c => exact h2.elim
      | setQuadratic u v c => exact h2.elim
      | addLinear w c =>
        refine ⟨fun x => ?_, fun v => ?_, fun u v => ?_⟩
        · rw [i1, BiasOp.apply, b.value_addLinear h1 c x, BiasOp.adds, add_assoc]
        · rw [i2, BiasOp.apply, Biases.onLinear, BiasOp.toLinear]
          simp only
          by_cases h : v = w
          · rw [if_pos h, if_pos h.symm, add_assoc]
          · rw [if_neg h, if_neg (Ne.symm h), zero_add]
        · rw [i3, show BiasOp.toQuadratic u v (.addLinear w c) = 0 from rfl, zero_add]
          rfl
      | addQuadratic a c w =>
        refine ⟨fun x => ?_, fun v => ?_, fun u v => ?_⟩
        · rw [i1, BiasOp.apply, BiasOp.adds, ← add_assoc]
          congr 1
          by_cases h : a = c
          · subst h
            exact b.value_addSquare h1.1 w x
          · exact b.value_addPair h1.1 h1.2 h w x
        · rw [i2, show BiasOp.toLinear v (.addQuadratic a c w) = 0 from rfl, zero_add, BiasOp.apply, Biases.onQuadratic]
          split_ifs <;> rfl
        · rw [i3, ← add_assoc]
          congr 1
          rw [BiasOp.apply, BiasOp.toQuadratic, Biases.onQuadratic, Biases.quadratic, Biases.quadratic]
          by_cases h : a = c
          · subst h
            rw [if_pos rfl]
            by_cases huv : u = v
            · subst huv
              simp only [if_true]
              by_cases hu : u = a
              · simp [hu]
              · rw [if_neg hu, if_neg (by omega), add_zero]
            · simp only [if_neg huv]
              rw [if_neg (by omega), add_zero]
          · rw [if_neg h]
            by_cases huv : u = v
            · subst huv
              simp only [if_true]
              rw [if_neg (by omega), add_zero]
            · simp only [if_neg huv]
              by_cases hc : (u = a ∧ v = c) ∨ (u = c ∧ v = a)
              · rw [if_pos hc, if_pos (by omega)]
                rfl
              · rw [if_neg hc, if_neg (by omega), add_zero]
  obtain ⟨h1, h2, h3⟩ := this ops Biases.zero hr ha
  refine ⟨fun x => ?_, fun v => ?_, fun u v => ?_⟩
  · unfold biasesOf
    rw [h1, Biases.value_zero, zero_add]
  · unfold biasesOf
    rw [h2]
    simp [Biases.zero]
  · unfold biasesOf
    rw [h3]
    simp [Biases.zero, Biases.quadratic]

/-- The sum of an array's elements times other numbers. -/
def weigh (l : List Rat) (y : Nat → Rat) : Rat := (l.zipIdx.map fun p => p.1 * y p.2).sum

theorem weigh_from (l : List Rat) (y : Nat → Rat) (k : Nat) :
    ((l.zipIdx k).map fun p => p.1 * y p.2).sum = weigh l fun i => y (i + k) := by
  unfold weigh
  rw [List.zipIdx_eq_map_add, List.map_map]
  congr 1
  refine List.map_congr_left fun p _ => ?_
  simp only [Function.comp, Nat.add_comm]

theorem weigh_cons (a : Rat) (l : List Rat) (y : Nat → Rat) : weigh (a :: l) y = a * y 0 + weigh l fun i => y (i + 1) := by
  unfold weigh
  rw [List.zipIdx_cons, List.map_cons, List.sum_cons, weigh_from]
  rfl

theorem weigh_modify (b : Rat) : ∀ (l : List Rat) (v : Nat) (y : Nat → Rat), v < l.length →
    weigh (l.modify v (· + b)) y = weigh l y + b * y v
  | [], v, y, h => by simp at h
  | a :: l, 0, y, _ => by
    rw [List.modify_zero_cons, weigh_cons, weigh_cons]
    ring
  | a :: l, v + 1, y, h => by
    rw [List.modify_succ_cons, weigh_cons, weigh_cons, weigh_modify b l v _ (by simpa using h)]
    ring

theorem weigh_zero (n : Nat) (y : Nat → Rat) : weigh (List.replicate n 0) y = 0 := by
  induction n generalizing y with
  | zero => rfl
  | succ n ih => rw [List.replicate_succ, weigh_cons, ih, zero_mul, add_zero]

theorem addItems_ok : ∀ (d : List (Int × Rat)) (l : List Rat), (∀ p ∈ d, 0 ≤ p.1 ∧ p.1 < l.length) →
    ∃ l', addItems l d = .ok l' ∧ l'.length = l.length ∧
      ∀ y, weigh l' y = weigh l y + (d.map fun p => p.2 * y p.1.toNat).sum
  | [], l, _ => ⟨l, rfl, rfl, fun y => by simp⟩
  | (v, b) :: d, l, h => by
    have hv := h (v, b) (by simp)
    obtain ⟨l', e, h1, h2⟩ := addItems_ok d (l.modify v.toNat (· + b)) (fun p hp => by
      rw [List.length_modify]
      exact h p (by simp [hp]))
    refine ⟨l', by rw [addItems, guardThrow_true hv, Res.ok_bind, e], by rw [h1, List.length_modify], fun y => ?_⟩
    rw [h2, weigh_modify b l v.toNat y (by have := hv.1; have := hv.2; simp only at *; omega), List.map_cons, List.sum_cons, add_assoc]

theorem addItems_throw : ∀ (d : List (Int × Rat)) (l : List Rat), ¬(∀ p ∈ d, 0 ≤ p.1 ∧ p.1 < l.length) → addItems l d = .throw
  | [], l, h => absurd (by simp) h
  | (v, b) :: d, l, h => by
    rw [addItems]
    by_cases hv : 0 ≤ v ∧ v < l.length
    · rw [guardThrow_true hv, Res.ok_bind, addItems_throw d]
      intro hd
      refine h fun p hp => ?_
      rcases List.mem_cons.1 hp with rfl | hp
      · exact hv
      · simpa [List.length_modify] using hd p hp
    · unfold guardThrow
      rw [if_neg hv]
      rfl

theorem toIntc_of {k : Int} (h : -2 ^ 31 ≤ k ∧ k < 2 ^ 31) : toIntc k = k := by
  unfold toIntc
  exact Int.bmod_eq_of_le (by omega) (by omega)

theorem loadedBiases_adds (binary : Bool) (l : List Rat) (ts : List (Int × Int × Rat)) :
    ∀ op ∈ Draft.loadedBiases binary l ts, op.Adds := by
  intro op hop
  unfold Draft.loadedBiases at hop
  rcases List.mem_append.1 hop with hop | hop
  · obtain ⟨p, _, rfl⟩ := List.mem_map.1 hop
    trivial
  · obtain ⟨t, _, rfl⟩ := List.mem_map.1 hop
    split_ifs <;> trivial

theorem loadedBiases_inRange {n : Nat} (binary : Bool) {l : List Rat} {ts : List (Int × Int × Rat)} (hl : l.length ≤ n)
    (ht : ∀ t ∈ ts, 0 ≤ t.1 ∧ t.1 < n ∧ 0 ≤ t.2.1 ∧ t.2.1 < n) : ∀ op ∈ Draft.loadedBiases binary l ts, op.inRange n := by
  intro op hop
  unfold Draft.loadedBiases at hop
  rcases List.mem_append.1 hop with hop | hop
  · obtain ⟨⟨b, i⟩, hp, rfl⟩ := List.mem_map.1 hop
    have := List.snd_lt_of_mem_zipIdx hp
    simp only [BiasOp.inRange] at *
    omega
  · obtain ⟨t, h, rfl⟩ := List.mem_map.1 hop
    have := ht t h
    split_ifs
    · simp only [BiasOp.inRange]
      omega
    · simp only [BiasOp.inRange]
      omega

theorem loadedBiases_sum (binary : Bool) (l : List Rat) (ts : List (Int × Int × Rat)) (f : BiasOp → Rat) :
    ((Draft.loadedBiases binary l ts).map f).sum = (l.zipIdx.map fun p => f (.addLinear p.2 p.1)).sum +
      (ts.map fun t => f (if binary ∧ t.1 = t.2.1 then .addLinear t.1.toNat t.2.2 else .addQuadratic t.1.toNat t.2.1.toNat t.2.2)).sum := by
  unfold Draft.loadedBiases
  rw [List.map_append, List.sum_append, List.map_map, List.map_map]
  rfl

end Verif
