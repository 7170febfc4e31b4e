import Verif.Lemmas.Equality
import Verif.Props.Programs

set_option linter.unusedSectionVars false
set_option linter.unusedSimpArgs false
set_option linter.unusedVariables false

/-!
# C59: `equals`
-/

namespace Verif

open Graph PyModel Script

/-- C59: what `equals` says, for symbols of two models (`same = false`) or of one model (`same = true`): whether they are alike, that is,
the same expression as far as classes, shapes and constants go. -/
theorem C59_exact {ps : List (Term × List Nat)} {s t : Script} (hs : Script.run ps = .ok s) {same : Bool} (h : same = true → s = t)
    (i j : Nat) : s.equals t same i j = true ↔ Alike s t i j :=
  equalsTo_iff (made_of_run hs) h (i + 1) i j (Nat.lt_succ_self i)

/-- C59: `equals` is an equivalence relation, in one model and across models.  In particular, a symbol equals itself and its copy in any
model made in the same way. -/
theorem C59_equivalence {ps qs rs : List (Term × List Nat)} {s t u : Script} (hs : Script.run ps = .ok s) (ht : Script.run qs = .ok t)
    (hu : Script.run rs = .ok u) (same : Bool) (i j k : Nat) :
    s.equals s same i i = true ∧
    (s.equals t false i j = t.equals s false j i ∧ s.equals s true i j = s.equals s true j i) ∧
    (s.equals t false i j = true → t.equals u false j k = true → s.equals u false i k = true) ∧
    (s.equals s true i j = true → s.equals s true j k = true → s.equals s true i k = true) := by
  have e := fun {a b : Script} {l : List (Term × List Nat)} (h : Script.run l = .ok a) i j => C59_exact h (t := b) (same := false) (by simp) i j
  have e' := fun i j => C59_exact hs (t := s) (same := true) (fun _ => rfl) i j
  refine ⟨(C59_exact hs (fun _ => rfl) i i).2 (Alike.refl (made_of_run hs) i), ⟨?_, ?_⟩, ?_, ?_⟩
  · rw [Bool.eq_iff_iff, e hs, e ht]
    exact ⟨Alike.symm, Alike.symm⟩
  · rw [Bool.eq_iff_iff, e', e']
    exact ⟨Alike.symm, Alike.symm⟩
  · rw [e hs, e ht, e hs]
    exact Alike.trans
  · rw [e', e', e']
    exact Alike.trans

/-- C59: symbols that are equal have equal values in all states of their models in which the decisions that stand in the same places have
equal values.
Missing: symbols that are not plain (false: `C59_index_fails`, `C59_axis_fails`); without the condition on decisions it is false
(`C59_decisions_fails`). -/
theorem C59_partial {ps qs : List (Term × List Nat)} {s t : Script} (hs : Script.run ps = .ok s) (ht : Script.run qs = .ok t)
    {same : Bool} (h : same = true → s = t) {A B vals vals' : Nat → Val} (hf : s.Follows A vals) (hf' : t.Follows B vals') (root : Rat → Rat)
    {i j : Nat} (hi : i < s.length) (hj : j < t.length) (he : s.equals t same i j = true)
    (hp : ∀ p q, Matched s t i j p q → (s.row p).built.Plain root ∧ (t.row q).built.Plain root)
    (hd : ∀ p q, Matched s t i j p q → (s.row p).decision = true → vals p = vals' q) : vals i = vals' j :=
  alike_value (made_of_run hs) (made_of_run ht) hf hf' root i j hi hj ((C59_exact hs h i j).1 he) hp hd

/-- C59 in one model that a supported program makes: equal symbols that consist of plain symbols and have the same decisions in the same
places represent the same quantity: they show the same, whatever can be seen. -/
theorem C59_quantity_partial {p : Program} {M : Generated} (hp : p.run = .ok M) {T : Nat → Prop} (h : M.rows.Supported T) {m : PyModel}
    (hm : PyModel.new.run M.ops = .ok m) {vals : Nat → Val} (hv : M.Visible m vals) (root : Rat → Rat)
    {i j : Nat} (hi : i < M.rows.length) (hj : j < M.rows.length) (he : M.rows.equals M.rows true i j = true)
    (hpl : ∀ p q, Matched M.rows M.rows i j p q → (M.rows.row p).built.Plain root ∧ (M.rows.row q).built.Plain root)
    (hd : ∀ p q, Matched M.rows M.rows i j p q → (M.rows.row p).decision = true → p = q) : vals i = vals j := by
  have hf := (C40_program_partial hp h hm hv).2.1
  have hr := (Program.run_inv hp).1
  exact C59_partial hr hr (fun _ => rfl) hf hf root hi hj he hpl fun p q h1 h2 => by rw [hd p q h1 h2]

/-! ## Examples -/

namespace EqualityExample

/-- Test the symbols that the steps make. -/
def ran (steps : List (Term × List Nat)) (test : Script → Bool) : Bool :=
  match Script.run steps with
  | .ok s => test s
  | _ => false

theorem of_ran {steps : List (Term × List Nat)} {test : Script → Bool} (h : ran steps test = true) :
    ∃ s, Script.run steps = .ok s ∧ test s = true := by
  unfold ran at h
  split at h
  · rename_i s hs; exact ⟨s, hs, h⟩
  · cases h

/-- Decisions `x` and `y`, a constant, `x + 1` and `y + 1`, the first once more; a square array with sums along both axes; a list and its
first elements. -/
def steps : List (Term × List Nat) :=
  [(.kind (.integer [2] (some 0) (some 9)), []), (.kind (.integer [2] (some 0) (some 9)), []), (.kind (.constant ⟨[2], [1, 1]⟩), []),
   (.kind (.binary .add), [0, 2]), (.kind (.binary .add), [1, 2]), (.kind (.constant ⟨[2], [1, 1]⟩), []), (.kind (.binary .add), [0, 5]),
   (.kind (.constant ⟨[2, 2], [1, 2, 3, 4]⟩), []), (.kind (.partialSum 0 0), [7]), (.kind (.partialSum 1 0), [7]),
   (.basic [.at 0], [0]), (.basic [.at 1], [0])]

/-- A state of the model. -/
def value : Nat → Val := fun i =>
  [[⟨[2], [3, 4]⟩], [⟨[2], [5, 6]⟩], [⟨[2], [1, 1]⟩], [⟨[2], [4, 5]⟩], [⟨[2], [6, 7]⟩], [⟨[2], [1, 1]⟩], [⟨[2], [4, 5]⟩],
   [⟨[2, 2], [1, 2, 3, 4]⟩], [⟨[2], [4, 6]⟩], [⟨[2], [3, 7]⟩], [⟨[], [3]⟩], [⟨[], [4]⟩]].getD i []

/-- The decisions are integers from 0 to 9. -/
def boundsCheck (s : Script) : Bool :=
  match (s.row 0).built, (s.row 1).built with
  | .kind (.integer [2] (some 0) (some 9)), .kind (.integer [2] (some 0) (some 9)) =>
    decide (∀ i < s.length, (s.row i).decision = true → i = 0 ∨ i = 1)
  | _, _ => false

theorem chosen_of {s : Script} (h : boundsCheck s = true) : s.Chosen value := by
  unfold boundsCheck at h
  split at h
  · rename_i h0 h1
    have h := of_decide_eq_true h
    intro i hi hd
    have key : ∀ {i : Nat} {data : List Rat}, (s.row i).built = .kind (.integer [2] (some 0) (some 9)) → value i = [⟨[2], data⟩] → data.length = 2 →
        (∀ v ∈ data, ∃ k : Int, v = k ∧ 0 ≤ k ∧ k ≤ 9) → (s.row i).node.ok [value i] := by
      intro i data hb hv hl hk
      unfold Row.node
      rw [hb, hv]
      refine ⟨data, rfl, hl, fun v hv => ?_⟩
      obtain ⟨k, rfl, h1, h2⟩ := hk v hv
      exact ⟨k, rfl, h1, h2⟩
    rcases h i hi hd with rfl | rfl
    · refine key h0 rfl rfl ?_
      intro v hv
      simp only [List.mem_cons, List.not_mem_nil, or_false] at hv
      rcases hv with rfl | rfl
      · exact ⟨3, rfl, by decide, by decide⟩
      · exact ⟨4, rfl, by decide, by decide⟩
    · refine key h1 rfl rfl ?_
      intro v hv
      simp only [List.mem_cons, List.not_mem_nil, or_false] at hv
      rcases hv with rfl | rfl
      · exact ⟨5, rfl, by decide, by decide⟩
      · exact ⟨6, rfl, by decide, by decide⟩
  · cases h

/-- The model with its state. -/
theorem stated {test : Script → Bool} (h : ran steps (fun s => boundsCheck s && test s &&
    decide (∀ i < s.length, value i = (s.row i).node.f (if (s.row i).decision then [value i] else (s.row i).ops.map value))) = true) :
    ∃ s, Script.run steps = .ok s ∧ s.Chosen value ∧ s.Follows value value ∧ test s = true := by
  obtain ⟨s, hs, h⟩ := of_ran h
  simp only [Bool.and_eq_true, decide_eq_true_eq] at h
  exact ⟨s, hs, chosen_of h.1.1, h.2, h.1.2⟩

/-- The hypotheses of `C59_partial` are met by `x + 1` and a second `x + 1` in one model: `x` stands in the same place. -/
example : ∃ s, Script.run steps = .ok s ∧ s.Follows value value ∧ 6 < s.length ∧ s.equals s true 3 6 = true ∧ s.equals s true 3 0 = false ∧
    (∀ p q, Matched s s 3 6 p q → (s.row p).built.Plain id ∧ (s.row q).built.Plain id) ∧
    ∀ p q, Matched s s 3 6 p q → (s.row p).decision = true → p = q := by
  obtain ⟨s, h1, _, h2, h3⟩ := stated (test := fun s => decide (6 < s.length ∧ s.equals s true 3 6 = true ∧ s.equals s true 3 0 = false ∧
    (s.row 3).ops = [0, 2] ∧ (s.row 6).ops = [0, 5] ∧ (s.row 0).ops = [] ∧ (s.row 2).ops = [] ∧
    (∀ i ∈ ([0, 2, 3, 5, 6] : List Nat), (s.row i).built.pyClass ∈ [PyClass.integerVariable, .constant, .binary .add]) ∧ (s.row 3).decision = false ∧
    (s.row 2).decision = false)) (by decide +kernel)
  obtain ⟨k1, k2, k3, o3, o6, o0, o2, hc, d3, d2⟩ := of_decide_eq_true h3
  have hm : ∀ p q, Matched s s 3 6 p q → p = 3 ∧ q = 6 ∨ p = 0 ∧ q = 0 ∨ p = 2 ∧ q = 5 := by
    intro p q h
    induction h with
    | root => exact .inl ⟨rfl, rfl⟩
    | @step p q k a b _ ha hb ih =>
      rcases ih with ⟨rfl, rfl⟩ | ⟨rfl, rfl⟩ | ⟨rfl, rfl⟩
      · rw [o3] at ha
        rw [o6] at hb
        match k, ha, hb with
        | 0, ha, hb => simp at ha hb; exact .inr (.inl ⟨ha.symm, hb.symm⟩)
        | 1, ha, hb => simp at ha hb; exact .inr (.inr ⟨ha.symm, hb.symm⟩)
        | k + 2, ha, _ => simp at ha
      · rw [o0] at ha; simp at ha
      · rw [o2] at ha; simp at ha
  have plain : ∀ {b : Built}, b.pyClass ∈ [PyClass.integerVariable, .constant, .binary .add] → b.Plain id := by
    intro b h
    cases b with
    | kind k =>
      cases k with
      | unary op => cases op <;> simp [Built.pyClass] at h
      | collection n lo hi => simp only [Built.pyClass] at h; split_ifs at h <;> simp at h
      | _ => trivial
    | _ => simp [Built.pyClass] at h
  refine ⟨s, h1, h2, k1, k2, k3, ?_, ?_⟩
  · intro p q h
    rcases hm p q h with ⟨rfl, rfl⟩ | ⟨rfl, rfl⟩ | ⟨rfl, rfl⟩
    · exact ⟨plain (hc 3 (by simp)), plain (hc 6 (by simp))⟩
    · exact ⟨plain (hc 0 (by simp)), plain (hc 0 (by simp))⟩
    · exact ⟨plain (hc 2 (by simp)), plain (hc 5 (by simp))⟩
  · intro p q h hd
    rcases hm p q h with ⟨rfl, rfl⟩ | ⟨rfl, rfl⟩ | ⟨rfl, rfl⟩
    · rw [d3] at hd; cases hd
    · rfl
    · rw [d2] at hd; cases hd

open ProgramExample in
/-- The hypotheses of `C59_quantity_partial` are met by a model with a set `x` in which `x.sum()` is made twice. -/
example : ∃ p M m T vals, Program.run p = .ok M ∧ M.rows.Supported T ∧ PyModel.new.run M.ops = .ok m ∧ M.Visible m vals ∧
    2 < M.rows.length ∧ M.rows.equals M.rows true 1 2 = true ∧
    (∀ p q, Matched M.rows M.rows 1 2 p q → (M.rows.row p).built.Plain id ∧ (M.rows.row q).built.Plain id) ∧
    ∀ p q, Matched M.rows M.rows 1 2 p q → (M.rows.row p).decision = true → p = q := by
  obtain ⟨M, m, h1, h2, h3, h4⟩ := of_initialised
    (p := ⟨[(.kind (.collection 3 0 3), []), (.kind (.reduce .sum 0), [0]), (.kind (.reduce .sum 0), [0])], some 1, []⟩) (x := [])
    (test := fun M _ => checks M && decide (2 < M.rows.length ∧ M.rows.equals M.rows true 1 2 = true ∧
      (M.rows.row 1).ops = [0] ∧ (M.rows.row 2).ops = [0] ∧ (M.rows.row 0).ops = [] ∧ (M.rows.row 1).decision = false) &&
      (match (M.rows.row 0).built, (M.rows.row 1).built, (M.rows.row 2).built with
        | .kind (.collection ..), .kind (.reduce .sum i), .kind (.reduce .sum j) => decide (i = 0 ∧ j = 0)
        | _, _, _ => false)) (by decide +kernel)
  simp only [Bool.and_eq_true, decide_eq_true_eq] at h4
  obtain ⟨⟨hc, k1, k2, o1, o2, o0, d1⟩, hb⟩ := h4
  obtain ⟨vals, hv, _⟩ := visible h1 h2 hc h3
  have hm : ∀ p q, Matched M.rows M.rows 1 2 p q → p = 1 ∧ q = 2 ∨ p = 0 ∧ q = 0 := by
    intro p q h
    induction h with
    | root => exact .inl ⟨rfl, rfl⟩
    | @step p q k a b _ ha hb ih =>
      rcases ih with ⟨rfl, rfl⟩ | ⟨rfl, rfl⟩
      · rw [o1] at ha
        rw [o2] at hb
        match k, ha, hb with
        | 0, ha, hb => simp at ha hb; exact .inr ⟨ha.symm, hb.symm⟩
        | k + 1, ha, _ => simp at ha
      · rw [o0] at ha; simp at ha
  have hpl : (M.rows.row 0).built.Plain id ∧ (M.rows.row 1).built.Plain id ∧ (M.rows.row 2).built.Plain id := by
    split at hb
    · rename_i e0 e1 e2
      obtain ⟨rfl, rfl⟩ := of_decide_eq_true hb
      rw [e0, e1, e2]
      exact ⟨trivial, rfl, rfl⟩
    · cases hb
  refine ⟨_, M, m, _, vals, h1, supported h1 hc, h2, hv, k1, k2, ?_, ?_⟩
  · intro p q h
    rcases hm p q h with ⟨rfl, rfl⟩ | ⟨rfl, rfl⟩
    · exact ⟨hpl.2.1, hpl.2.2⟩
    · exact ⟨hpl.1, hpl.1⟩
  · intro p q h hd
    rcases hm p q h with ⟨rfl, rfl⟩ | ⟨rfl, rfl⟩
    · rw [d1] at hd; cases hd
    · rfl

end EqualityExample

/-! ## What goes wrong -/

open EqualityExample in
/-- C59 is false: two different decisions of one model are equal, although they can have different values, and so are `x + 1` and
`y + 1`. -/
theorem C59_decisions_fails : ∃ s vals, Script.run steps = .ok s ∧ s.Chosen vals ∧ s.Follows vals vals ∧ s.equals s true 0 1 = true ∧
    vals 0 ≠ vals 1 ∧ s.equals s true 3 4 = true ∧ vals 3 ≠ vals 4 := by
  obtain ⟨s, h1, h2, h3, h4⟩ := stated (test := fun s => decide (s.equals s true 0 1 = true ∧ s.equals s true 3 4 = true)) (by decide +kernel)
  have h4 := of_decide_eq_true h4
  exact ⟨s, value, h1, h2, h3, h4.1, by decide +kernel, h4.2, by decide +kernel⟩

open EqualityExample in
/-- C59 is false for indexing: `x[0]` and `x[1]` are equal. -/
theorem C59_index_fails : ∃ s vals, Script.run steps = .ok s ∧ s.Chosen vals ∧ s.Follows vals vals ∧
    (s.row 10).ops = [0] ∧ (s.row 11).ops = [0] ∧ s.equals s true 10 11 = true ∧ vals 10 = [⟨[], [3]⟩] ∧ vals 11 = [⟨[], [4]⟩] := by
  obtain ⟨s, h1, h2, h3, h4⟩ := stated (test := fun s => decide ((s.row 10).ops = [0] ∧ (s.row 11).ops = [0] ∧ s.equals s true 10 11 = true))
    (by decide +kernel)
  have h4 := of_decide_eq_true h4
  exact ⟨s, value, h1, h2, h3, h4.1, h4.2.1, h4.2.2, rfl, rfl⟩

open EqualityExample in
/-- C59 is false for sums along an axis: `A.sum(axis=0)` and `A.sum(axis=1)` of a square matrix are equal, even if `A` is constant. -/
theorem C59_axis_fails : ∃ s vals, Script.run steps = .ok s ∧ s.Chosen vals ∧ s.Follows vals vals ∧
    (s.row 8).ops = [7] ∧ (s.row 9).ops = [7] ∧ s.equals s true 8 9 = true ∧ vals 8 = [⟨[2], [4, 6]⟩] ∧ vals 9 = [⟨[2], [3, 7]⟩] := by
  obtain ⟨s, h1, h2, h3, h4⟩ := stated (test := fun s => decide ((s.row 8).ops = [7] ∧ (s.row 9).ops = [7] ∧ s.equals s true 8 9 = true))
    (by decide +kernel)
  have h4 := of_decide_eq_true h4
  exact ⟨s, value, h1, h2, h3, h4.1, h4.2.1, h4.2.2, rfl, rfl⟩

end Verif
