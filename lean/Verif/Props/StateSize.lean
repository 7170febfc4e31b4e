import Verif.Lemmas.StateSize
import Verif.Props.Programs

set_option linter.unusedSectionVars false
set_option linter.unusedSimpArgs false
set_option linter.unusedVariables false

/-!
# C60: `state_size`
-/

namespace Verif

open Graph PyModel Script

/-- What an array symbol shows has the shape that the symbol declares. -/
theorem Script.Made.single_shape {s : Script} (hs : s.Made) {i : Nat} (hi : i < s.length) (hr : (s.row i).Regular) {v : Val}
    (h : v.map Arr.shape = (s.row i).out.shapes ∧ ∀ a ∈ v, a.WF) : (single v).shape = (s.row i).out.shape ∧ (single v).WF := by
  have hne : (s.row i).out.shapes ≠ [] := by
    obtain ⟨sizes, _, _, _, how⟩ := hs.how hi
    cases how with
    | kind _ _ _ hm ho => rw [ho]; exact make_ne_nil hm
    | basic _ _ _ _ _ _ ho => rw [ho]; simp
    | advanced _ _ _ _ _ ho => rw [ho]; simp
    | permutation _ ho => rw [ho]; simp
  cases v with
  | nil => exact absurd h.1.symm hne
  | cons a v =>
    refine ⟨?_, h.2 a (by simp)⟩
    unfold Info.shape Kind.shape1
    rw [← h.1]
    rfl

/-- C60: in everything that can be seen of a model that a supported program makes, the elements of an array symbol of fixed size take
exactly as many bytes as `state_size` says, and those of a symbol of varying size that does not depend on slices not more. -/
theorem C60_partial {p : Program} {M : Generated} (hp : p.run = .ok M) {T : Nat → Prop} (h : M.rows.Supported T) {m : PyModel}
    (hm : PyModel.new.run M.ops = .ok m) {vals : Nat → Val} (hv : M.Visible m vals) {i : Nat} (hi : i < M.rows.length)
    (ha : (M.rows.row i).built.pyClass.isArray = true) :
    (dynamicShape (M.rows.row i).out.shape = false → M.rows.stateSize i = .ok (8 * (single (vals i)).data.length)) ∧
    (M.rows.Unsliced i → ∀ n, M.rows.stateSize i = .ok n → 8 * ((single (vals i)).data.length : Int) ≤ n) := by
  have hmade : M.rows.Made := (Ready.facts hp h hm hv).1
  obtain ⟨e1, e2⟩ := hmade.single_shape hi (h.regular i hi) (C40_program_shapes_partial hp h hm hv i hi)
  constructor
  · intro hd
    unfold stateSize
    rw [if_neg (by rw [ha]; simp), if_pos hd]
    unfold Arr.WF at e2
    have hdyn : (single (vals i)).dynamic = false := by
      unfold Arr.dynamic
      rw [e1]
      exact hd
    rw [hdyn] at e2
    simp only [Bool.false_eq_true, if_false] at e2
    rw [← e1, ← e2]
    congr 1
    omega
  · intro hu n hn
    obtain ⟨hdes, hsub⟩ := C16_program_partial hp h hm hv i hu
    unfold stateSize at hn
    rw [if_neg (by rw [ha]; simp)] at hn
    have hd : dynamicShape (M.rows.row i).out.shape = true := by cases hu <;> assumption
    rw [if_neg (by rw [hd]; simp)] at hn
    obtain ⟨info, hinfo, hn⟩ := Res.bind_eq_ok.1 hn
    have key : ∀ b ∈ info.max, ((single (vals i)).data.length : Int) ≤ b := by
      unfold followedSize at hinfo
      split_ifs at hinfo
      · obtain ⟨t, ht, _, hmax⟩ := hsub M.rows.length
        rw [ht] at hinfo
        cases hinfo
        exact hmax
      · cases hinfo
        exact hdes.max
    cases hb : info.max with
    | none => rw [hb] at hn; cases hn
    | some b =>
      have := key b (by rw [hb]; rfl)
      rw [hb] at hn
      cases hn
      omega

/-- C60: `state_size` is defined for arrays of fixed size, for symbols that are no arrays, and for symbols of varying size that depend on
sets, lists and disjoint lists through binary operations and indexing.
Missing: other symbols of varying size (false: `C60_unary_fails`). -/
theorem C60_defined_partial {p : Program} {M : Generated} (hp : p.run = .ok M) {T : Nat → Prop} (h : M.rows.Supported T) {m : PyModel}
    (hm : PyModel.new.run M.ops = .ok m) {vals : Nat → Val} (hv : M.Visible m vals) {i : Nat} (hi : i < M.rows.length)
    (hs : (M.rows.row i).built.pyClass.isArray = false ∨ dynamicShape (M.rows.row i).out.shape = false ∨ M.rows.Sized i) :
    ∃ n, M.rows.stateSize i = .ok n := by
  have hmade : M.rows.Made := (Ready.facts hp h hm hv).1
  unfold stateSize
  by_cases ha : (M.rows.row i).built.pyClass.isArray = false
  · exact ⟨0, by rw [if_pos ha]⟩
  rw [if_neg ha]
  by_cases hd : dynamicShape (M.rows.row i).out.shape = false
  · exact ⟨_, by rw [if_pos hd]⟩
  rw [if_neg hd]
  have hz : M.rows.Sized i := by
    rcases hs with h | h | h
    · exact absurd h ha
    · exact absurd h hd
    · exact h
  obtain ⟨hu, hsays⟩ := hz.says hmade
  obtain ⟨_, hsub⟩ := C16_program_partial hp h hm hv i hu
  have fin : ∀ {info : SizeInfo}, info.max.isSome = true →
      ∃ n, sizeOfMax info.max = .ok n := by
    intro info hmax
    obtain ⟨b, hb⟩ := Option.isSome_iff_exists.1 hmax
    exact ⟨b * 8, by rw [hb]; rfl⟩
  unfold followedSize
  rcases hsays with ⟨h1, b, h2, _⟩ | ⟨b, h1, h2, h3⟩
  · rw [if_neg (by rw [h1]; simp)]
    rw [Res.ok_bind]
    exact fin (by rw [h2]; rfl)
  · rw [if_pos (by rw [h1]; simp; omega)]
    obtain ⟨t, ht, _⟩ := hsub M.rows.length
    rw [ht, Res.ok_bind]
    exact fin (h3.found hmade _ (by omega) h1 ht)

theorem stateSizes_bound {s : Script} {vals : Nat → Val} : ∀ (is : List Nat),
    (∀ i ∈ is, ∃ n, s.stateSize i = .ok n ∧ 8 * ((single (vals i)).data.length : Int) ≤ n) →
    ∃ n, s.stateSizes is = .ok n ∧ bytes vals is ≤ n := by
  intro is
  induction is with
  | nil => intro _; exact ⟨0, rfl, le_refl _⟩
  | cons i is ih =>
    intro h
    obtain ⟨n, h1, h2⟩ := h i (by simp)
    obtain ⟨k, h3, h4⟩ := ih fun j hj => h j (by simp [hj])
    unfold stateSizes at h3 ⊢
    obtain ⟨l, h5, h6⟩ := Res.bind_eq_ok.1 h3
    refine ⟨n + k, ?_, ?_⟩
    · rw [List.mapM_cons, h1, Res.ok_bind, h5, Res.ok_bind]
      cases h6
      rfl
    · unfold bytes at h4 ⊢
      rw [List.map_cons, List.sum_cons]
      omega

/-- C60 for models all of whose symbols are arrays of fixed or known greatest size: the model's `state_size` is defined and not less than
the number of bytes of all arrays together, in everything that can be seen.
Missing: symbols that are no arrays (`C60_disjoint_fails`) and those of unknown size (`C60_unary_fails`, `C60_rows_fails`,
`C60_slice_fails`). -/
theorem C60_model_partial {p : Program} {M : Generated} (hp : p.run = .ok M) {T : Nat → Prop} (h : M.rows.Supported T) {m : PyModel}
    (hm : PyModel.new.run M.ops = .ok m) {vals : Nat → Val} (hv : M.Visible m vals)
    (hs : ∀ i < M.rows.length, (M.rows.row i).built.pyClass.isArray = true ∧
      (dynamicShape (M.rows.row i).out.shape = false ∨ M.rows.Sized i)) :
    (∃ n, M.rows.modelStateSize = .ok n ∧ bytes vals (List.range M.rows.length) ≤ n) ∧
    ∃ n, M.rows.decisionStateSize = .ok n ∧ bytes vals ((List.range M.rows.length).filter fun i => (M.rows.row i).decision) ≤ n := by
  have hmade : M.rows.Made := (Ready.facts hp h hm hv).1
  have key : ∀ i < M.rows.length, ∃ n, M.rows.stateSize i = .ok n ∧ 8 * ((single (vals i)).data.length : Int) ≤ n := by
    intro i hi
    obtain ⟨n, hn⟩ := C60_defined_partial hp h hm hv hi (.inr (hs i hi).2)
    obtain ⟨c1, c2⟩ := C60_partial hp h hm hv hi (hs i hi).1
    rcases (hs i hi).2 with hd | hz
    · rw [c1 hd] at hn
      cases hn
      exact ⟨_, c1 hd, le_refl _⟩
    · exact ⟨n, hn, c2 (hz.says hmade).1 n hn⟩
  exact ⟨stateSizes_bound _ fun i hi => key i (List.mem_range.1 hi),
    stateSizes_bound _ fun i hi => key i (List.mem_range.1 (List.mem_filter.1 hi).1)⟩

/-! ## Examples -/

namespace StateSizeExample

open ProgramExample

/-- A set `x` of numbers below three, an array `c`, `c[x]`, `c[x] + 1` and its sum. -/
def program : Program :=
  ⟨[(.kind (.collection 3 0 3), []), (.kind (.constant ⟨[3], [5, 6, 7]⟩), []), (.kind (.constant ⟨[], [1]⟩), []),
    (.advanced [true], [1, 0]), (.kind (.binary .add), [3, 2]), (.kind (.reduce .sum 0), [4])], some 5, []⟩

def isAdvanced : Built → Bool
  | .advanced idx _ _ => idx.all Option.isSome
  | _ => false

def isSum : Built → Bool
  | .kind (.binary .add) => true
  | _ => false

/-- The hypotheses of `C60_model_partial` are met: `x`, `c[x]` and `c[x] + 1` have at most three elements, and 8 * (3 + 3 + 1 + 3 + 3 + 1)
bytes are said to be enough; with two elements chosen, 88 are needed. -/
example : ∃ p M m T vals, Program.run p = .ok M ∧ M.rows.Supported T ∧ PyModel.new.run M.ops = .ok m ∧ M.Visible m vals ∧
    (∀ i < M.rows.length, (M.rows.row i).built.pyClass.isArray = true ∧
      (dynamicShape (M.rows.row i).out.shape = false ∨ M.rows.Sized i)) ∧
    M.rows.modelStateSize = .ok 112 ∧ M.rows.decisionStateSize = .ok 24 ∧ bytes vals (List.range M.rows.length) = 88 := by
  obtain ⟨M, m, h1, h2, h3, h4⟩ := of_initialised (p := program) (x := [])
    (test := fun M _ => checks M && isSet 3 (M.rows.row 0).built && isAdvanced (M.rows.row 3).built && isSum (M.rows.row 4).built &&
      decide (M.rows.length = 6) && decide (∀ i : Nat, i < 6 → (M.rows.row i).built.pyClass.isArray = true) &&
      decide (∀ i : Nat, i < 6 → (dynamicShape (M.rows.row i).out.shape = true ↔ i = 0 ∨ i = 3 ∨ i = 4)) &&
      decide ((M.rows.sizes 3).array = some 0 ∧ (M.rows.sizes 4).array = some 3 ∧
        M.rows.modelStateSize = .ok 112 ∧ M.rows.decisionStateSize = .ok 24 ∧
        (evaluated M.rows chosen 6).map (fun v => (single v).data.length) = [2, 3, 1, 2, 2, 1])) (by decide +kernel)
  simp only [Bool.and_eq_true, decide_eq_true_eq] at h4
  obtain ⟨⟨⟨⟨⟨⟨⟨hc, b0⟩, b3⟩, b4⟩, hl⟩, harr⟩, hdyn⟩, a3, a4, z1, z2, hev⟩ := h4
  obtain ⟨vals, hv, hvals⟩ := visible h1 h2 hc h3
  have d0 := (hdyn 0 (by omega)).2 (by simp)
  have d3 := (hdyn 3 (by omega)).2 (by simp)
  have d4 := (hdyn 4 (by omega)).2 (by simp)
  have s0 : M.rows.Sized 0 := by
    unfold isSet at b0
    split at b0
    · rename_i k lo hi e
      obtain ⟨_, _, rfl⟩ := of_decide_eq_true b0
      exact .set (by omega) e d0 (by decide)
    · cases b0
  have s3 : M.rows.Sized 3 := by
    unfold isAdvanced at b3
    split at b3
    · rename_i idx P base e
      exact .advanced (by omega) e d3 (by simpa using b3) a3 s0
    · cases b3
  have s4 : M.rows.Sized 4 := by
    unfold isSum at b4
    split at b4
    · rename_i e
      exact .binary (by omega) e d4 a4 s3
    · cases b4
  refine ⟨_, M, m, _, vals, h1, supported h1 hc, h2, hv, ?_, z1, z2, ?_⟩
  · intro i hi
    rw [hl] at hi
    refine ⟨harr i hi, ?_⟩
    by_cases hd : dynamicShape (M.rows.row i).out.shape = true
    · rcases (hdyn i hi).1 hd with rfl | rfl | rfl
      · exact .inr s0
      · exact .inr s3
      · exact .inr s4
    · exact .inl (by simpa using hd)
  · rw [hl] at hvals ⊢
    rw [hvals, List.map_map] at hev
    unfold bytes
    have : (List.range 6).map (fun i => 8 * ((single (vals i)).data.length : Int)) =
        (((List.range 6).map ((fun v => (single v).data.length) ∘ vals)).map fun n : Nat => 8 * (n : Int)) := by
      rw [List.map_map]; rfl
    rw [this, hev]
    decide

end StateSizeExample

/-! ## What goes wrong -/

open ProgramExample

/-- C60 is false for `A[x, :]`: with the set {0, 1, 2} and rows of two elements it shows six elements, 48 bytes, but `state_size` says
24. -/
theorem C60_rows_fails : ∃ M m A f, rowsSum.run = .ok M ∧ PyModel.new.run M.ops = .ok m ∧
    M.rows.Accepts m.g A ∧ initAll m.g M.rows.sem A PState.empty = .ok f ∧
    shows 2 (.ok f) = some [1, 1, 1, 1, 1, 1] ∧ M.rows.stateSize 2 = .ok 24 := by
  obtain ⟨M, m, h1, h2, h3, h4⟩ := of_initialised (p := rowsSum)
    (x := (List.range 3).map fun k : Nat => (k : Rat)) (test := fun M r => isSet 3 (M.rows.row 0).built && isOk r &&
      decide (shows 2 r = some [1, 1, 1, 1, 1, 1] ∧ M.rows.stateSize 2 = .ok 24)) (by decide +kernel)
  simp only [Bool.and_eq_true, decide_eq_true_eq] at h4
  obtain ⟨f, hf⟩ := of_isOk h4.1.2
  have h5 := h4.2
  rw [hf] at h5
  exact ⟨M, m, _, f, h1, h2, set_accepted (n := 3) (by decide) h3 h4.1.1, hf, h5⟩

/-- `x[::2]` of a set `x` of numbers below three. -/
def everySecond : Program :=
  ⟨[(.kind (.collection 3 0 3), []), (.basic [.slice none none (some 2)], [0])], none, []⟩

/-- C60 is false for slices: `x[::2]` of the set {0, 1, 2} has two elements, 16 bytes, but half of three is rounded down and `state_size`
says 8. -/
theorem C60_slice_fails : ∃ M m A f, everySecond.run = .ok M ∧ PyModel.new.run M.ops = .ok m ∧
    M.rows.Accepts m.g A ∧ initAll m.g M.rows.sem A PState.empty = .ok f ∧
    shows 1 (.ok f) = some [0, 2] ∧ M.rows.stateSize 1 = .ok 8 := by
  obtain ⟨M, m, h1, h2, h3, h4⟩ := of_initialised (p := everySecond)
    (x := (List.range 3).map fun k : Nat => (k : Rat)) (test := fun M r => isSet 3 (M.rows.row 0).built && isOk r &&
      decide (shows 1 r = some [0, 2] ∧ M.rows.stateSize 1 = .ok 8)) (by decide +kernel)
  simp only [Bool.and_eq_true, decide_eq_true_eq] at h4
  obtain ⟨f, hf⟩ := of_isOk h4.1.2
  have h5 := h4.2
  rw [hf] at h5
  exact ⟨M, m, _, f, h1, h2, set_accepted (n := 3) (by decide) h3 h4.1.1, hf, h5⟩

/-- C60 is false for `-x` of a set `x`: it does not say how large it can be, and `state_size` raises an exception, for the symbol and for
the whole model. -/
theorem C60_unary_fails : ∃ M m A f, Program.run ⟨[(.kind (.collection 3 0 3), []), (.kind (.unary .negative), [0])], none, []⟩ = .ok M ∧
    PyModel.new.run M.ops = .ok m ∧ M.rows.Accepts m.g A ∧ initAll m.g M.rows.sem A PState.empty = .ok f ∧
    shows 1 (.ok f) = some [0, -1, -2] ∧ M.rows.stateSize 1 = .throw ∧ M.rows.modelStateSize = .throw := by
  obtain ⟨M, m, h1, h2, h3, h4⟩ := of_initialised
    (p := ⟨[(.kind (.collection 3 0 3), []), (.kind (.unary .negative), [0])], none, []⟩)
    (x := (List.range 3).map fun k : Nat => (k : Rat)) (test := fun M r => isSet 3 (M.rows.row 0).built && isOk r &&
      decide (shows 1 r = some [0, -1, -2] ∧ M.rows.stateSize 1 = .throw ∧ M.rows.modelStateSize = .throw)) (by decide +kernel)
  simp only [Bool.and_eq_true, decide_eq_true_eq] at h4
  obtain ⟨f, hf⟩ := of_isOk h4.1.2
  have h5 := h4.2
  rw [hf] at h5
  exact ⟨M, m, _, f, h1, h2, set_accepted (n := 3) (by decide) h3 h4.1.1, hf, h5⟩

/-- C60 is false for disjoint bit sets and disjoint lists: these decisions are said to take no bytes, whatever their sizes. -/
theorem C60_disjoint_fails {P N : Int} (hP : 0 ≤ P) (hN : 1 ≤ N) :
    ∃ s, Script.run [(.kind (.disjointBitSets P N), [])] = .ok s ∧ (s.row 0).out.shapes = List.replicate N.toNat [P] ∧
      (s.row 0).decision = true ∧ s.decisionStateSize = .ok 0 := by
  have h1 : ¬ P < 0 := by omega
  have h2 : ¬ N < 1 := by omega
  have hmk : Kind.make (.disjointBitSets P N) [] = .ok (List.replicate N.toNat [P]) := by
    simp only [Kind.make]
    rw [guardThrow_true h1, Res.ok_bind, guardThrow_true h2, Res.ok_bind]
  have hc : Kind.construct (.disjointBitSets P N) 0 (Script.sizes []) [] [] = .ok (.kind (.disjointBitSets P N),
      ⟨List.replicate N.toNat [P], Kind.claimFrom (.disjointBitSets P N) (Script.sizes []) [],
        Kind.sizeFrom (.disjointBitSets P N) 0 (List.replicate N.toNat [P]) [] [], Kind.value (.disjointBitSets P N)⟩) := by
    unfold Kind.construct
    rw [show Kind.asks (.disjointBitSets P N) = false from rfl]
    simp only [Bool.false_eq_true, if_false, Res.ok_bind, List.map_nil]
    rw [guardThrow_true (show Kind.rangeChecks (.disjointBitSets P N) [] from trivial), Res.ok_bind, hmk, Res.ok_bind]
  refine ⟨[⟨.kind (.disjointBitSets P N), [], [], ⟨List.replicate N.toNat [P], Kind.claimFrom (.disjointBitSets P N) (Script.sizes []) [],
    Kind.sizeFrom (.disjointBitSets P N) 0 (List.replicate N.toNat [P]) [] [], Kind.value (.disjointBitSets P N)⟩⟩], ?_, rfl, rfl, rfl⟩
  show (do let r ← Script.add [] (.kind (.disjointBitSets P N)) []; Res.ok r.1) >>= (fun s => List.foldlM _ s []) = _
  unfold Script.add
  rw [guardUB_true (by simp), Res.ok_bind]
  show ((Kind.construct (.disjointBitSets P N) 0 (Script.sizes []) [] [] >>= _) >>= _) >>= _ = _
  rw [hc]
  rfl

/-- Three sets of five elements each. -/
example : ∃ s, Script.run [(.kind (.disjointBitSets 5 3), [])] = .ok s ∧ (s.row 0).out.shapes = [[5], [5], [5]] ∧
    (s.row 0).decision = true ∧ s.decisionStateSize = .ok 0 := C60_disjoint_fails (by decide) (by decide)

end Verif
