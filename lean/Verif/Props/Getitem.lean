import Verif.Lemmas.GetitemNow

set_option linter.unusedSectionVars false
set_option linter.unusedSimpArgs false
set_option linter.unusedVariables false

/-!
# C58: `x[...]` is what NumPy's indexing gives
-/

namespace Verif

open Graph PyModel Script MixedIndex

/-- C58: `x` is an array symbol of fixed size in a model that a supported program makes, and the symbols that `x[...]` makes are part of
it.  Then the indices are valid, and whatever can be seen of the model, the new symbol shows what NumPy's `x[...]` gives for what `x` and
the index arrays show.
This includes `A[i, :][:, i]` and `A[:, i][i, :]` with a constant square matrix `A`, for which one symbol is made that computes both at once.
Missing: what `Script.Supported` excludes, `x` of varying size (see `C58_varying_partial`), and integers that are separated from index arrays by a slice
(`C58_layout_fails`), unless the index arrays have no dimensions. -/
theorem C58_partial {p : Program} {M : Generated} (hp : p.run = .ok M) {T : Nat → Prop} (h : M.rows.Supported T) {m : PyModel}
    (hm : PyModel.new.run M.ops = .ok m) {vals : Nat → Val} (hv : M.Visible m vals)
    {s s' : Script} {x j : Nat} {idx : List PyIndex} (hg : s.getitem x idx = .ok (s', j)) (hs : s' <+: M.rows)
    (hfixed : ∀ d ∈ (M.rows.row x).out.shape, 0 ≤ d)
    (hl : SameLayout (padded (idx.map PyIndex.mixed) (M.rows.row x).out.shape.length) ∨
      ∀ i ∈ PyIndex.symbols idx, (M.rows.row i).out.shape = []) :
    ∃ v ys, vals x = [v] ∧ (PyIndex.symbols idx).map vals = ys.map (fun y => [y]) ∧
      Ok v.shape (padded (idx.map PyIndex.mixed) v.shape.length) ∧
      IndexEntries (arrayAxes v.shape (padded (idx.map PyIndex.mixed) v.shape.length)) ys ∧
      vals j = [numpyIndex v.shape v.data (padded (idx.map PyIndex.mixed) v.shape.length) ys] := by
  obtain ⟨v, ys, h1, h2, h3, h4, _⟩ := getitem_picks hp h hm hv hg hs (.inr hfixed) hl
  exact ⟨v, ys, h1, h2, h3.ok, h3.entries, h4⟩

/-- C58 for arrays `x` of fixed and of varying size, in terms of the arrays as NumPy sees them: the open dimension of an array of varying
size is as long as the array is now.  What can be seen of the new symbol is what NumPy's `x[...]` gives, and NumPy does not raise an
exception.
Missing: as above. -/
theorem C58_varying_partial {p : Program} {M : Generated} (hp : p.run = .ok M) {T : Nat → Prop} (h : M.rows.Supported T) {m : PyModel}
    (hm : PyModel.new.run M.ops = .ok m) {vals : Nat → Val} (hv : M.Visible m vals)
    {s s' : Script} {x j : Nat} {idx : List PyIndex} (hg : s.getitem x idx = .ok (s', j)) (hs : s' <+: M.rows)
    (hl : SameLayout (padded (idx.map PyIndex.mixed) (M.rows.row x).out.shape.length) ∨
      ∀ i ∈ PyIndex.symbols idx, (M.rows.row i).out.shape = []) :
    ∃ (v : Arr Rat) (ys : List (Arr Rat)) (z : Arr Rat), vals x = [v] ∧ (PyIndex.symbols idx).map vals = ys.map (fun y => [y]) ∧
      vals j = [z] ∧ numpyGetitem v.present (idx.map PyIndex.mixed) (ys.map Arr.present) = some z.present :=
  getitem_now hp h hm hv hg hs hl

/-- C58 for `A[i, :][:, i]` and `A[:, i][i, :]` with orders `i` that `Script.Supported` excludes: if all symbols have the values that follow
from their operands' values, the symbol has the value of the second indexing.
Missing: that symbols show these values after any history of proposals; see C33 for the symbol alone. -/
theorem C58_permutation_partial {p : Program} {M : Generated} (hp : p.run = .ok M) {A vals : Nat → Val} (hf : M.rows.Follows A vals)
    (hshapes : ∀ i < M.rows.length, (vals i).map Arr.shape = (M.rows.row i).out.shapes ∧ ∀ a ∈ vals i, a.WF)
    {s s' : Script} {x j : Nat} {idx : List PyIndex} (hperm : s.permutes x idx ≠ none) (hg : s.getitem x idx = .ok (s', j))
    (hs : s' <+: M.rows) (hx : x < s.length) (hreg : (M.rows.row x).Regular) (hin : (M.rows.row x).InBounds vals) :
    ∃ v y, vals x = [v] ∧ (PyIndex.symbols idx).map vals = [[y]] ∧ v.shape.length = 2 ∧ idx.length = 2 ∧
      IndexEntries (arrayAxes v.shape (idx.map PyIndex.mixed)) [y] ∧ vals j = [numpyIndex v.shape v.data (idx.map PyIndex.mixed) [y]] := by
  obtain ⟨v, y, h1, h2, ⟨n, h3⟩, h4, h5, h6⟩ := (made_of_run (Program.run_inv hp).1).permutation_value hf hshapes hperm hg hs hx hreg hin
  exact ⟨v, y, h1, h2, by rw [h3]; rfl, h4, h5.entries, h6⟩

/-- Programs may use `x[...]`: it stands for further steps. -/
theorem C58_steps {steps : List (Term × List Nat)} {s s' : Script} {x j : Nat} {idx : List PyIndex} (h : Script.run steps = .ok s)
    (hg : s.getitem x idx = .ok (s', j)) : j < s'.length ∧ ∃ more, more ≠ [] ∧ Script.run (steps ++ more) = .ok s' := by
  have one : ∀ {steps : List (Term × List Nat)} {s s' : Script} {j : Nat} {u : Term} {ops : List Nat}, Script.run steps = .ok s →
      s.add u ops = .ok (s', j) → Script.run (steps ++ [(u, ops)]) = .ok s' := by
    intro steps s s' j u ops h hg
    unfold Script.run at h ⊢
    rw [List.foldlM_append, h, Res.ok_bind]
    simp only [List.foldlM_cons, List.foldlM_nil, hg, Res.ok_bind]
    rfl
  have last : ∀ {s s' : Script} {j : Nat} {u : Term} {ops : List Nat}, s.add u ops = .ok (s', j) → j < s'.length :=
    fun hg => (add_made hg (List.prefix_refl _)).1
  unfold Script.getitem at hg
  split at hg
  · exact ⟨last hg, _, by simp, one h hg⟩
  · unfold Script.getitemArray Script.basicIndexing Script.advancedIndexing at hg
    dsimp only at hg
    split at hg
    · obtain ⟨_, _, hg⟩ := Res.bind_eq_ok.1 hg
      exact ⟨last hg, _, by simp, one h hg⟩
    · split at hg
      · exact ⟨last hg, _, by simp, one h hg⟩
      · obtain ⟨r, _, hg⟩ := Res.bind_eq_ok.1 hg
        obtain ⟨b, hb, hg⟩ := Res.bind_eq_ok.1 hg
        obtain ⟨_, _, hb⟩ := Res.bind_eq_ok.1 hb
        have := one (one h hb) hg
        rw [List.append_assoc] at this
        exact ⟨last hg, _, by simp, this⟩

/-! ## Examples -/

namespace GetitemExample

open ProgramExample

/-- Run the steps, then `x[...]`, and test the symbols. -/
def after (steps : List (Term × List Nat)) (x : Nat) (idx : List PyIndex) (test : Script → Script → Nat → Bool) : Bool :=
  match Script.run steps with
  | .ok s => match s.getitem x idx with
    | .ok r => test s r.1 r.2
    | _ => false
  | _ => false

theorem of_after {steps : List (Term × List Nat)} {x : Nat} {idx : List PyIndex} {test : Script → Script → Nat → Bool}
    (h : after steps x idx test = true) : ∃ s s' j, Script.run steps = .ok s ∧ s.getitem x idx = .ok (s', j) ∧ test s s' j = true := by
  unfold after at h
  split at h
  · rename_i s hs
    split at h
    · rename_i r hr
      exact ⟨s, r.1, r.2, hs, hr, h⟩
    · cases h
  · cases h

/-- The model without objective and constraints is supported. -/
def fine (rows : Script) : Bool :=
  match PyModel.new.run (⟨rows, none, []⟩ : Generated).ops with
  | .ok m => decide (m.g.decisions = [0]) && checks ⟨rows, none, []⟩
  | _ => false

theorem seen {steps : List (Term × List Nat)} {s s' : Script} {x j : Nat} {idx : List PyIndex} (h : Script.run steps = .ok s)
    (hg : s.getitem x idx = .ok (s', j)) (hf : fine s' = true) :
    ∃ p M m vals, Program.run p = .ok M ∧ M.rows.Supported (fun _ => True) ∧ PyModel.new.run M.ops = .ok m ∧ M.Visible m vals ∧ M.rows = s' ∧
      ∀ i < s'.length, vals i = (evaluated s' chosen s'.length).getD i [] := by
  obtain ⟨_, more, _, hr⟩ := C58_steps h hg
  unfold fine at hf
  split at hf
  · rename_i m hm
    simp only [Bool.and_eq_true, decide_eq_true_eq] at hf
    have hp : Program.run ⟨steps ++ more, none, []⟩ = .ok ⟨s', none, []⟩ := by
      unfold Program.run
      simp only [hr, Res.ok_bind]
      rfl
    obtain ⟨vals, hv, hev⟩ := visible hp hm hf.2 hf.1
    refine ⟨_, _, m, vals, hp, supported hp hf.2, hm, hv, rfl, fun i hi => ?_⟩
    rw [hev, List.getD_eq_getElem?_getD, List.getElem?_map, List.getElem?_range hi]
    rfl
  · cases hf

/-- A set `x` of numbers below three and a matrix `A` with two rows. -/
def start : List (Term × List Nat) :=
  [(.kind (.collection 3 0 3), []), (.kind (.constant ⟨[2, 3], [0, 1, 2, 3, 4, 5]⟩), [])]

/-- The hypotheses of `C58_partial` are met by `A[-1, x]`, which shows 3, 5 when the set is {0, 2}. -/
example : ∃ p M m vals s s' j, Program.run p = .ok M ∧ M.rows.Supported (fun _ => True) ∧ PyModel.new.run M.ops = .ok m ∧ M.Visible m vals ∧
    Script.getitem s 1 [.int (-1), .symbol 0] = .ok (s', j) ∧ s' <+: M.rows ∧ (∀ d ∈ (M.rows.row 1).out.shape, 0 ≤ d) ∧
    SameLayout (padded ([.int (-1), .symbol 0].map PyIndex.mixed) (M.rows.row 1).out.shape.length) ∧ vals j = [⟨[-1], [3, 5]⟩] := by
  obtain ⟨s, s', j, h1, h2, h3⟩ := of_after (steps := start) (x := 1) (idx := [.int (-1), .symbol 0]) (test := fun _ s' j => fine s' &&
    decide (j < s'.length ∧ (s'.row 1).out.shape = [2, 3] ∧ (evaluated s' chosen s'.length).getD j [] = [⟨[-1], [3, 5]⟩])) (by decide +kernel)
  simp only [Bool.and_eq_true, decide_eq_true_eq] at h3
  obtain ⟨hf, hj, hsh, hev⟩ := h3
  obtain ⟨p, M, m, vals, k1, k2, k3, k4, k5, k6⟩ := seen h1 h2 hf
  refine ⟨p, M, m, vals, s, s', j, k1, k2, k3, k4, h2, by rw [k5], ?_, ?_, by rw [k6 j hj, hev]⟩
  · rw [k5, hsh]; decide
  · rw [k5, hsh]; decide

/-- And what NumPy gives is the same. -/
example : numpyIndex [2, 3] [0, 1, 2, 3, 4, 5] [.at (-1), .array] [⟨[-1], [0, 2]⟩] = ⟨[-1], [3, 5]⟩ := by decide +kernel

/-- The hypotheses of `C58_varying_partial` are met by `x[1:]`, which shows 2 when the set `x` is {0, 2}. -/
example : ∃ p M m vals s s' j, Program.run p = .ok M ∧ M.rows.Supported (fun _ => True) ∧ PyModel.new.run M.ops = .ok m ∧ M.Visible m vals ∧
    Script.getitem s 0 [.slice (some 1) none none] = .ok (s', j) ∧ s' <+: M.rows ∧ vals 0 = [⟨[-1], [0, 2]⟩] ∧
    (∀ i ∈ PyIndex.symbols [.slice (some 1) none none], (M.rows.row i).out.shape = []) ∧ vals j = [⟨[-1], [2]⟩] := by
  obtain ⟨s, s', j, h1, h2, h3⟩ := of_after (steps := start) (x := 0) (idx := [.slice (some 1) none none]) (test := fun _ s' j => fine s' &&
    decide (j < s'.length ∧ 0 < s'.length ∧ (evaluated s' chosen s'.length).getD 0 [] = [⟨[-1], [0, 2]⟩] ∧
      (evaluated s' chosen s'.length).getD j [] = [⟨[-1], [2]⟩])) (by decide +kernel)
  simp only [Bool.and_eq_true, decide_eq_true_eq] at h3
  obtain ⟨hf, hj, h0, hx, hev⟩ := h3
  obtain ⟨p, M, m, vals, k1, k2, k3, k4, k5, k6⟩ := seen h1 h2 hf
  exact ⟨p, M, m, vals, s, s', j, k1, k2, k3, k4, h2, by rw [k5], by rw [k6 0 h0, hx], by simp [PyIndex.symbols], by rw [k6 j hj, hev]⟩

/-- And what NumPy gives is the same. -/
example : numpyGetitem ⟨[2], [0, 2]⟩ [.slice (some 1) none none] [] = some ⟨[1], [2]⟩ := by decide +kernel

/-- In NumPy the dimensions of index arrays come first if a slice separates an integer from them. -/
example : numpyIndex [2, 2, 2] [0, 1, 2, 3, 4, 5, 6, 7] [.at 1, .all, .array] [⟨[3], [1, 0, 0]⟩] = ⟨[3, 2], [5, 7, 4, 6, 4, 6]⟩ := by
  decide +kernel

/-- A matrix and the order 2, 0, 1. -/
def square : List (Term × List Nat) :=
  [(.kind (.collection 3 0 3), []), (.kind (.constant ⟨[3, 3], [0, 1, 2, 3, 4, 5, 6, 7, 8]⟩), []), (.kind (.constant ⟨[3], [2, 0, 1]⟩), []),
    (.advanced [true, false], [1, 2])]

/-- The hypotheses of `C58_permutation_partial` are met: `A[i, :][:, i]` is made as one symbol; it has the value the second indexing gives. -/
example : ∃ s s' j, Script.run square = .ok s ∧ s.permutes 3 [.all, .symbol 2] ≠ none ∧ s.getitem 3 [.all, .symbol 2] = .ok (s', j) ∧
    (s'.row 3).Regular ∧ (evaluated s' chosen 5).getD j [] = [⟨[3, 3], [8, 6, 7, 2, 0, 1, 5, 3, 4]⟩] ∧
    numpyIndex [3, 3] [6, 7, 8, 0, 1, 2, 3, 4, 5] [.all, .array] [⟨[3], [2, 0, 1]⟩] = ⟨[3, 3], [8, 6, 7, 2, 0, 1, 5, 3, 4]⟩ := by
  obtain ⟨s, s', j, h1, h2, h3⟩ := of_after (steps := square) (x := 3) (idx := [.all, .symbol 2]) (test := fun s s' j =>
    decide (s.permutes 3 [.all, .symbol 2] ≠ none ∧ (s'.row 3).regularCheck = true ∧
      (evaluated s' chosen 5).getD j [] = [⟨[3, 3], [8, 6, 7, 2, 0, 1, 5, 3, 4]⟩])) (by decide +kernel)
  obtain ⟨h3, h4, h5⟩ := of_decide_eq_true h3
  exact ⟨s, s', j, h1, h3, h2, Row.regular_of_check h4, h5, by decide +kernel⟩

/-- A list `x` of three numbers, a matrix `A`, `A[x, :]`. -/
def listed : List (Term × List Nat) :=
  [(.kind (.collection 3 3 3), []), (.kind (.constant ⟨[3, 3], [0, 1, 2, 3, 4, 5, 6, 7, 8]⟩), []), (.kind (.constant ⟨[3], [5, 6, 7]⟩), []),
    (.advanced [true], [2, 0]), (.advanced [true, false], [1, 0])]

/-- The list 2, 0, 1. -/
def turned : Val := [⟨[3], [2, 0, 1]⟩]

/-- As `checks`, for programs where symbol 0 is a list of three numbers. -/
def listChecks (M : Generated) : Bool :=
  (match (M.rows.row 0).built with
    | .kind (.collection n lo hi) => decide (n = 3 ∧ lo = 3 ∧ hi = 3)
    | _ => false) &&
  decide (∀ i < M.rows.length, (M.rows.row i).decision = true → i = 0) &&
  decide (∀ i < M.rows.length, (M.rows.row i).regularCheck = true) &&
  decide (∀ i < M.rows.length, M.rows.trustedCheck (fun _ => true) 20 i = true) &&
  (words [0, 1, 2] 3).all fun x => (evaluated M.rows [⟨[3], x⟩] M.rows.length).all fun v =>
    v.all fun a => decide ((a.data.length : Int) ≤ ssMax) && a.data.all fun y => decide (Finite y)

theorem list_ok {b : Built} {ins : List Info} {out : Info} (hb : b = .kind (.collection 3 3 3)) {v : Val} :
    (b.node ins out).ok [v] ↔ ∃ x : List Rat, v = [⟨[3], x⟩] ∧ x.Nodup ∧ (∀ e ∈ x, ∃ k : Nat, k < 3 ∧ e = k) ∧ x.length = 3 := by
  subst hb
  show (∃ data : List Rat, [v] = [[⟨[3], data⟩]] ∧ data.Nodup ∧ (∀ w ∈ data, ∃ k : Nat, k < 3 ∧ w = k) ∧ 3 ≤ data.length ∧
    data.length ≤ 3) ↔ _
  constructor
  · rintro ⟨x, e, h1, h2, h3, h4⟩
    exact ⟨x, by simpa using e, h1, h2, by omega⟩
  · rintro ⟨x, rfl, h1, h2, h3⟩
    exact ⟨x, rfl, h1, h2, by omega, by omega⟩

theorem list_built {M : Generated} (h : listChecks M = true) : (M.rows.row 0).built = .kind (.collection 3 3 3) := by
  simp only [listChecks, Bool.and_eq_true] at h
  have h1 := h.1.1.1.1
  split at h1
  · rename_i n lo hi e
    obtain ⟨rfl, rfl, rfl⟩ := of_decide_eq_true h1
    exact e
  · cases h1

theorem list_supported {p : Program} {M : Generated} (hp : p.run = .ok M) (h : listChecks M = true) :
    M.rows.Supported (fun _ => True) := by
  have hb := list_built h
  simp only [listChecks, Bool.and_eq_true, decide_eq_true_eq, List.all_eq_true] at h
  obtain ⟨⟨⟨⟨_, h2⟩, h3⟩, h4⟩, h5⟩ := h
  refine ⟨fun i hi => Row.regular_of_check (h3 i hi), ?_, ?_⟩
  · have := trusted_of_check h4
    simpa using this
  · intro A vals hA hf i hi a ha
    obtain ⟨x, e, hnd, hx, hl⟩ := (list_ok hb).1 (hA 0 (by omega) (by unfold Row.decision; rw [hb]; rfl))
    have hw : x ∈ words [0, 1, 2] 3 := by
      refine mem_words ?_ hl.le
      intro w hw
      obtain ⟨k, hk, rfl⟩ := hx w hw
      have : k = 0 ∨ k = 1 ∨ k = 2 := by omega
      rcases this with rfl | rfl | rfl <;> simp
    have hev := evaluated_eq (made_of_run (Program.run_inv hp).1) (x := [⟨[3], x⟩]) hf
      (fun j hj hd => by rw [h2 j hj hd, e]) M.rows.length (le_refl _)
    exact h5 x hw (vals i) (by rw [hev]; exact List.mem_map.2 ⟨i, List.mem_range.2 hi, rfl⟩) a ha

/-- The hypotheses of `C58_partial` are also met by `A[x, :][:, x]` for a list `x` (that is used as an index of `w` too), which is made as one
symbol: it shows 8, 6, 7; 2, 0, 1; 5, 3, 4 when the list is 2, 0, 1. -/
example : ∃ p M m vals s s' j, Program.run p = .ok M ∧ M.rows.Supported (fun _ => True) ∧ PyModel.new.run M.ops = .ok m ∧ M.Visible m vals ∧
    s.permutes 4 [.all, .symbol 0] ≠ none ∧ Script.getitem s 4 [.all, .symbol 0] = .ok (s', j) ∧ s' <+: M.rows ∧
    (∀ d ∈ (M.rows.row 4).out.shape, 0 ≤ d) ∧
    SameLayout (padded ([.all, .symbol 0].map PyIndex.mixed) (M.rows.row 4).out.shape.length) ∧
    vals j = [⟨[3, 3], [8, 6, 7, 2, 0, 1, 5, 3, 4]⟩] := by
  obtain ⟨s, s', j, h1, h2, h3⟩ := of_after (steps := listed) (x := 4) (idx := [.all, .symbol 0]) (test := fun s s' j =>
    (match PyModel.new.run (⟨s', none, []⟩ : Generated).ops with
      | .ok m => decide (m.g.decisions = [0])
      | _ => false) && listChecks ⟨s', none, []⟩ &&
    decide (s.permutes 4 [.all, .symbol 0] ≠ none ∧ j < s'.length ∧ (s'.row 4).out.shape = [3, 3] ∧
      (evaluated s' turned s'.length).getD j [] = [⟨[3, 3], [8, 6, 7, 2, 0, 1, 5, 3, 4]⟩])) (by decide +kernel)
  simp only [Bool.and_eq_true, decide_eq_true_eq] at h3
  obtain ⟨⟨hd, hc⟩, hperm, hj, hsh, hev⟩ := h3
  obtain ⟨_, more, _, hr⟩ := C58_steps h1 h2
  split at hd
  swap
  · cases hd
  rename_i m hm
  rw [decide_eq_true_eq] at hd
  have hp : Program.run ⟨listed ++ more, none, []⟩ = .ok ⟨s', none, []⟩ := by
    unfold Program.run
    simp only [hr, Res.ok_bind]
    rfl
  have hS := list_supported hp hc
  have hR := (Ready.of_built hp hS hm).1
  have hacc : s'.Accepts m.g fun _ => turned := by
    intro d hdm
    rw [hd] at hdm
    obtain rfl : d = 0 := by simpa using hdm
    refine (list_ok (list_built hc)).2 ⟨[2, 0, 1], rfl, by decide +kernel, ?_, rfl⟩
    intro e he
    simp only [List.mem_cons, List.not_mem_nil, or_false] at he
    rcases he with rfl | rfl | rfl
    · exact ⟨2, by decide, rfl⟩
    · exact ⟨0, by decide, rfl⟩
    · exact ⟨1, by decide, rfl⟩
  obtain ⟨st, hst⟩ := hR.starts hacc
  have hv : (⟨s', none, []⟩ : Generated).Visible m (s'.shown st) := .after (ps := []) (r := (st, fun _ => false)) hacc hst (by simp) rfl
  have hf := (C40_program_partial hp hS hm hv).2.1
  have hdec : ∀ i < s'.length, (s'.row i).decision = true → s'.shown st i = turned := by
    intro i hi hdi
    obtain ⟨f, e, hcell⟩ := hst
    obtain ⟨rel, C, L⟩ := hR.lawful
    obtain ⟨f', v0, e', _, _, hin⟩ := inStep_of_init hm hR.locked L hacc
    rw [e] at e'
    cases e'
    exact (hin st hcell).assigned hR.whole.inv.wf L.same ((hR.whole.decisions i hi).2 hdi)
  have hall := evaluated_eq (made_of_run (Program.run_inv hp).1) hf hdec s'.length (le_refl _)
  refine ⟨_, _, m, _, s, s', j, hp, hS, hm, hv, hperm, h2, List.prefix_refl _, ?_, ?_, ?_⟩
  · show ∀ d ∈ (s'.row 4).out.shape, 0 ≤ d
    rw [hsh]; decide
  · show SameLayout (padded _ (s'.row 4).out.shape.length)
    rw [hsh]; decide
  · rw [hall, List.getD_eq_getElem?_getD, List.getElem?_map, List.getElem?_range hj] at hev
    exact hev

/-- An array with three dimensions and an index array. -/
def cube : List (Term × List Nat) :=
  [(.kind (.collection 3 0 3), []), (.kind (.constant ⟨[2, 2, 2], [0, 1, 2, 3, 4, 5, 6, 7]⟩), []), (.kind (.constant ⟨[3], [1, 0, 0]⟩), [])]

end GetitemExample

open GetitemExample ProgramExample in
/-- C58 is false when a slice separates an integer from the index arrays: `A[1, :, x]` has the shape 2 × 3 and is the transpose of what
NumPy gives, since the integer is taken first. -/
theorem C58_layout_fails : ∃ p M m vals s s' j, Program.run p = .ok M ∧ M.rows.Supported (fun _ => True) ∧ PyModel.new.run M.ops = .ok m ∧
    M.Visible m vals ∧ Script.getitem s 1 [.int 1, .all, .symbol 2] = .ok (s', j) ∧ s' <+: M.rows ∧
    vals 1 = [⟨[2, 2, 2], [0, 1, 2, 3, 4, 5, 6, 7]⟩] ∧ vals 2 = [⟨[3], [1, 0, 0]⟩] ∧ vals j = [⟨[2, 3], [5, 4, 4, 7, 6, 6]⟩] ∧
    numpyIndex [2, 2, 2] [0, 1, 2, 3, 4, 5, 6, 7] [.at 1, .all, .array] [⟨[3], [1, 0, 0]⟩] = ⟨[3, 2], [5, 7, 4, 6, 4, 6]⟩ := by
  obtain ⟨s, s', j, h1, h2, h3⟩ := of_after (steps := cube) (x := 1) (idx := [.int 1, .all, .symbol 2]) (test := fun _ s' j => fine s' &&
    decide (j < s'.length ∧ 2 < s'.length ∧ (evaluated s' chosen s'.length).getD 1 [] = [⟨[2, 2, 2], [0, 1, 2, 3, 4, 5, 6, 7]⟩] ∧
      (evaluated s' chosen s'.length).getD 2 [] = [⟨[3], [1, 0, 0]⟩] ∧
      (evaluated s' chosen s'.length).getD j [] = [⟨[2, 3], [5, 4, 4, 7, 6, 6]⟩])) (by decide +kernel)
  simp only [Bool.and_eq_true, decide_eq_true_eq] at h3
  obtain ⟨hf, hj, hlen, e1, e2, e3⟩ := h3
  obtain ⟨p, M, m, vals, k1, k2, k3, k4, k5, k6⟩ := seen h1 h2 hf
  exact ⟨p, M, m, vals, s, s', j, k1, k2, k3, k4, h2, by rw [k5], by rw [k6 1 (by omega), e1], by rw [k6 2 (by omega), e2],
    by rw [k6 j hj, e3], by decide +kernel⟩

/-- The result is an exception. -/
def raises {α : Type} : Res α → Bool
  | .throw => true
  | _ => false

open GetitemExample ProgramExample in
/-- C58 is false for what has been selected with gaps: `A[:, 0]` is an array of two elements, but `A[:, 0][1:]` raises an exception. -/
theorem C58_gaps_fails : ∃ s s' j, Script.run start = .ok s ∧ Script.getitem s 1 [.all, .int 0] = .ok (s', j) ∧ (s'.row j).out.shape = [2] ∧
    Ok [2] [.slice (some 1) none none] ∧ s'.getitem j [.slice (some 1) none none] = .throw := by
  obtain ⟨s, s', j, h1, h2, h3⟩ := of_after (steps := start) (x := 1) (idx := [.all, .int 0]) (test := fun _ s' j =>
    decide ((s'.row j).out.shape = [2]) && raises (s'.getitem j [.slice (some 1) none none])) (by decide +kernel)
  simp only [Bool.and_eq_true, decide_eq_true_eq] at h3
  refine ⟨s, s', j, h1, h2, h3.1, ⟨by decide, trivial⟩, ?_⟩
  have := h3.2
  generalize s'.getitem j [.slice (some 1) none none] = r at this ⊢
  cases r <;> first | rfl | cases this

end Verif
