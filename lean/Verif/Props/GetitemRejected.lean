import Verif.Model.GetitemCall
import Verif.Lemmas.BuildInv

/-!
# C48 for indexing
-/

namespace Verif

open Script

/-- C48 for the constructors of indexing symbols (slices, arrays indexed by arrays, permutations): one that throws has not touched any
other symbol. -/
theorem C48_indexing {t : Term} {contiguous : Bool} {self : Nat} {sizes : Nat → SizeInfo} {ops : List Nat} {ins : List Info}
    {a : Nat} {mem mem' : Nat → GNode} (h : Act.run a (t.indexingBody contiguous self sizes ops ins) mem = (mem', .throw)) :
    mem' = mem := by
  have links : ∀ (l : List Nat) (mem : Nat → GNode), (Act.run a (l.map .link) mem).2 = .ok () := by
    intro l
    induction l with
    | nil => exact fun _ => rfl
    | cons p l ih => exact fun mem => ih _
  have checks : ∀ {α : Type} (r : Res α), Act.run a (Act.checks r ++ ops.map .link) mem = (mem', .throw) → mem' = mem := by
    intro α r h
    cases r with
    | ok x =>
      have := links ops mem
      simp only [Act.checks, List.nil_append] at h
      rw [h] at this
      cases this
    | throw =>
      simp only [Act.checks, List.cons_append, Act.run] at h
      exact (congrArg Prod.fst h).symm
    | ub =>
      simp only [Act.checks, List.cons_append, Act.run] at h
      have := congrArg Prod.snd h
      cases this
  cases t with
  | kind k =>
    have := congrArg Prod.snd h
    cases this
  | basic idx =>
    simp only [Term.indexingBody, Act.run] at h
    by_cases hc : contiguous = true
    · rw [if_pos hc] at h
      exact checks _ h
    · rw [if_neg hc] at h
      exact (congrArg Prod.fst h).symm
  | advanced slots => exact checks _ h
  | permutation => exact checks _ h

/-- An index without integers next to array symbols, and without proper slices next to them: it needs one symbol only. -/
def PyIndex.Plain (idx : List PyIndex) : Prop :=
  (∀ i ∈ idx, ∀ p, i ≠ .symbol p) ∨ ∀ i ∈ idx, ∀ n, i ≠ .int n ∧ ∀ a b c, i = .slice a b c → a = none ∧ b = none ∧ c = none

theorem Script.whole_throw {s s' : Script} {r : Res (Script × Nat)} (h : s.whole r = (s', .throw)) : s' = s := by
  cases r with
  | ok r => have := congrArg Prod.snd h; cases this
  | throw => exact (congrArg Prod.fst h).symm
  | ub => have := congrArg Prod.snd h; cases this

theorem PyIndex.Plain.pad {idx : List PyIndex} (h : Plain idx) (n : Nat) : Plain (PyIndex.pad idx n) := by
  unfold PyIndex.pad
  rcases h with h | h
  · refine .inl fun i hi p => ?_
    rcases List.mem_append.1 hi with hi | hi
    · exact h i hi p
    · rw [(List.mem_replicate.1 hi).2]
      simp
  · refine .inr fun i hi m => ?_
    rcases List.mem_append.1 hi with hi | hi
    · exact h i hi m
    · rw [(List.mem_replicate.1 hi).2]
      refine ⟨by simp, fun a b c e => ?_⟩
      simp only [PyIndex.all, PyIndex.slice.injEq] at e
      exact ⟨e.1.symm, e.2.1.symm, e.2.2.symm⟩

/-- A plain index that contains neither is not split, or refused before anything is made. -/
theorem PyIndex.Plain.split {idx : List PyIndex} (h : Plain idx) (h1 : idx.mapM PyIndex.basic? = none)
    (h2 : idx.mapM PyIndex.advanced? = none) : PyIndex.split idx = .throw := by
  have key : ∀ l : List PyIndex, (PyIndex.other ∈ l → PyIndex.split l = .throw) := by
    intro l
    induction l with
    | nil => intro h; cases h
    | cons i l ih =>
      intro h
      rcases List.mem_cons.1 h with e | h
      · rw [← e]
        rfl
      · have := ih h
        cases i <;> simp [PyIndex.split, this]
  refine key idx ?_
  by_contra hno
  rcases h with h | h
  · have : ∀ l : List PyIndex, (∀ i ∈ l, ∀ p, i ≠ .symbol p) → PyIndex.other ∉ l → ∃ r, l.mapM PyIndex.basic? = some r := by
      intro l
      induction l with
      | nil => intro _ _; exact ⟨[], rfl⟩
      | cons i l ih =>
        intro hl hn
        obtain ⟨r, hr⟩ := ih (fun j hj => hl j (List.mem_cons_of_mem _ hj)) fun hj => hn (List.mem_cons_of_mem _ hj)
        cases i with
        | int n => exact ⟨.at n :: r, by simp [PyIndex.basic?, hr]⟩
        | slice a b c => exact ⟨.slice a b c :: r, by simp [PyIndex.basic?, hr]⟩
        | symbol p => exact absurd rfl (hl _ List.mem_cons_self p)
        | other => exact absurd List.mem_cons_self hn
    obtain ⟨r, hr⟩ := this idx h hno
    rw [hr] at h1
    cases h1
  · have : ∀ l : List PyIndex, (∀ i ∈ l, ∀ n, i ≠ .int n ∧ ∀ a b c, i = .slice a b c → a = none ∧ b = none ∧ c = none) →
        PyIndex.other ∉ l → ∃ r, l.mapM PyIndex.advanced? = some r := by
      intro l
      induction l with
      | nil => intro _ _; exact ⟨[], rfl⟩
      | cons i l ih =>
        intro hl hn
        obtain ⟨r, hr⟩ := ih (fun j hj => hl j (List.mem_cons_of_mem _ hj)) fun hj => hn (List.mem_cons_of_mem _ hj)
        cases i with
        | int n => exact absurd rfl (hl _ List.mem_cons_self n).1
        | slice a b c =>
          obtain ⟨rfl, rfl, rfl⟩ := (hl _ List.mem_cons_self 0).2 a b c rfl
          exact ⟨none :: r, by simp [PyIndex.advanced?, hr]⟩
        | symbol p => exact ⟨some p :: r, by simp [PyIndex.advanced?, hr]⟩
        | other => exact absurd List.mem_cons_self hn
    obtain ⟨r, hr⟩ := this idx h hno
    rw [hr] at h2
    cases h2

/-- C48 for `x[...]`: if it is refused, then the model is as before, or it has got one more symbol, a slice of `x` that nothing uses;
it is as before if the index is only made of integers and slices, or only of arrays and `:`. -/
theorem C48_getitem_partial {s s' : Script} {x : Nat} {idx : List PyIndex} (h : s.call x idx = (s', .throw)) :
    (PyIndex.Plain idx → s' = s) ∧
    (s' = s ∨ ∃ slice P sh, s' = s ++ [slice] ∧ slice.ops = [x] ∧ (∃ basic, slice.built = .basic sh basic P) ∧
      ∀ i < s.length, s'.row i = s.row i) := by
  have hthrow : ∀ {s0 : Script} {r : Res (Script × Nat)}, s0.whole r = (s', .throw) → s' = s0 := fun h => whole_throw h
  unfold call at h
  split at h
  · have := hthrow h
    exact ⟨fun _ => this, .inl this⟩
  · unfold callArray at h
    dsimp only at h
    split at h
    · have := hthrow h
      exact ⟨fun _ => this, .inl this⟩
    · rename_i hb
      split at h
      · have := hthrow h
        exact ⟨fun _ => this, .inl this⟩
      · rename_i ha
        split at h
        · have := (congrArg Prod.fst h).symm
          exact ⟨fun _ => this, .inl this⟩
        · have := congrArg Prod.snd h; cases this
        · rename_i r hr
          refine ⟨fun hp => ?_, ?_⟩
          · rw [(hp.pad _).split hb ha] at hr
            cases hr
          · split at h
            · exact .inl (congrArg Prod.fst h).symm
            · have := congrArg Prod.snd h; cases this
            · rename_i b hbasic
              have hs := hthrow h
              right
              unfold basicIndexing Script.add at hbasic
              obtain ⟨_, _, hbasic⟩ := Res.bind_eq_ok.1 hbasic
              obtain ⟨_, _, hbasic⟩ := Res.bind_eq_ok.1 hbasic
              obtain ⟨c, hc, hbasic⟩ := Res.bind_eq_ok.1 hbasic
              have e := Res.ok.inj hbasic
              have hc' : ∃ sh P, c.1 = .basic sh r.1 P := by
                simp only [List.map_cons, List.map_nil, Term.construct] at hc
                obtain ⟨sh, _, hc⟩ := Res.bind_eq_ok.1 hc
                obtain ⟨P, _, hc⟩ := Res.bind_eq_ok.1 hc
                split at hc
                · obtain ⟨_, _, hc⟩ := Res.bind_eq_ok.1 hc
                  exact ⟨sh, P, by rw [← Res.ok.inj hc]⟩
                · exact ⟨sh, P, by rw [← Res.ok.inj hc]⟩
              obtain ⟨sh, P, hc'⟩ := hc'
              have e1 : s' = s ++ [⟨c.1, [x], [x].map fun p => (s.row p).out, c.2⟩] := by rw [hs, ← e]
              refine ⟨_, P, sh, e1, rfl, ⟨r.1, hc'⟩, fun i hi => ?_⟩
              rw [e1]
              simp [Script.row, List.getD_eq_getElem?_getD, List.getElem?_append_left hi]

/-- The calls end as `Model/Getitem.lean` says, and with the same model when they succeed. -/
theorem C48_getitem_ends (s : Script) (x : Nat) (idx : List PyIndex) :
    (∀ s' i, s.call x idx = (s', .ok i) ↔ s.getitem x idx = .ok (s', i)) ∧
    ((s.call x idx).2 = .throw ↔ s.getitem x idx = .throw) := by
  have hw : ∀ (s0 : Script) (r : Res (Script × Nat)), (∀ s' i, s0.whole r = (s', .ok i) ↔ r = .ok (s', i)) ∧
      ((s0.whole r).2 = .throw ↔ r = .throw) := by
    intro s0 r
    cases r with
    | ok r => exact ⟨fun s' i => by simp [whole, Prod.ext_iff], by simp [whole]⟩
    | throw => simp [whole]
    | ub => simp [whole]
  unfold call getitem
  cases hp : s.permutes x idx with
  | some q => exact hw _ _
  | none =>
    dsimp only
    unfold callArray getitemArray
    dsimp only
    cases h1 : (PyIndex.pad idx (s.row x).out.shape.length).mapM PyIndex.basic? with
    | some q => exact hw _ _
    | none =>
      dsimp only
      cases h2 : (PyIndex.pad idx (s.row x).out.shape.length).mapM PyIndex.advanced? with
      | some q => exact hw _ _
      | none =>
        dsimp only
        cases hr : PyIndex.split (PyIndex.pad idx (s.row x).out.shape.length) with
        | throw => simp
        | ub => simp
        | ok r =>
          simp only [Res.ok_bind]
          cases hb : s.basicIndexing x r.1 with
          | throw => simp
          | ub => simp
          | ok b => simpa using hw _ _

namespace GetitemRejected

/-- A 2 x 3 matrix and integers from 0 to 5. -/
def script : Res Script := do
  let a ← Script.add [] (.kind (.constant ⟨[2, 3], [0, 1, 2, 3, 4, 5]⟩)) []
  let i ← a.1.add (.kind (.integer [2] (some 0) (some 5))) []
  .ok i.1

def lengths (r : Res Script) (idx : List PyIndex) : Option (Nat × Nat × Bool) :=
  match r with
  | .ok s => some (s.length, (s.call 0 idx).1.length, match (s.call 0 idx).2 with | .throw => true | _ => false)
  | _ => none

end GetitemRejected

open GetitemRejected in
/-- C48 fails for combined indices: `A[0, i]` with `i` out of range is refused, but leaves the slice `A[0, :]` in the model. -/
theorem C48_getitem_fails : ∃ (s s' : Script) (idx : List PyIndex), script = .ok s ∧ idx = [.int 0, .symbol 1] ∧
    s.call 0 idx = (s', .throw) ∧ s.length = 2 ∧ s'.length = 3 := by
  have h : lengths script [.int 0, .symbol 1] = some (2, 3, true) := by decide +kernel
  cases hs : script with
  | ok s =>
    rw [hs] at h
    simp only [lengths, Option.some.injEq, Prod.mk.injEq] at h
    obtain ⟨h1, h2, h3⟩ := h
    refine ⟨s, (s.call 0 [.int 0, .symbol 1]).1, _, rfl, rfl, ?_, h1, h2⟩
    split at h3
    · rename_i e
      exact Prod.ext rfl e
    · cases h3
  | throw => rw [hs] at h; cases h
  | ub => rw [hs] at h; cases h

open GetitemRejected in
/-- A refused index of the kind for which nothing is left: `A[i, :]` with `i` out of range. -/
example : lengths script [.symbol 1, .all] = some (2, 2, true) := by decide +kernel

example : PyIndex.Plain [.symbol 1, .all] := .inr fun i hi n => by
  simp only [List.mem_cons, List.not_mem_nil, or_false] at hi
  rcases hi with rfl | rfl
  · exact ⟨by simp, by simp⟩
  · refine ⟨by simp, fun a b c e => ?_⟩
    simp only [PyIndex.all, PyIndex.slice.injEq] at e
    exact ⟨e.1.symm, e.2.1.symm, e.2.2.symm⟩

open GetitemRejected in
/-- A constructor that throws. -/
example : (Act.run 5 ((Term.advanced [true]).indexingBody true 2 (fun _ => .fixed 0) [0, 1]
    [⟨[[3]], .ok ⟨⟨0, 1⟩, false⟩, .fixed 3, none⟩, ⟨[[2]], .ok ⟨⟨0, 5⟩, true⟩, .fixed 2, none⟩]) (fun _ => {})).2 = .throw := by
  decide +kernel

end Verif
