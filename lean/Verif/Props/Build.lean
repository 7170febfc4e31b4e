import Verif.Lemmas.BuildInv

set_option linter.unusedSectionVars false
set_option linter.unusedSimpArgs false
set_option linter.unusedVariables false

/-!
# C48: rejected constructions; C40 for all models built by constructors
-/

namespace Verif

open Graph PyModel

/-! ## C48 -/

/-- C48, for all symbols except n-ary ones (`NaryAdd`, `NaryMultiply`, `NaryMaximum`, `NaryMinimum`) and
concatenations: a rejected operation leaves the model exactly as it was.  This covers rejected in-place
additions of operands and rejected objectives and constraints too.  For indexing symbols see `C48_indexing` and
`C48_getitem_partial`. -/
theorem C48_unchanged_partial {d d' : Draft} {decl : Symbols → Graph → Nat → Claim} {op : BuildOp}
    (he : d.perform decl op = (d', .throw)) (hn : ∀ a o preds, op ≠ .construct a (.nary o) preds) : d' = d :=
  Draft.perform_throw he hn

/-- What a rejected n-ary constructor does to the model: the symbols it has accepted before it found one
that does not fit (`done`) are left with the destroyed symbol among their successors, once for each time
they were given; nothing else changes.  In particular nothing changes if the operand that does not fit is the
first one. -/
theorem C48_nary_leftover {d d' : Draft} {decl : Symbols → Graph → Nat → Claim} {a : Nat} {o : NaryOp}
    {preds : List Nat} (he : d.perform decl (.construct a (.nary o) preds) = (d', .throw)) :
    ∃ done rest, preds = done ++ rest ∧
      (∀ q ∈ done, dynamicShape (Kind.shape1 (d.S.shapes q)) = false ∧
        Kind.shape1 (d.S.shapes q) = Kind.shape1 (d.S.shapes (preds.headD 0))) ∧
      d'.S = d.S ∧ d'.m.lockCount = d.m.lockCount ∧ d'.m.g.nodes = d.m.g.nodes ∧
      d'.m.g.decisions = d.m.g.decisions ∧ d'.m.g.objective = d.m.g.objective ∧
      d'.m.g.constraints = d.m.g.constraints ∧ d'.m.g.sorted = d.m.g.sorted ∧
      ∀ v ∈ d.m.g.nodes, d'.m.g.mem v =
        { d.m.g.mem v with succs := (d.m.g.mem v).succs ++ List.replicate (done.count v) a } := by
  rcases Draft.emplace_throw he with rfl | ⟨op, done, p, rest, hk, hps, hfit, hnot, ha, hmem, rfl⟩
  · exact ⟨[], preds, rfl, by simp, rfl, rfl, rfl, rfl, rfl, rfl, rfl, fun v _ => by simp⟩
  · refine ⟨done, p :: rest, hps, hfit, rfl, rfl, rfl, rfl, rfl, rfl, rfl, fun v hv => ?_⟩
    have hva : v ≠ a := fun e => ha (e ▸ hv)
    have had : a ∉ done := fun h => ha (hmem a (by rw [hps]; exact List.mem_append_left _ h))
    simp only [Draft.withMem]
    rw [upd_ne _ _ hva, Act.links_eq had, if_neg hva, upd_ne _ _ hva]

namespace BuildExample

/-- Declared ranges do not matter in these examples. -/
def decl : Symbols → Graph → Nat → Claim := fun _ _ _ => ⟨⟨0, 1⟩, true⟩

/-- Two constant arrays of different lengths. -/
def ops : List BuildOp :=
  [.construct 0 (.constant ⟨[2], [5, 7]⟩) [], .construct 1 (.constant ⟨[3], [1, 2, 3]⟩) []]

/-- Their (impossible) sum by `NaryAdd`. -/
def bad : BuildOp := .construct 2 (.nary .add) [0, 1]

/-- Their (impossible) sum by `Add`. -/
def bad2 : BuildOp := .construct 2 (.binary .add) [0, 1]

def draft : Draft := match Draft.new.run decl ops with
  | .ok d => d
  | _ => Draft.new

theorem built : Draft.new.run decl ops = .ok draft := rfl

end BuildExample

open BuildExample in
/-- C48 fails for n-ary symbols: `NaryAdd(x, y)` of arrays of different shapes is rejected, but leaves a pointer
to the destroyed symbol with `x`; locking the model afterwards has undefined behaviour.  (`symbols.pyx`
does not check shapes first.) -/
theorem C48_nary_fails :
    ∃ (decl : Symbols → Graph → Nat → Claim) (ops : List BuildOp) (op : BuildOp) (d d' : Draft),
      Draft.new.run decl ops = .ok d ∧ d.perform decl op = (d', .throw) ∧
      (∃ v ∈ d'.m.g.nodes, ∃ w ∈ (d'.m.g.mem v).succs, w ∉ d'.m.g.nodes) ∧
      (∃ e, Draft.new.run decl (ops ++ [.lock]) = .ok e) ∧
      Draft.new.run decl (ops ++ [op, .lock]) = .ub :=
  ⟨decl, ops, bad, draft, _, built, rfl, ⟨0, by decide +kernel, 2, by decide +kernel, by decide +kernel⟩,
    ⟨_, rfl⟩, rfl⟩

/-- The same for `ConcatenateNode`: the check that the second operand has a fixed size comes after the first one
has been entered.  Here a fixed array `x` of shape (3, 2) and a dynamic one of shape (-1, 2), concatenated along
axis 0. -/
theorem C48_concatenate_fails :
    ∃ (shapes : Nat → List (List Int)) (mem mem' : Nat → GNode),
      Act.run 2 (concatBody 0 shapes [0, 1]) mem = (mem', .throw) ∧
      (mem 0).succs = [] ∧ (mem' 0).succs = [2] :=
  ⟨fun v => if v = 0 then [[3, 2]] else [[-1, 2]], fun _ => {}, _, rfl, rfl, rfl⟩

open BuildExample in
/-- Not vacuous: the same sum by `Add` is rejected and changes nothing, and the model can be locked. -/
example : (draft.perform decl bad2).2 = .throw ∧
    (∃ e, Draft.new.run decl (ops ++ [bad2, .lock]) = .ok e) := ⟨rfl, _, rfl⟩

/-! ## Every history of constructions -/

/-- No n-ary constructor is rejected. -/
def Draft.NaryAccepted (decl : Symbols → Graph → Nat → Claim) : Draft → List BuildOp → Prop
  | _, [] => True
  | d, op :: ops =>
    (∀ a o preds, op = .construct a (.nary o) preds → (d.perform decl op).2 ≠ .throw) ∧
      Draft.NaryAccepted decl (d.perform decl op).1 ops

theorem Draft.run_made {d d' : Draft} (h : d.Made) {decl : Symbols → Graph → Nat → Claim} {ops : List BuildOp}
    (hn : Draft.NaryAccepted decl d ops) (hr : d.run decl ops = .ok d') : d'.Made := by
  induction ops generalizing d with
  | nil => simp only [Draft.run, Res.ok.injEq] at hr; exact hr ▸ h
  | cons op ops ih =>
    simp only [Draft.run] at hr
    generalize hp : d.perform decl op = r at hr
    obtain ⟨d1, res⟩ := r
    have hn2 : Draft.NaryAccepted decl d1 ops := by have := hn.2; rwa [hp] at this
    cases res with
    | ok u => exact ih (h.perform hp) hn2 hr
    | ub => simp at hr
    | throw =>
      have hd : d1 = d := by
        refine Draft.perform_throw hp fun a o preds he => ?_
        exact hn.1 a o preds he (by rw [hp])
      subst hd
      simp only at hr
      split at hr
      · simp at hr
      · simp at hr
      · exact ih h hn2 hr

namespace Kind

/-- Shapes given by the user have no negative dimensions (`_model.pyx` rejects them); only constants' shapes come
from NumPy arrays. -/
def GivenShapes (k : Kind) : Prop :=
  match k with
  | integer shape _ _ => ∀ n ∈ shape, 0 ≤ n
  | binaryVar shape => ∀ n ∈ shape, 0 ≤ n
  | constant a => ∀ n ∈ a.shape, 0 ≤ n
  | reshape shape => ∀ n ∈ shape, 0 ≤ n
  | _ => True

theorem good_of_nonneg {s : List Int} (h : ∀ n ∈ s, 0 ≤ n) : GoodShape s :=
  ⟨fun n hn => h n (List.mem_of_mem_drop hn), fun n hn => by
    have := h n (List.mem_of_mem_head? hn); omega⟩

theorem nonneg_of_good {s : List Int} (h : GoodShape s) (hd : dynamicShape s = false) : ∀ n ∈ s, 0 ≤ n := by
  intro n hn
  cases s with
  | nil => cases hn
  | cons e s =>
    simp only [dynamicShape, decide_eq_false_iff_not, not_lt] at hd
    rcases List.mem_cons.1 hn with rfl | hn
    · exact hd
    · exact h.1 n (by simpa using hn)

theorem good_broadcast {l r s : List Int} (hg : GoodShape l) (hr : GoodShape r) (h1 : sizeOne l = true)
    (h : broadcastRev l.reverse r.reverse = .ok s) (hd : dynamicShape r = true → l.length < r.length) :
    GoodShape s.reverse := by
  simp only [sizeOne, Bool.and_eq_true, Bool.not_eq_true', decide_eq_true_eq] at h1
  have hones : ∀ d ∈ l, d = 1 := prod_one_of_nonneg (nonneg_of_good hg h1.1) h1.2
  have hs := broadcastRev_ones (by intro d hd; exact hones d (by simpa using hd)) h
  have hs' : s.reverse = List.replicate (l.length - r.length) 1 ++ r := by
    rw [hs]; simp
  rw [hs']
  cases hdr : dynamicShape r with
  | true =>
    have := hd hdr
    rw [show l.length - r.length = 0 by omega]
    simpa using hr
  | false =>
    refine good_of_nonneg fun n hn => ?_
    rcases List.mem_append.1 hn with hn | hn
    · have := (List.mem_replicate.1 hn).2; omega
    · exact nonneg_of_good hr hdr n hn

theorem arrayShape_mem {p : List (List Int)} {s : List Int} (h : arrayShape p = .ok s) : s ∈ p := by
  match p, h with
  | [t], h => simp [arrayShape] at h; simp [h]

theorem good_binary {l r s : List Int} (hl : GoodShape l) (hr : GoodShape r) (h : binaryShape l r = .ok s)
    (h1 : dynamicShape l = true → r.length < l.length) (h2 : dynamicShape r = true → l.length < r.length) :
    GoodShape s := by
  obtain ⟨t, ht, hg⟩ := Res.bind_eq_ok.1 h
  obtain ⟨_, hc, he⟩ := Res.bind_eq_ok.1 hg
  have hc := guardThrow_eq_ok.1 hc
  simp only [Res.ok.injEq] at he
  subst he
  obtain ⟨u, hu, he⟩ := Res.bind_eq_ok.1 ht
  simp only [Res.ok.injEq] at he
  subst he
  rcases hc with hc | hc | ⟨_, rfl⟩
  · exact good_broadcast hl hr hc hu h2
  · exact good_broadcast hr hl hc (broadcastRev_comm hu) h1
  · rw [broadcastRev_self hu]; simpa using hl

/-- Constructors give good shapes. -/
theorem make_good {k : Kind} {ps : List (List (List Int))} {out : List (List Int)} (hm : k.make ps = .ok out)
    (hr : k.Regular ps) (hu : k.GivenShapes) (hg : ∀ p ∈ ps, ∀ s ∈ p, GoodShape s) : ∀ s ∈ out, GoodShape s := by
  have hgood0 : GoodShape [] := ⟨by simp, by simp⟩
  cases k with
  | integer shape lo hi =>
    match ps, hm with
    | [], hm =>
      simp only [make, Res.bind_eq_ok, Res.ok.injEq] at hm
      obtain ⟨_, _, rfl⟩ := hm
      simpa using good_of_nonneg hu
  | binaryVar shape =>
    match ps, hm with
    | [], hm =>
      simp only [make, Res.bind_eq_ok, Res.ok.injEq] at hm
      obtain ⟨_, _, rfl⟩ := hm
      simpa using good_of_nonneg hu
  | collection n lo hi =>
    match ps, hm with
    | [], hm =>
      simp only [make, Res.bind_eq_ok, Res.ok.injEq] at hm
      obtain ⟨c, _, rfl⟩ := hm
      simp only [List.mem_singleton, forall_eq, collShape]
      split_ifs
      · exact ⟨by simp, by simp⟩
      · exact ⟨by simp, by simp⟩
  | disjointLists P N =>
    match ps, hm with
    | [], hm =>
      simp only [make, Res.bind_eq_ok, Res.ok.injEq] at hm
      obtain ⟨_, _, _, _, rfl⟩ := hm
      intro s hs
      rw [(List.mem_replicate.1 hs).2]
      exact ⟨by simp, by simp⟩
  | disjointBitSets P N =>
    match ps, hm with
    | [], hm =>
      simp only [make, Res.bind_eq_ok, Res.ok.injEq] at hm
      obtain ⟨_, h1, _, _, rfl⟩ := hm
      have h1 := guardThrow_eq_ok.1 h1
      intro s hs
      rw [(List.mem_replicate.1 hs).2]
      exact ⟨by simp, by simp; omega⟩
  | constant a =>
    match ps, hm with
    | [], hm =>
      simp only [make, Res.ok.injEq] at hm
      subst hm
      simpa using good_of_nonneg hu
  | output i =>
    match ps, hm with
    | [p], hm =>
      simp only [make, Res.bind_eq_ok, Res.ok.injEq] at hm
      obtain ⟨_, h1, rfl⟩ := hm
      have h1 := guardThrow_eq_ok.1 h1
      simp only [List.mem_singleton, forall_eq]
      refine hg p (by simp) _ ?_
      rw [List.getD_eq_getElem?_getD, List.getElem?_eq_getElem h1]
      exact List.getElem_mem h1
  | unary op =>
    match ps, hm with
    | [p], hm =>
      simp only [make, Res.bind_eq_ok, Res.ok.injEq] at hm
      obtain ⟨s, h1, rfl⟩ := hm
      simpa using hg p (by simp) s (arrayShape_mem h1)
  | binary op =>
    match ps, hm with
    | [p, q], hm =>
      simp only [make, Res.bind_eq_ok, Res.ok.injEq] at hm
      obtain ⟨l, h1, r, h2, s, h3, rfl⟩ := hm
      have e1 : shape1 p = l := by
        match p, h1 with
        | [t], h1 => simpa [arrayShape, shape1] using h1
      have e2 : shape1 q = r := by
        match q, h2 with
        | [t], h2 => simpa [arrayShape, shape1] using h2
      simp only [Regular, List.getD_cons_zero, List.getD_cons_succ, e1, e2] at hr
      simpa using good_binary (hg p (by simp) l (arrayShape_mem h1)) (hg q (by simp) r (arrayShape_mem h2)) h3
        hr.1 hr.2
  | nary op =>
    simp only [make, Res.bind_eq_ok, Res.ok.injEq] at hm
    obtain ⟨ss, h1, s, h2, rfl⟩ := hm
    cases ps with
    | nil => simp at h1; subst h1; simp [naryShape] at h2
    | cons p ps =>
      rw [List.mapM_cons, Res.bind_eq_ok] at h1
      obtain ⟨t, ht, h1⟩ := h1
      obtain ⟨ts, _, h1⟩ := Res.bind_eq_ok.1 h1
      simp only [Res.pure_eq, Res.ok.injEq] at h1
      subst h1
      simp only [naryShape, Res.bind_eq_ok, Res.ok.injEq] at h2
      obtain ⟨_, _, rfl⟩ := h2
      simpa using hg p (by simp) t (arrayShape_mem ht)
  | reduce op init =>
    match ps, hm with
    | [p], hm =>
      simp only [make, Res.bind_eq_ok, Res.ok.injEq] at hm
      obtain ⟨_, _, rfl⟩ := hm
      simpa using hgood0
  | fold op init =>
    match ps, hm with
    | [p], hm =>
      simp only [make, Res.bind_eq_ok, Res.ok.injEq] at hm
      obtain ⟨_, _, _, _, rfl⟩ := hm
      simpa using hgood0
  | partialSum axis init =>
    match ps, hm with
    | [p], hm =>
      simp only [make, Res.bind_eq_ok, Res.ok.injEq] at hm
      obtain ⟨s, h1, _, _, _, h2, _, _, rfl⟩ := hm
      have hs := nonneg_of_good (hg p (by simp) s (arrayShape_mem h1)) (guardThrow_eq_ok.1 h2)
      simp only [List.mem_singleton, forall_eq]
      exact good_of_nonneg fun n hn => hs n (List.mem_of_mem_eraseIdx hn)
  | reshape shape =>
    match ps, hm with
    | [p], hm =>
      simp only [make, reshapeShape, Res.bind_eq_ok, Res.ok.injEq] at hm
      obtain ⟨_, _, t, ⟨_, _, _, _, _, _, rfl⟩, rfl⟩ := hm
      simpa using good_of_nonneg hu
  | size =>
    match ps, hm with
    | [p], hm =>
      simp only [make, Res.bind_eq_ok, Res.ok.injEq] at hm
      obtain ⟨_, _, rfl⟩ := hm
      simpa using hgood0
  | where_ =>
    match ps, hm with
    | [p, q, r], hm =>
      simp only [make, Res.bind_eq_ok, Res.ok.injEq] at hm
      obtain ⟨c, _, x, hx, y, _, s, hs, rfl⟩ := hm
      have : s = x := by
        simp only [whereShape, Res.bind_eq_ok] at hs
        obtain ⟨_, _, hs⟩ := hs
        split_ifs at hs
        · simpa using hs.symm
        · simp only [Res.bind_eq_ok, Res.ok.injEq] at hs
          obtain ⟨_, _, _, _, rfl⟩ := hs
          rfl
      simpa [this] using hg q (by simp) x (arrayShape_mem hx)
  | quadratic n ops =>
    match ps, hm with
    | [p], hm =>
      simp only [make, quadraticShape, Res.bind_eq_ok, Res.ok.injEq] at hm
      obtain ⟨_, _, _, _, q, _, t, ⟨_, _, rfl⟩, rfl⟩ := hm
      simpa using hgood0

end Kind

/-- The symbols' arguments are as the Python layer guarantees, and the two cases in which the code itself goes
wrong (C23, C26) do not occur. -/
def Draft.Regular (d : Draft) : Prop :=
  ∀ v ∈ d.m.g.nodes, (d.S.kind v).Regular (d.S.inShapes d.m.g v) ∧ (d.S.kind v).GivenShapes

/-- Every locked model that has been built by any history of constructions, in-place operations, choices of
objectives and constraints, locking and removal of unused symbols, is assembled from the catalog. -/
theorem Draft.Made.assembled {d : Draft} (h : d.Made) (hl : d.m.isLocked = true) (hreg : d.Regular) :
    ∃ mops, PyModel.new.run mops = .ok d.m ∧ 0 < lockDepth mops ∧ d.S.Assembled d.m.g := by
  obtain ⟨mops, hr⟩ := h.reached
  have hd := ((C18_lock_count hr).1).1 hl
  have hs := ((C18_lock_count hr).2).2 hd
  have w := h.inv.wf
  refine ⟨mops, hr, hd, h.made, fun v hv => (hreg v hv).1, ?_, h.decisions, h.unused⟩
  have key : ∀ (n : Nat) v, v ∈ d.m.g.nodes → (d.m.g.topoOf v).toNat < n → ∀ s ∈ d.S.shapes v, GoodShape s := by
    intro n
    induction n with
    | zero => intro v _ h; omega
    | succ n ih =>
      intro v hv hn
      refine Kind.make_good (h.made v hv) (hreg v hv).1 (hreg v hv).2 ?_
      intro p hp
      obtain ⟨q, hq, rfl⟩ := List.mem_map.1 hp
      have hqn := w.predMem v hv q hq
      have hlt := (w.topological hs).edge q hqn v ((w.mem_link hqn hv).2 hq)
      have h0 := ((w.topological hs).range q hqn).1
      exact ih q hqn (by omega)
  exact fun v hv => key _ v hv (Nat.lt_succ_self _)

/-- C40 for all models a user can build (`Draft.run`): any history of constructions (with rejected ones in
between, except of n-ary symbols, see `C48_nary_fails`), in-place additions, locking, and so on, that leaves
the model locked; then any history of proposals.  Every symbol shows the value its meaning gives for the values
its operands show; a fresh state initialised from the decisions shows the same; nothing is pending. -/
theorem C40_built_partial {decl : Symbols → Graph → Nat → Claim} {bops : List BuildOp} {d : Draft}
    (hb : Draft.new.run decl bops = .ok d) (hn : Draft.NaryAccepted decl Draft.new bops)
    (hl : d.m.isLocked = true) (hreg : d.Regular)
    {A : Nat → Val} (hA : d.S.Admissible d.m.g A) :
    (∃ f, initAll d.m.g (d.S.sem d.m.g) A PState.empty = .ok f ∧ ∀ v ∈ d.m.g.nodes, (f.cell v).isSome) ∧
    ∀ {st : St (d.S.sem d.m.g)}, d.S.Started d.m.g A st →
    ∀ ps : List (Proposal (d.S.sem d.m.g) (List Move)), (∀ p ∈ ps, p.Legal d.m.g) →
    ∀ {r : St (d.S.sem d.m.g) × (Int → Bool)},
      history d.m.g [] (d.S.sem d.m.g) (d.S.act d.m.g) (st, fun _ => false) ps = .ok r →
    Evaluates d.m.g (d.S.sem d.m.g) (d.S.shown d.m.g r.1) (d.S.shown d.m.g r.1) ∧
    (∃ f, initAll d.m.g (d.S.sem d.m.g) (d.S.shown d.m.g r.1) PState.empty = .ok f ∧
      ∀ v ∈ d.m.g.nodes, ∃ s, f.cell v = some s ∧ (d.S.sem d.m.g v).view s = d.S.shown d.m.g r.1 v) ∧
    (∀ v ∈ d.m.g.nodes, (d.S.sem d.m.g v).diff (r.1 v) = []) := by
  obtain ⟨mops, hr, hd, hS⟩ := (Draft.run_made Draft.made_new hn hb).assembled hl hreg
  exact ⟨C40_initialises hr hd hS hA, fun {_} hst ps hps {_} he => C40_incremental_eq_fresh_partial hr hd hS hA hst ps hps he⟩

namespace BuildExample

/-- `x` (three integers up to 10) plus an ordering `l` of three items, `+=` again `x`, its sum, a rejected sum of `x`
and a two-element array, locked. -/
def whole : List BuildOp :=
  [.construct 0 (.integer [3] (some 0) (some 10)) [], .construct 1 (.collection 3 3 3) [],
    .construct 2 (.nary .add) [0, 1], .addOperand 2 0, .construct 3 (.reduce .sum 0) [2],
    .construct 4 (.integer [2] none none) [], .construct 5 (.binary .add) [0, 4], .minimize 3, .lock]

def wholeDraft : Draft := match Draft.new.run decl whole with
  | .ok d => d
  | _ => Draft.new

theorem whole_built : Draft.new.run decl whole = .ok wholeDraft := rfl

/-- Not vacuous: the hypotheses of `C40_built_partial` hold of it. -/
example : Draft.NaryAccepted decl Draft.new whole ∧ wholeDraft.m.isLocked = true ∧ wholeDraft.Regular ∧
    wholeDraft.m.g.nodes = [0, 1, 4, 2, 3] ∧ (wholeDraft.m.g.mem 2).preds = [0, 1, 0] := by
  have hnodes : wholeDraft.m.g.nodes = [0, 1, 4, 2, 3] := by decide +kernel
  refine ⟨?_, by decide +kernel, ?_, hnodes, by decide +kernel⟩
  · refine ⟨fun a o p h => (by cases h), fun a o p h => (by cases h), fun a o p h => ?_,
      fun a o p h => (by cases h), fun a o p h => (by cases h), fun a o p h => (by cases h),
      fun a o p h => (by cases h), fun a o p h => (by cases h), fun a o p h => (by cases h), trivial⟩
    exact fun hc => by
      have : (Draft.perform decl ((Draft.perform decl ((Draft.perform decl Draft.new
        (.construct 0 (.integer [3] (some 0) (some 10)) [])).1) (.construct 1 (.collection 3 3 3) [])).1)
        (.construct 2 (.nary .add) [0, 1])).2 = .ok () := rfl
      rw [this] at hc
      cases hc
  · intro v hv
    rw [hnodes] at hv
    simp only [List.mem_cons, List.not_mem_nil, or_false] at hv
    rcases hv with rfl | rfl | rfl | rfl | rfl
    · exact ⟨rfl, by show ∀ n ∈ [(3 : Int)], 0 ≤ n; decide⟩
    · exact ⟨trivial, trivial⟩
    · exact ⟨rfl, by show ∀ n ∈ [(2 : Int)], 0 ≤ n; decide⟩
    · exact ⟨trivial, trivial⟩
    · exact ⟨trivial, trivial⟩

end BuildExample
end Verif
