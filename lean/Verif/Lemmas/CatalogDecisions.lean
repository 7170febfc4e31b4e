import Verif.Lemmas.CatalogLift
import Verif.Props.Numbers
import Verif.Props.Collection
import Verif.Props.Lists
import Verif.Props.BitSets

set_option linter.unusedSectionVars false
set_option linter.unusedSimpArgs false
set_option linter.unusedVariables false

/-! Helper lemmas: decisions, their moves, and what they owe their model. -/

namespace Verif

/-- A decision: `Rel s x y` says that the committed value is `x`, the present value `y`. -/
structure DecisionLaw (N : NodeSem Val Dif) (step : N.σ → Move → Res N.σ) where
  Rel : N.σ → Val → Val → Prop
  okIs : ∀ {xs}, N.ok xs → ∃ x, xs = [x]
  same : ∀ x, N.f [x] = x
  init : ∀ {x}, N.ok [x] → ∃ s, N.init [x] = .ok s ∧ Rel s x x ∧ N.diff s = []
  view : ∀ {s x y}, Rel s x y → N.view s = y
  diff : ∀ {s x y}, Rel s x y → ValRel x (N.diff s) y
  commit : ∀ {s x y}, Rel s x y → ∃ c, N.commit s = .ok c ∧ Rel c y y ∧ N.diff c = []
  revert : ∀ {s x y}, Rel s x y → ∃ r, N.revert s = .ok r ∧ Rel r x x ∧ N.diff r = []
  move : ∀ {s x y m s'}, Rel s x y → N.ok [y] → step s m = .ok s' → ∃ z, N.ok [z] ∧ Rel s' x z
  idle : ∀ {s y}, N.view s = y → N.ok [y] → N.propagate s [] = .ok s

namespace DecisionLaw

variable {N : NodeSem Val Dif} {step : N.σ → Move → Res N.σ}

@[reducible] def settled (L : DecisionLaw N step) : Settled [] N where
  Clean := fun s xs => ∃ x, xs = [x] ∧ L.Rel s x x ∧ N.diff s = []
  init := by
    intro xs h
    obtain ⟨x, rfl⟩ := L.okIs h
    obtain ⟨s, e, hr, hd⟩ := L.init h
    exact ⟨s, e, x, rfl, hr, hd⟩
  view := by
    rintro s xs ⟨x, rfl, hr, _⟩
    rw [L.view hr, L.same]
  diff := fun ⟨_, _, _, h⟩ => h

theorem pending (L : DecisionLaw N step) {s : N.σ} {x y : Val} (h : L.Rel s x y) :
    L.settled.Pending ValRel s [x] [y] := by
  obtain ⟨c, ec, hc, hc'⟩ := L.commit h
  obtain ⟨r, er, hr, hr'⟩ := L.revert h
  refine ⟨by rw [L.view h, L.same], by rw [L.same, L.same]; exact L.diff h, ⟨c, ec, y, rfl, hc, hc'⟩,
    ⟨r, er, x, rfl, hr, hr'⟩⟩

theorem moves (L : DecisionLaw N step) {x : Val} (ms : List Move) : ∀ {s s' : N.σ} {y : Val},
    L.Rel s x y → N.ok [y] → ms.foldlM step s = .ok s' → ∃ z, N.ok [z] ∧ L.Rel s' x z := by
  induction ms with
  | nil =>
    intro s s' y h ho e
    simp at e; subst e
    exact ⟨y, ho, h⟩
  | cons m ms ih =>
    intro s s' y h ho e
    simp only [List.foldlM_cons] at e
    obtain ⟨s1, e1, e2⟩ := Res.bind_eq_ok.1 e
    obtain ⟨z, hz, hr⟩ := L.move h ho e1
    exact ih hr hz e2

end DecisionLaw

/-! ## Numbers -/

open ArrayState in
theorem ArrayState.RepA.exchange {α : Type} [DecidableEq α] [Inhabited α] {fixed : Bool} {s : ArrayState α}
    {com cur : List α} (h : RepA fixed s com cur) {i j : Nat} (hi : i < cur.length) (hj : j < cur.length) :
    ∃ s', s.exchange i j = .ok s' ∧ RepA fixed s' com ((cur.set i cur[j]).set j cur[i]) := by
  obtain ⟨s', e, h'⟩ := h.rep.exchange hi hj
  refine ⟨s', e, h', fun hf u hu => ?_⟩
  unfold ArrayState.exchange at e
  split at e
  · split_ifs at e
    · simp at e; subst e; exact h.changes hf u hu
    · simp at e; subst e; exact h.changes hf u hu
    · simp at e; subst e
      rcases List.mem_append.1 hu with hu | hu
      · exact h.changes hf u hu
      · simp only [List.mem_cons, List.not_mem_nil, or_false] at hu
        rcases hu with rfl | rfl <;> rfl
  · cases e

open ArrayState

/-- The relation for numbers. -/
def NumRel (shape : List Int) (s : ArrayState Rat) (x y : Val) : Prop :=
  ∃ com cur : List Rat, x = [⟨shape, com⟩] ∧ y = [⟨shape, cur⟩] ∧ RepA true s com cur

theorem numRel_set {shape : List Int} {c : NumNode} {s s' : ArrayState Rat} {x : Val} {com cur : List Rat}
    {i : Nat} {v : Rat} (h : RepA true s com cur) (hx : x = [⟨shape, com⟩])
    (hl : cur.length = c.size) (hb : ∀ v ∈ cur, InBounds c.lo c.hi v) (hv : InBounds c.lo c.hi v)
    (e : s.set i v = .ok s') :
    ∃ z, (numberNode shape c).ok [z] ∧ NumRel shape s' x z := by
  have hi : i < cur.length := by
    by_contra hn
    unfold ArrayState.set at e
    rw [h.rep.buf, List.getElem?_eq_none (by omega)] at e
    cases e
  obtain ⟨s1, e1, h1⟩ := h.set hi v
  rw [e] at e1
  simp at e1; subst e1
  refine ⟨[⟨shape, cur.set i v⟩], ⟨_, rfl, by simpa using hl, ?_⟩, com, _, hx, rfl, h1⟩
  intro w hw
  rcases List.mem_or_eq_of_mem_set hw with hw | rfl
  · exact hb w hw
  · exact hv

theorem numRel_exchange {shape : List Int} {c : NumNode} {s s' : ArrayState Rat} {x : Val}
    {com cur : List Rat} {i j : Nat} (h : RepA true s com cur) (hx : x = [⟨shape, com⟩])
    (hl : cur.length = c.size) (hb : ∀ v ∈ cur, InBounds c.lo c.hi v)
    (e : s.exchange i j = .ok s') :
    ∃ z, (numberNode shape c).ok [z] ∧ NumRel shape s' x z := by
  have hij : i < cur.length ∧ j < cur.length := by
    unfold ArrayState.exchange at e
    rw [h.rep.buf] at e
    split at e
    · rename_i h1 h2
      exact ⟨(List.getElem?_eq_some_iff.1 h1).1, (List.getElem?_eq_some_iff.1 h2).1⟩
    · cases e
  obtain ⟨s1, e1, h1⟩ := h.exchange hij.1 hij.2
  rw [e] at e1
  simp at e1; subst e1
  refine ⟨[⟨shape, _⟩], ⟨_, rfl, by simpa using hl, ?_⟩, com, _, hx, rfl, h1⟩
  intro w hw
  rcases List.mem_or_eq_of_mem_set hw with hw | rfl
  · rcases List.mem_or_eq_of_mem_set hw with hw | rfl
    · exact hb w hw
    · exact hb _ (List.getElem_mem _)
  · exact hb _ (List.getElem_mem _)

/-- Numbers, given what their moves do. -/
@[reducible] def numberLaw (shape : List Int) (c : NumNode)
    (step : ArrayState Rat → Move → Res (ArrayState Rat))
    (hs : ∀ {s s' m x} {com cur : List Rat}, RepA true s com cur → x = [⟨shape, com⟩] →
      cur.length = c.size → (∀ v ∈ cur, InBounds c.lo c.hi v) → step s m = .ok s' →
      ∃ z, (numberNode shape c).ok [z] ∧ NumRel shape s' x z) :
    DecisionLaw (numberNode shape c) step where
  Rel := NumRel shape
  okIs := fun ⟨data, h, _⟩ => ⟨_, h⟩
  same := fun x => rfl
  init := by
    rintro x ⟨data, hx, hl, hb⟩
    obtain rfl : x = [⟨shape, data⟩] := by simpa using hx
    refine ⟨ArrayState.mk' data, ?_, ⟨data, data, rfl, rfl, RepA.mk'_ data⟩, rfl⟩
    show c.init data = _
    unfold NumNode.init
    rw [guardThrow_true hl, guardThrow_true (fun v hv => isValid_iff.2 (hb v hv))]
    rfl
  view := by
    rintro s x y ⟨com, cur, rfl, rfl, h⟩
    simp only [h.rep.buf]
  diff := by
    rintro s x y ⟨com, cur, rfl, rfl, h⟩
    exact valRel_single ⟨rfl, h.rep.rep, fun _ => h.changes rfl⟩
  commit := by
    rintro s x y ⟨com, cur, rfl, rfl, h⟩
    exact ⟨_, rfl, ⟨cur, cur, rfl, rfl, by rw [h.rep.commit_eq]; exact RepA.mk'_ cur⟩,
      by simp only [h.rep.commit_eq]; rfl⟩
  revert := by
    rintro s x y ⟨com, cur, rfl, rfl, h⟩
    exact ⟨_, rfl, ⟨com, com, rfl, rfl, by rw [h.rep.revert_eq]; exact RepA.mk'_ com⟩,
      by simp only [h.rep.revert_eq]; rfl⟩
  move := by
    rintro s x y m s' ⟨com, cur, hx, rfl, h⟩ ⟨data, hy, hl, hb⟩ e
    obtain rfl : cur = data := by simpa using hy
    exact hs h hx hl hb e
  idle := fun _ _ => rfl

theorem rep_num {shape : List Int} {c : NumNode} {s : ArrayState Rat} {x : Val} {com cur : List Rat}
    (h : RepA true s com cur) (hx : x = [⟨shape, com⟩]) (hl : cur.length = c.size)
    (hb : ∀ v ∈ cur, InBounds c.lo c.hi v) : ∃ z, (numberNode shape c).ok [z] ∧ NumRel shape s x z :=
  ⟨[⟨shape, cur⟩], ⟨cur, rfl, hl, hb⟩, com, cur, hx, rfl, h⟩

theorem num_setValue {shape : List Int} {c : NumNode} {s s' : ArrayState Rat} {x : Val} {com cur : List Rat}
    {i : Nat} {v : Int} (h : RepA true s com cur) (hx : x = [⟨shape, com⟩])
    (hl : cur.length = c.size) (hb : ∀ v ∈ cur, InBounds c.lo c.hi v)
    (e : NumNode.caught (fun s => c.setValue s i v) s = .ok s') :
    ∃ z, (numberNode shape c).ok [z] ∧ NumRel shape s' x z := by
  by_cases hv : c.isValid v = true
  · have e' : s.set i v = .ok s' := by
      simp only [NumNode.caught, NumNode.setValue, hv, not_true, if_false] at e
      split at e
      · rename_i h1
        unfold ArrayState.set at h1
        split at h1
        · cases h1
        · split_ifs at h1
      · exact e
    exact numRel_set h hx hl hb (isValid_iff.1 hv) e'
  · simp only [NumNode.caught, NumNode.setValue, hv] at e
    simp at e; subst e
    exact rep_num h hx hl hb

@[reducible] def integerLaw (shape : List Int) (c : NumNode) :
    DecisionLaw (numberNode shape c) (fun s m => m.integer c s) :=
  numberLaw shape c _ (by
    intro s s' m x com cur h hx hl hb e
    cases m with
    | exchange i j => exact numRel_exchange h hx hl hb e
    | setValue i v => exact num_setValue h hx hl hb e
    | _ => cases e)

@[reducible] def binaryLaw (shape : List Int) (n : Nat) :
    DecisionLaw (numberNode shape ⟨n, 0, 1⟩) (fun s m => m.binary ⟨n, 0, 1⟩ s) :=
  numberLaw shape ⟨n, 0, 1⟩ _ (by
    have b0 : InBounds 0 1 (0 : Rat) := ⟨0, by simp, by omega, by omega⟩
    have b1 : InBounds 0 1 (1 : Rat) := ⟨1, by simp, by omega, by omega⟩
    intro s s' m x com cur h hx hl hb e
    cases m with
    | exchange i j => exact numRel_exchange h hx hl hb e
    | setValue i v => exact num_setValue h hx hl hb e
    | flip i =>
      simp only [Move.binary, NumNode.runBin1] at e
      obtain ⟨a, e1, e2⟩ := Res.bind_eq_ok.1 e
      split_ifs at e2 with ha
      · exact numRel_set h hx hl hb b0 e2
      · exact numRel_set h hx hl hb b1 e2
    | setOne i => exact numRel_set h hx hl hb b1 e
    | unset i => exact numRel_set h hx hl hb b0 e
    | _ => cases e)

/-! ## Collections -/

section
variable {α : Type} [DecidableEq α] [Inhabited α]

theorem coll_exchange_changes {s s' : CollState α} {i j : Nat} (e : s.exchange i j = .ok s')
    (h : ∀ u ∈ s.previous, u.isChange = true) : ∀ u ∈ s'.previous, u.isChange = true := by
  unfold CollState.exchange at e
  split at e
  · simp only [Res.ok.injEq] at e
    subst e
    intro u hu
    simp only at hu
    split_ifs at hu
    · rcases List.mem_append.1 hu with hu | hu
      · rcases List.mem_append.1 hu with hu | hu
        · exact h u hu
        · rw [List.mem_singleton.1 hu]; rfl
      · rw [List.mem_singleton.1 hu]; rfl
    · rcases List.mem_append.1 hu with hu | hu
      · exact h u hu
      · rw [List.mem_singleton.1 hu]; rfl
    · rcases List.mem_append.1 hu with hu | hu
      · exact h u hu
      · rw [List.mem_singleton.1 hu]; rfl
    · exact h u hu
  · cases e

theorem coll_rotateStep_changes (is : List Nat) : ∀ {p p' : CollState α × α},
    is.foldlM CollState.rotateStep p = .ok p' → (∀ u ∈ p.1.previous, u.isChange = true) →
    ∀ u ∈ p'.1.previous, u.isChange = true := by
  induction is with
  | nil => intro p p' e h; simp at e; subst e; exact h
  | cons i is ih =>
    intro p p' e h
    simp only [List.foldlM_cons] at e
    obtain ⟨q, e1, e2⟩ := Res.bind_eq_ok.1 e
    refine ih e2 ?_
    unfold CollState.rotateStep at e1
    split at e1
    · cases e1
    · simp only [Res.ok.injEq] at e1
      subst e1
      intro u hu
      rcases List.mem_append.1 hu with hu | hu
      · exact h u hu
      · rw [List.mem_singleton.1 hu]; rfl

theorem coll_rotate_changes {s s' : CollState α} {i j : Nat} (e : s.rotate i j = .ok s')
    (h : ∀ u ∈ s.previous, u.isChange = true) : ∀ u ∈ s'.previous, u.isChange = true := by
  unfold CollState.rotate at e
  split at e
  · split at e
    · cases e
    · split at e
      · obtain ⟨p, e1, e2⟩ := Res.bind_eq_ok.1 e
        simp at e2; subst e2
        exact coll_rotateStep_changes _ e1 h
      · split at e
        · obtain ⟨p, e1, e2⟩ := Res.bind_eq_ok.1 e
          simp at e2; subst e2
          exact coll_rotateStep_changes _ e1 h
        · simp at e; subst e; exact h
  · cases e

/-- A move of a collection of fixed size. -/
theorem coll_fixed_changes {c : CollNode} (hd : c.dynamic = false) {s s' : CollState α} {op : CollOp}
    (e : c.run1 s op = .ok s') (h : ∀ u ∈ s.previous, u.isChange = true) :
    ∀ u ∈ s'.previous, u.isChange = true := by
  cases op with
  | exchange i j =>
    simp only [CollNode.run1] at e
    split at e
    · simp at e; subst e; exact h
    · exact coll_exchange_changes e h
  | rotate i j =>
    simp only [CollNode.run1] at e
    split at e
    · simp at e; subst e; exact h
    · exact coll_rotate_changes e h
  | grow => simp [CollNode.run1, hd, guardUB] at e
  | shrink => simp [CollNode.run1, hd, guardUB] at e
  | commit => simp [CollNode.run1] at e; subst e; simp [CollState.commit]
  | revert => simp [CollNode.run1] at e; subst e; simp [CollState.revert]

end

/-- The contents of a collection symbol. -/
structure CollOk (c : CollNode) (k : CollContents Rat) : Prop where
  perm : k.elements.Perm (CollNode.ints c.maxValue)
  ge : c.minSize ≤ k.size
  le : k.size ≤ c.maxSize

/-- The relation for collections. -/
def CollRel (c : CollNode) (s : CollState Rat) (x y : Val) : Prop :=
  ∃ com cur : CollContents Rat, x = [⟨collShape c, com.visible⟩] ∧ y = [⟨collShape c, cur.visible⟩] ∧
    CollState.Rep s com cur ∧ CollState.OnlyChanges s ∧ CollOk c com ∧ CollOk c cur ∧
    (c.dynamic = false → ∀ u ∈ s.previous, u.isChange = true)

theorem collShape_dynamic (c : CollNode) : dynamicShape (collShape c) = c.dynamic := by
  unfold collShape
  cases h : c.dynamic <;> simp [dynamicShape]

theorem CollOk.ok {c : CollNode} {k : CollContents Rat} (h : CollOk c k) (hc : c.maxSize ≤ c.maxValue) :
    (collectionNode c).ok [[⟨collShape c, k.visible⟩]] := by
  have hlen : k.elements.length = c.maxValue := by rw [h.perm.length_eq]; simp [CollNode.ints]
  have hle := h.le
  refine ⟨k.visible, rfl, ?_, ?_, ?_, ?_⟩
  · exact (h.perm.nodup_iff.2 (ints_nodup _)).sublist (List.take_sublist _ _)
  · intro v hv
    exact mem_ints.1 (h.perm.mem_iff.1 (List.mem_of_mem_take hv))
  · have := h.ge
    simp only [CollContents.visible, List.length_take]; omega
  · simp only [CollContents.visible, List.length_take]; omega

/-- Collections. -/
@[reducible] def collectionLaw {n lo hi : Int} {c : CollNode} (hc : CollNode.make n lo hi = .ok c) :
    DecisionLaw (collectionNode c) (fun s m => m.collection c s) where
  Rel := CollRel c
  okIs := fun ⟨data, h, _⟩ => ⟨_, h⟩
  same := fun x => rfl
  init := by
    rintro x ⟨data, hx, h1, h2, h3, h4⟩
    obtain rfl : x = [⟨collShape c, data⟩] := by simpa using hx
    obtain ⟨s, e, hs⟩ := (C05_explicit_accepts_iff c data).1 ⟨h1, h2, h3, h4⟩
    have hp := (C05_collection_explicit hc e [] (s := s) rfl).1
    obtain ⟨l, hl, hsz⟩ : ∃ l, s = CollState.mk' l data.length ∧ data.length ≤ l.length := by
      have e' := e
      unfold CollNode.initExplicit at e'
      obtain ⟨_, _, e'⟩ := Res.bind_eq_ok.1 e'
      obtain ⟨_, _, e'⟩ := Res.bind_eq_ok.1 e'
      obtain ⟨_, _, e'⟩ := Res.bind_eq_ok.1 e'
      obtain ⟨_, _, e'⟩ := Res.bind_eq_ok.1 e'
      obtain ⟨_, _, e'⟩ := Res.bind_eq_ok.1 e'
      obtain ⟨_, _, e'⟩ := Res.bind_eq_ok.1 e'
      simp only [Res.pure_eq, Res.ok.injEq] at e'
      exact ⟨_, e'.symm, by simp⟩
    have hn : c.maxValue = n.toNat := by
      simp only [CollNode.make] at hc
      obtain ⟨_, _, hc⟩ := Res.bind_eq_ok.1 hc
      obtain ⟨_, _, hc⟩ := Res.bind_eq_ok.1 hc
      obtain ⟨_, _, hc⟩ := Res.bind_eq_ok.1 hc
      simp only [Res.pure_eq, Res.ok.injEq] at hc
      rw [← hc]
    subst hl
    have hv : (⟨l, data.length⟩ : CollContents Rat).visible = data := hs
    have hok : CollOk c ⟨l, data.length⟩ := ⟨by rw [hn]; exact hp, h3, h4⟩
    exact ⟨_, e, ⟨⟨l, data.length⟩, ⟨l, data.length⟩, by rw [hv], by rw [hv], CollState.Rep.mk'_ hsz,
      by simp [CollState.OnlyChanges, CollState.mk'], hok, hok, by simp [CollState.mk']⟩, rfl⟩
  view := by
    rintro s x y ⟨com, cur, rfl, rfl, h, _⟩
    simp only [h.elems, h.size, CollContents.visible]
  diff := by
    rintro s x y ⟨com, cur, rfl, rfl, h, _, _, _, hf⟩
    refine valRel_single ⟨rfl, h.vis, fun hd => hf ?_⟩
    rw [← collShape_dynamic]; exact hd
  commit := by
    rintro s x y ⟨com, cur, rfl, rfl, h, ho, h1, h2, hf⟩
    exact ⟨_, rfl, ⟨cur, cur, rfl, rfl, h.commit, by simp [CollState.OnlyChanges, CollState.commit], h2, h2,
      by simp [CollState.commit]⟩, rfl⟩
  revert := by
    rintro s x y ⟨com, cur, rfl, rfl, h, ho, h1, h2, hf⟩
    exact ⟨_, rfl, ⟨com, com, rfl, rfl, h.revert ho, by simp [CollState.OnlyChanges, CollState.revert], h1, h1,
      by simp [CollState.revert]⟩, rfl⟩
  move := by
    rintro s x y m s' ⟨com, cur, hx, rfl, h, ho, h1, h2, hf⟩ hy e
    have hmax : c.maxSize ≤ c.maxValue := by
      simp only [CollNode.make] at hc
      obtain ⟨_, _, hc⟩ := Res.bind_eq_ok.1 hc
      obtain ⟨_, _, hc⟩ := Res.bind_eq_ok.1 hc
      obtain ⟨_, h3, hc⟩ := Res.bind_eq_ok.1 hc
      have h3 := guardThrow_eq_ok.1 h3
      simp only [Res.pure_eq, Res.ok.injEq] at hc
      rw [← hc]
      show hi.toNat ≤ n.toNat
      omega
    have key : ∀ op : CollOp, op ≠ .commit → op ≠ .revert → c.run1 s op = .ok s' →
        ∃ z, (collectionNode c).ok [z] ∧ CollRel c s' x z := by
      intro op hn1 hn2 e
      have hr := coll_run1_refines c h ho op
      cases he : CollOp.effect c.minSize c.maxSize (com, cur) op with
      | none => rw [he] at hr; simp only at hr; rw [hr] at e; cases e
      | some q =>
        obtain ⟨com', cur'⟩ := q
        rw [he] at hr
        obtain ⟨s1, e1, r1, o1⟩ := hr
        rw [e] at e1
        simp at e1; subst e1
        have hcom : com' = com := by
          cases op with
          | exchange i j =>
            simp only [CollOp.effect] at he
            split at he
            · simp at he; exact he.1.symm
            · split at he
              · simp at he; exact he.1.symm
              · cases he
          | rotate i j =>
            simp only [CollOp.effect] at he
            split at he
            · simp at he; exact he.1.symm
            · split at he
              · split at he
                · simp at he; exact he.1.symm
                · cases he
              · cases he
          | grow =>
            simp only [CollOp.effect] at he
            split at he
            · simp at he; exact he.1.symm
            · cases he
          | shrink =>
            simp only [CollOp.effect] at he
            split at he
            · simp at he; exact he.1.symm
            · cases he
          | commit => exact absurd rfl hn1
          | revert => exact absurd rfl hn2
        subst hcom
        obtain ⟨_, k2⟩ := collEffect_inv c.minSize c.maxSize (CollNode.ints c.maxValue)
          (by simpa [CollNode.ints] using hmax) he ⟨h1.perm, h1.ge, h1.le⟩ ⟨h2.perm, h2.ge, h2.le⟩
        have k : CollOk c cur' := ⟨k2.1, k2.2.1, k2.2.2⟩
        exact ⟨_, k.ok hmax, com', cur', hx, rfl, r1, o1, h1, k,
          fun hd => coll_fixed_changes hd e (hf hd)⟩
    cases m with
    | exchange i j => exact key (.exchange i j) (by simp) (by simp) e
    | rotate i j => exact key (.rotate i j) (by simp) (by simp) e
    | grow => exact key .grow (by simp) (by simp) e
    | shrink => exact key .shrink (by simp) (by simp) e
    | _ => cases e
  idle := fun _ _ => rfl

/-! ## Disjoint lists -/

theorem map_mk_inj {shape : List Int} {l l' : List (List Rat)}
    (h : l.map (fun a => (⟨shape, a⟩ : Arr Rat)) = l'.map fun a => ⟨shape, a⟩) : l = l' := by
  have : Function.Injective (fun a : List Rat => (⟨shape, a⟩ : Arr Rat)) := by
    intro a b hab; simpa using hab
  exact (List.map_injective_iff.2 this) h

/-- The relation for disjoint lists. -/
def ListsRel (s : List (ArrayState Rat)) (x y : Val) : Prop :=
  ∃ com cur : List (List Rat), x = com.map (fun l => ⟨[-1], l⟩) ∧ y = cur.map (fun l => ⟨[-1], l⟩) ∧
    Lists.LRep s com cur

theorem lists_quiet {s : List (ArrayState Rat)} (h : ∀ l ∈ s, l.updates = []) :
    taggedAll (s.map ArrayState.updates) = [] := by
  apply taggedAll_nil
  intro us hus
  obtain ⟨l, hl, rfl⟩ := List.mem_map.1 hus
  exact h l hl

/-- Disjoint lists. -/
@[reducible] def listsLaw (P N : Nat) :
    DecisionLaw (listsNode P N) (fun s m => m.lists s) where
  Rel := ListsRel
  okIs := fun ⟨data, h, _⟩ => ⟨_, h⟩
  same := fun x => rfl
  init := by
    rintro x ⟨lists, hx, hl, hp⟩
    obtain rfl : x = lists.map fun l => ⟨[-1], l⟩ := by simpa using hx
    refine ⟨lists.map ArrayState.mk', ?_, ⟨lists, lists, rfl, rfl, ?_⟩, ?_⟩
    · have : (lists.map fun l => (⟨[-1], l⟩ : Arr Rat)).map Arr.data = lists := by
        simp [Function.comp_def]
      show Lists.mkExplicit P N ((lists.map fun l => (⟨[-1], l⟩ : Arr Rat)).map Arr.data) = _
      rw [this]
      exact (C08_lists_explicit P N lists).1 ⟨hl, hp⟩
    · refine ⟨by simp, by simp, ?_⟩
      intro k x c u h1 h2 h3
      rw [h2] at h3
      simp only [List.getElem?_map, h2, Option.map_some, Option.some.injEq] at h1
      cases h3
      rw [← h1]
      exact Rep.mk'_ _
    · apply lists_quiet
      intro l hl
      obtain ⟨a, _, rfl⟩ := List.mem_map.1 hl
      rfl
  view := by
    rintro s x y ⟨com, cur, rfl, rfl, h⟩
    have := (LRep.shows h).lists
    rw [← this, List.map_map]
    rfl
  diff := by
    rintro s x y ⟨com, cur, rfl, rfl, h⟩
    refine ⟨by simp [h.lens, h.lenc], ?_⟩
    intro i a b ha hb
    simp only [List.getElem?_map, Option.map_eq_some_iff] at ha hb
    obtain ⟨l, hl, rfl⟩ := ha
    obtain ⟨l', hl', rfl⟩ := hb
    obtain ⟨z, c, hz, hc, hr⟩ := h.at hl'
    rw [hl] at hc
    cases hc
    simp only [Dif.at_taggedAll, List.getD_eq_getElem?_getD, List.getElem?_map, hz, Option.map_some,
      Option.getD_some]
    exact ⟨rfl, hr.rep, by simp [Arr.dynamic, dynamicShape]⟩
  commit := by
    rintro s x y ⟨com, cur, rfl, rfl, h⟩
    have := lists_run1 h .commit
    obtain ⟨s', e, h'⟩ := this
    refine ⟨s', e, ⟨cur, cur, rfl, rfl, h'⟩, ?_⟩
    simp only [Lists.run1, Res.ok.injEq] at e
    subst e
    apply lists_quiet
    intro l hl
    obtain ⟨a, _, rfl⟩ := List.mem_map.1 hl
    unfold Lists.commit1
    split_ifs with hu
    · rfl
    · exact List.length_eq_zero_iff.1 (by omega)
  revert := by
    rintro s x y ⟨com, cur, rfl, rfl, h⟩
    have := lists_run1 h .revert
    obtain ⟨s', e, h'⟩ := this
    refine ⟨s', e, ⟨com, com, rfl, rfl, h'⟩, ?_⟩
    simp only [Lists.run1, Res.ok.injEq] at e
    subst e
    apply lists_quiet
    intro l hl
    obtain ⟨a, _, rfl⟩ := List.mem_map.1 hl
    rfl
  move := by
    rintro s x y m s' ⟨com, cur, hx, rfl, h⟩ ⟨data, hy, hl, hp⟩ e
    obtain rfl : cur = data := map_mk_inj (by simpa using hy)
    have key : ∀ op : ListsOp Rat, op.isBulk = false → op.effect (com, cur) =
        (op.effect1 cur).map (fun c => (com, c)) → Lists.run1 s op = .ok s' →
        ∃ z, (listsNode P N).ok [z] ∧ ListsRel s' x z := by
      intro op hb he e
      have hr := lists_run1 h op
      rw [he] at hr
      cases h1 : op.effect1 cur with
      | none => rw [h1] at hr; simp only [Option.map_none] at hr; rw [hr] at e; cases e
      | some cur' =>
        rw [h1] at hr
        simp only [Option.map_some] at hr
        obtain ⟨s1, e1, r1⟩ := hr
        rw [e] at e1
        simp at e1; subst e1
        refine ⟨_, ⟨cur', rfl, ?_, (effect1_perm hb h1).trans hp⟩, com, cur', hx, rfl, r1⟩
        have a1 := h.lens
        have a2 := r1.lens
        have a3 := h.lenc
        have a4 := r1.lenc
        omega
    cases m with
    | rotateIn k d e' => exact key (.rotate k d e') rfl rfl e
    | swapIn k i j => exact key (.swap k i j) rfl rfl e
    | popTo f i t j => exact key (.pop f i t j) rfl rfl e
    | _ => cases e
  idle := by
    rintro s y hv ⟨data, hy, hl, hp⟩
    have hd : s.map ArrayState.buffer = data := by
      have h1 : s.map (fun l => (⟨[-1], l.buffer⟩ : Arr Rat)) = data.map fun l => ⟨[-1], l⟩ := by
        rw [show y = data.map fun l => ⟨[-1], l⟩ by simpa using hy] at hv
        exact hv
      have h2 := congrArg (List.map Arr.data) h1
      simpa [List.map_map, Function.comp_def] using h2
    show (do
      guardUB ((s.map ArrayState.buffer).flatten.Perm _)
      Res.ok s) = _
    rw [guardUB_true (by rw [hd]; exact hp)]
    rfl

/-! ## Disjoint bit sets -/

/-- The relation for disjoint bit sets. -/
def BitsRel (P N : Nat) (s : BitSetsState) (x y : Val) : Prop :=
  ∃ com cur : List Nat, x = (List.range N).map (fun k => ⟨[(P : Int)], bitsOf com k⟩) ∧
    y = (List.range N).map (fun k => ⟨[(P : Int)], bitsOf cur k⟩) ∧ BitSetsState.Rep N s com cur ∧
    cur.length = P

/-- Disjoint bit sets. -/
@[reducible] def bitSetsLaw (P N : Nat) :
    DecisionLaw (bitSetsNode P N) (fun s m => m.bitSets s) where
  Rel := BitsRel P N
  okIs := fun ⟨data, h, _⟩ => ⟨_, h⟩
  same := fun x => rfl
  init := by
    rintro x ⟨sets, hx, rfl, hp⟩
    obtain rfl : x = sets.map fun l => ⟨[(P : Int)], l⟩ := by simpa using hx
    obtain ⟨w, hw, hs, e, hr⟩ := bitsets_explicit_rep P sets hp
    have hv : sets.map (fun l => (⟨[(P : Int)], l⟩ : Arr Rat)) =
        (List.range sets.length).map (fun k => ⟨[(P : Int)], bitsOf w k⟩) := by
      conv => lhs; rw [hs]
      rw [List.map_map]
      rfl
    refine ⟨_, ?_, ⟨w, w, hv, hv, hr, hw⟩, ?_⟩
    · have : (sets.map fun l => (⟨[(P : Int)], l⟩ : Arr Rat)).map Arr.data = sets := by
        simp [Function.comp_def]
      show BitSetsState.mkExplicit P sets.length ((sets.map fun l => (⟨[(P : Int)], l⟩ : Arr Rat)).map Arr.data) = _
      rw [this]
      exact e
    · apply taggedAll_nil
      intro us hus
      exact List.eq_of_mem_replicate hus
  view := by
    rintro s x y ⟨com, cur, rfl, rfl, h, hl⟩
    simp only [h.num]
    apply List.map_congr_left
    intro k hk
    rw [show s.view k = bitsOf cur k from h.rows k (by simpa using hk)]
  diff := by
    rintro s x y ⟨com, cur, rfl, rfl, h, hl⟩
    refine ⟨by simp, ?_⟩
    intro i a b ha hb
    simp only [List.getElem?_map, Option.map_eq_some_iff, List.getElem?_range'] at ha hb
    obtain ⟨k, hk, rfl⟩ := ha
    obtain ⟨k', hk', rfl⟩ := hb
    have hi : i < N := by
      have := (List.getElem?_eq_some_iff.1 hk).1
      simpa using this
    obtain rfl : i = k := by rw [List.getElem?_range hi] at hk; simpa using hk
    rw [hk] at hk'
    cases hk'
    have hd : s.diffs[i]? = some (s.diffs[i]'(by rw [h.dlen]; exact hi)) := by simp
    obtain ⟨h1, h2⟩ := h.diffs i hi _ hd
    simp only [Dif.at_taggedAll, List.getD_eq_getElem?_getD, hd, Option.getD_some]
    refine ⟨rfl, h1, fun _ u hu => ?_⟩
    obtain ⟨h3, h4⟩ := h2 u hu
    simp only [Update.placed, Update.removed] at h3 h4
    simp only [Update.isChange]
    cases ho : u.old <;> cases hv : u.value <;> simp_all
  commit := by
    rintro s x y ⟨com, cur, rfl, rfl, h, hl⟩
    refine ⟨_, rfl, ⟨cur, cur, rfl, rfl, h.commit, hl⟩, ?_⟩
    apply taggedAll_nil
    intro us hus
    obtain ⟨_, _, rfl⟩ := List.mem_map.1 hus
    rfl
  revert := by
    rintro s x y ⟨com, cur, rfl, rfl, h, hl⟩
    refine ⟨_, rfl, ⟨com, com, rfl, rfl, h.revert, by rw [← hl, ← h.prim, ← h.primc]⟩, ?_⟩
    apply taggedAll_nil
    intro us hus
    obtain ⟨_, _, rfl⟩ := List.mem_map.1 hus
    rfl
  move := by
    rintro s x y m s' ⟨com, cur, hx, rfl, h, hl⟩ hy e
    cases m with
    | swapBetween f t e' =>
      simp only [Move.bitSets] at e
      obtain ⟨_, hg, e⟩ := Res.bind_eq_ok.1 e
      obtain ⟨hf, ht, he⟩ := guardUB_eq_ok.1 hg
      rw [h.num] at hf ht
      rw [h.prim] at he
      have heff : BitSetsOp.effect N (com, cur) (.swap f t e') =
          some (com, cur.set e' (if cur[e'] = f then t else if cur[e'] = t then f else cur[e'])) := by
        simp [BitSetsOp.effect, hf, ht, he]
      obtain ⟨s1, e1, r1⟩ := bitsets_run1 h heff
      rw [e] at e1
      simp at e1; subst e1
      generalize hw : cur.set e' (if cur[e'] = f then t else if cur[e'] = t then f else cur[e']) = w at r1
      have hwl : w.length = P := by rw [← hw, List.length_set, hl]
      refine ⟨(List.range N).map (fun k => ⟨[(P : Int)], bitsOf w k⟩),
        ⟨(List.range N).map (bitsOf w), ?_, by simp, ?_⟩, com, w, hx, rfl, r1, hwl⟩
      · simp [List.map_map, Function.comp_def]
      · have := isBitPartition_bitsOf r1.lt
        rwa [hwl] at this
    | _ => cases e
  idle := fun _ _ => rfl

end Verif
