import Verif.Spec.Res

/-!
# What a symbol owes its model

A symbol has an internal state.  From outside one sees its value (`view`) and the change it reports
(`diff`) since the last commit.  `V` are values, `D` reported changes; `rel x d y` says that `d`
correctly reports the change from `x` to `y`.  For arrays these are lists, lists of updates, and
`Replays`.
-/

namespace Verif

/-- The behaviour of one symbol (the virtual methods of `Node` and `Array`).  `f` is its meaning: its
value as a function of its operands' values; `ok` are the operands it accepts.  For a decision the
only "operand" is the value assigned to it. -/
structure NodeSem (V D : Type) where
  σ : Type
  f : List V → V
  ok : List V → Prop
  init : List V → Res σ
  propagate : σ → List (V × D) → Res σ
  commit : σ → Res σ
  revert : σ → Res σ
  view : σ → V
  diff : σ → D

/-- Operands that had the values `xs`, now have the values `ys`, and say so. -/
inductive Ins {V D : Type} (rel : V → D → V → Prop) : List V → List (V × D) → List V → Prop
  | nil : Ins rel [] [] []
  | cons {x d y xs ins ys} : rel x d y → Ins rel xs ins ys → Ins rel (x :: xs) ((y, d) :: ins) (y :: ys)

/-- A symbol's state can be in step with its operands:
* initialised with operands `xs`, its value is `f xs` and it reports no change. -/
structure Settled {V D : Type} (quiet : D) (N : NodeSem V D) where
  /-- in step with operands of the given values, nothing pending -/
  Clean : N.σ → List V → Prop
  init : ∀ {xs}, N.ok xs → ∃ s, N.init xs = .ok s ∧ Clean s xs
  view : ∀ {s xs}, Clean s xs → N.view s = N.f xs
  diff : ∀ {s xs}, Clean s xs → N.diff s = quiet

namespace Settled

variable {V D : Type} {quiet : D} {N : NodeSem V D}

/-- A change from operands `xs` to operands `ys` has been made but not yet committed or reverted: the
value is `f ys`, the change from `f xs` to `f ys` is reported; committed, the symbol is as if initialised
with `ys`; reverted, as if initialised with `xs`. -/
structure Pending (rel : V → D → V → Prop) (C : Settled quiet N) (s : N.σ) (xs ys : List V) : Prop where
  view : N.view s = N.f ys
  diff : rel (N.f xs) (N.diff s) (N.f ys)
  commit : ∃ c, N.commit s = .ok c ∧ C.Clean c ys
  revert : ∃ r, N.revert s = .ok r ∧ C.Clean r xs

/-- After its operands have changed from `xs` to `ys` and it was told to propagate, the symbol's value is
`f ys` and it reports the change from `f xs` to `f ys`; then, committed, it is as if initialised with
`ys`; reverted, as if initialised with `xs`. -/
def Propagates (rel : V → D → V → Prop) (C : Settled quiet N) : Prop :=
  ∀ {s xs ins ys}, C.Clean s xs → N.ok xs → N.ok ys → Ins rel xs ins ys →
    ∃ s', N.propagate s ins = .ok s' ∧ N.view s' = N.f ys ∧ rel (N.f xs) (N.diff s') (N.f ys) ∧
      (∃ c, N.commit s' = .ok c ∧ C.Clean c ys) ∧ (∃ r, N.revert s' = .ok r ∧ C.Clean r xs)

end Settled

/-- What a symbol owes its model. -/
structure Contract {V D : Type} (rel : V → D → V → Prop) (quiet : D) (N : NodeSem V D)
    extends Settled quiet N where
  propagate : ∀ {s xs ins ys}, Clean s xs → N.ok xs → N.ok ys → Ins rel xs ins ys →
    ∃ s', N.propagate s ins = .ok s' ∧ N.view s' = N.f ys ∧ rel (N.f xs) (N.diff s') (N.f ys) ∧
      (∃ c, N.commit s' = .ok c ∧ Clean c ys) ∧ (∃ r, N.revert s' = .ok r ∧ Clean r xs)

theorem Contract.propagates {V D : Type} {rel : V → D → V → Prop} {quiet : D} {N : NodeSem V D}
    (C : Contract rel quiet N) : C.toSettled.Propagates rel := fun h1 h2 h3 h4 => C.propagate h1 h2 h3 h4

/-! ## Histories of one symbol -/

/-- One round of a symbol's life: its operands change, it propagates the change, and then the change
is committed or reverted. -/
structure Round (V D : Type) where
  ins : List (V × D)
  accept : Bool

/-- `Legal rel ok xs rounds zs`: starting with operand values `xs`, the rounds report their operands'
changes correctly, the operands are always acceptable, and the committed operand values at the end are
`zs`. -/
inductive Legal {V D : Type} (rel : V → D → V → Prop) (ok : List V → Prop) :
    List V → List (Round V D) → List V → Prop
  | nil {xs} : Legal rel ok xs [] xs
  | cons {xs ys zs : List V} {r : Round V D} {rs} : Ins rel xs r.ins ys → ok ys →
    Legal rel ok (if r.accept then ys else xs) rs zs → Legal rel ok xs (r :: rs) zs

/-- Run one round. -/
def NodeSem.round {V D : Type} (N : NodeSem V D) (s : N.σ) (r : Round V D) : Res N.σ := do
  let s ← N.propagate s r.ins
  if r.accept then N.commit s else N.revert s

/-- Incremental evaluation equals recomputation: after every history, the symbol's value is `f` of its
operands' committed values and nothing is pending; after a further change of the operands its value is
`f` of their new values and its reported change leads from the committed to the current value.  None of
this throws or has undefined behaviour. -/
def Incremental {V D : Type} (rel : V → D → V → Prop) (quiet : D) (N : NodeSem V D)
    (f : List V → V) (ok : List V → Prop) : Prop :=
  ∀ xs0, ok xs0 → ∀ rounds xs, Legal rel ok xs0 rounds xs →
    ∃ s0 s, N.init xs0 = .ok s0 ∧ rounds.foldlM N.round s0 = .ok s ∧
      N.view s = f xs ∧ N.diff s = quiet ∧
      ∀ ins ys, Ins rel xs ins ys → ok ys →
        ∃ s', N.propagate s ins = .ok s' ∧ N.view s' = f ys ∧ rel (f xs) (N.diff s') (f ys)

/-- What is seen after a history: value and reported change. -/
def NodeSem.after {V D : Type} (N : NodeSem V D) (xs0 : List V) (rounds : List (Round V D)) :
    Res (V × D) := do
  let s ← N.init xs0
  let s ← rounds.foldlM N.round s
  .ok (N.view s, N.diff s)

instance decidableIns {V D : Type} (rel : V → D → V → Prop) [∀ x d y, Decidable (rel x d y)]
    [DecidableEq V] : ∀ xs ins ys, Decidable (Ins rel xs ins ys)
  | [], [], [] => .isTrue .nil
  | x :: xs, (y, d) :: ins, y' :: ys =>
    if h : y = y' ∧ rel x d y then
      match decidableIns rel xs ins ys with
      | .isTrue h' => .isTrue (h.1 ▸ .cons h.2 h')
      | .isFalse h' => .isFalse (fun hh => by cases hh with | cons _ hi => exact h' hi)
    else .isFalse (fun hh => by cases hh with | cons hr _ => exact h ⟨rfl, hr⟩)
  | [], _ :: _, _ => .isFalse (fun hh => by cases hh)
  | [], [], _ :: _ => .isFalse (fun hh => by cases hh)
  | _ :: _, [], _ => .isFalse (fun hh => by cases hh)
  | _ :: _, _ :: _, [] => .isFalse (fun hh => by cases hh)

/-- `Legal` can be decided for concrete histories. -/
instance decidableLegal {V D : Type} (rel : V → D → V → Prop) [∀ x d y, Decidable (rel x d y)]
    [DecidableEq V] (ok : List V → Prop) [DecidablePred ok] :
    ∀ xs rounds zs, Decidable (Legal rel ok xs rounds zs)
  | xs, [], zs =>
    if h : xs = zs then .isTrue (h ▸ .nil) else .isFalse (fun hh => by cases hh; exact h rfl)
  | xs, r :: rs, zs =>
    if h : Ins rel xs r.ins (r.ins.map Prod.fst) ∧ ok (r.ins.map Prod.fst) then
      match decidableLegal rel ok (if r.accept then r.ins.map Prod.fst else xs) rs zs with
      | .isTrue h' => .isTrue (.cons h.1 h.2 h')
      | .isFalse h' => .isFalse (fun hh => by
          cases hh with
          | cons hi ho hl =>
            have : ∀ {xs : List V} {ins ys}, Ins rel xs ins ys → ys = ins.map Prod.fst := by
              intro xs ins ys h
              induction h with
              | nil => rfl
              | cons _ _ ih => rw [ih]; rfl
            rw [this hi] at hl
            exact h' hl)
    else .isFalse (fun hh => by
      cases hh with
      | cons hi ho hl =>
        have : ∀ {xs : List V} {ins ys}, Ins rel xs ins ys → ys = ins.map Prod.fst := by
          intro xs ins ys h
          induction h with
          | nil => rfl
          | cons _ _ ih => rw [ih]; rfl
        have e := this hi
        exact h ⟨e ▸ hi, e ▸ ho⟩)

end Verif
