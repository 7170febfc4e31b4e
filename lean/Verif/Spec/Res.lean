/-!
# Outcomes of running C++ code

`ok a`   normal result;
`throw`  the code throws an exception;
`ub`     undefined behaviour (out-of-range access, null dereference, ...) or a violated `assert`
         (which a release build compiles out, running on outside the function's contract).
-/

namespace Verif

inductive Res (α : Type _) where
  | ok (a : α)
  | throw
  | ub
  deriving DecidableEq, Repr

namespace Res

variable {α β γ : Type _}

def bind (x : Res α) (f : α → Res β) : Res β :=
  match x with
  | ok a => f a
  | throw => throw
  | ub => ub

instance : Monad Res where
  pure := ok
  bind := bind

@[simp] theorem pure_eq (a : α) : (pure a : Res α) = ok a := rfl
@[simp] theorem ok_bind (a : α) (f : α → Res β) : (ok a >>= f) = f a := rfl
@[simp] theorem throw_bind (f : α → Res β) : ((throw : Res α) >>= f) = throw := rfl
@[simp] theorem ub_bind (f : α → Res β) : ((ub : Res α) >>= f) = ub := rfl

theorem bind_eq_ok {x : Res α} {f : α → Res β} {b : β} :
    (x >>= f) = ok b ↔ ∃ a, x = ok a ∧ f a = ok b := by
  cases x <;> simp

theorem bind_assoc' (x : Res α) (f : α → Res β) (g : β → Res γ) :
    ((x >>= f) >>= g) = (x >>= fun a => f a >>= g) := by
  cases x <;> simp

instance : LawfulMonad Res := LawfulMonad.mk'
  (id_map := by intro α x; cases x <;> rfl)
  (pure_bind := by intros; rfl)
  (bind_assoc := by intro α β γ x f g; cases x <;> rfl)

/-- `x.Ensures P`: the code neither throws nor has undefined behaviour, and its result
satisfies `P`. -/
def Ensures (x : Res α) (P : α → Prop) : Prop := ∃ a, x = ok a ∧ P a

end Res

/-- An assertion (or an access check): outside its condition the behaviour is undefined. -/
def guardUB (p : Prop) [Decidable p] : Res Unit := if p then .ok () else .ub
/-- `if (!p) throw ...;` -/
def guardThrow (p : Prop) [Decidable p] : Res Unit := if p then .ok () else .throw

@[simp] theorem guardUB_true {p : Prop} [Decidable p] (h : p) : guardUB p = .ok () := if_pos h
@[simp] theorem guardUB_false {p : Prop} [Decidable p] (h : ¬p) : guardUB p = .ub := if_neg h
theorem guardThrow_eq_ok {p : Prop} [Decidable p] {a : Unit} : guardThrow p = .ok a ↔ p := by
  unfold guardThrow; by_cases h : p <;> simp [h]
theorem guardUB_eq_ok {p : Prop} [Decidable p] {a : Unit} : guardUB p = .ok a ↔ p := by
  unfold guardUB; by_cases h : p <;> simp [h]
@[simp] theorem guardThrow_true {p : Prop} [Decidable p] (h : p) : guardThrow p = .ok () := if_pos h
@[simp] theorem guardThrow_false {p : Prop} [Decidable p] (h : ¬p) : guardThrow p = .throw := if_neg h

end Verif
