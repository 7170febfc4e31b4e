import Mathlib.Data.List.ReduceOption
import Mathlib.Tactic.SplitIfs
import Verif.Model.TypedArguments

/-!
# C80: functions that take symbols and what else they are given
-/

namespace Verif

namespace SymbolCall

/-- The symbols, or what else stands for them, in a call. -/
def arguments : SymbolCall → List Handed
  | .one _ x => [x]
  | .two _ l r => [l, r]
  | .many _ xs => xs
  | .choose c x y => [c, x, y]
  | .advanced a indices => a :: indices.reduceOption
  | .constraint x => [x]
  | .objective x => [x]
  | .shares _ x => [x]

/-- Calls that make a symbol of others. -/
def Builds : SymbolCall → Prop
  | .constraint _ | .objective _ | .shares _ _ => False
  | _ => True

/-- Calls that look at their arguments before they use them. -/
def Checks : SymbolCall → Prop
  | .many _ _ | .constraint _ | .objective _ => True
  | _ => False

end SymbolCall

theorem manyLoop_ok {m : Nat} : ∀ {xs : List Handed} {l : List Nat}, manyLoop m xs = .ok l ↔ xs = l.map (Handed.array m)
  | [], l => by
    simp only [manyLoop, Res.ok.injEq]
    constructor
    · rintro rfl
      rfl
    · intro h
      cases l with
      | nil => rfl
      | cons => cases h
  | x :: xs, l => by
    cases x with
    | array k n =>
      simp only [manyLoop, Handed.modelOf, Handed.cast, Handed.pointer, Res.ok_bind, Res.bind_eq_ok, guardThrow_eq_ok, manyLoop_ok]
      constructor
      · rintro ⟨_, rfl, l', rfl, h⟩
        cases h
        rfl
      · intro h
        cases l with
        | nil => cases h
        | cons p l =>
          simp only [List.map_cons, List.cons.injEq, Handed.array.injEq] at h
          obtain ⟨⟨rfl, rfl⟩, h⟩ := h
          exact ⟨(), rfl, l, h, rfl⟩
    | _ =>
      constructor
      · intro h
        simp [manyLoop, Handed.modelOf, Handed.cast, Res.bind_eq_ok, Res.ok_bind] at h
      · intro h
        cases l <;> simp at h

theorem manyLoop_total {m : Nat} : ∀ (xs : List Handed), manyLoop m xs ≠ .ub
  | [] => by simp [manyLoop]
  | x :: xs => by
    intro h
    cases x with
    | array k n =>
      simp only [manyLoop, Handed.modelOf, Handed.cast, Handed.pointer, Res.ok_bind] at h
      by_cases hk : k = m
      · rw [guardThrow_true hk, Res.ok_bind] at h
        cases hl : manyLoop m xs with
        | ok l =>
          rw [hl] at h
          cases h
        | throw =>
          rw [hl] at h
          cases h
        | ub => exact manyLoop_total xs hl
      · unfold guardThrow at h
        rw [if_neg hk] at h
        cases h
    | none => cases h
    | other => cases h
    | plain k n =>
      simp only [manyLoop, Handed.modelOf, Handed.cast, Res.ok_bind] at h
      unfold guardThrow at h
      split_ifs at h
      · cases h
      · cases h
    | lookalike k =>
      simp only [manyLoop, Handed.modelOf, Handed.cast, Res.ok_bind] at h
      unfold guardThrow at h
      split_ifs at h
      · cases h
      · cases h

theorem advancedLoop_ok {m : Nat} : ∀ {xs : List (Option Handed)} {l : List Nat},
    advancedLoop m xs = .ok l ↔ xs.reduceOption = l.map (Handed.array m)
  | [], l => by
    simp only [advancedLoop, Res.ok.injEq, List.reduceOption_nil]
    constructor
    · rintro rfl
      rfl
    · intro h
      cases l with
      | nil => rfl
      | cons => cases h
  | none :: xs, l => by
    rw [advancedLoop, List.reduceOption_cons_of_none]
    exact advancedLoop_ok
  | some x :: xs, l => by
    rw [List.reduceOption_cons_of_some]
    cases x with
    | array k n =>
      simp only [advancedLoop, Handed.asArray, Handed.field, Handed.pointer, Res.ok_bind, Res.bind_eq_ok, guardThrow_eq_ok, advancedLoop_ok]
      constructor
      · rintro ⟨_, rfl, l', h', h⟩
        cases h
        rw [h', List.map_cons]
      · intro h
        cases l with
        | nil => cases h
        | cons p l =>
          simp only [List.map_cons, List.cons.injEq, Handed.array.injEq] at h
          obtain ⟨⟨rfl, rfl⟩, h⟩ := h
          exact ⟨(), rfl, l, h, rfl⟩
    | _ =>
      constructor
      · intro h
        simp [advancedLoop, Handed.asArray, Handed.field, Res.ok_bind] at h
      · intro h
        cases l <;> simp at h

theorem advancedLoop_total {m : Nat} : ∀ (xs : List (Option Handed)), Handed.none ∉ xs.reduceOption → advancedLoop m xs ≠ .ub
  | [], _ => by simp [advancedLoop]
  | none :: xs, h => by
    rw [advancedLoop]
    exact advancedLoop_total xs (by rwa [List.reduceOption_cons_of_none] at h)
  | some x :: xs, hn => by
    rw [List.reduceOption_cons_of_some, List.mem_cons, not_or] at hn
    intro h
    cases x with
    | array k n =>
      simp only [advancedLoop, Handed.asArray, Handed.field, Handed.pointer, Res.ok_bind] at h
      by_cases hk : k = m
      · rw [guardThrow_true hk, Res.ok_bind] at h
        cases hl : advancedLoop m xs with
        | ok l =>
          rw [hl] at h
          cases h
        | throw =>
          rw [hl] at h
          cases h
        | ub => exact advancedLoop_total xs hn.2 hl
      · unfold guardThrow at h
        rw [if_neg hk] at h
        cases h
    | none => exact hn.1 rfl
    | plain k n => cases h
    | lookalike k => cases h
    | other => cases h

/-- **C80**: a symbol is made exactly of array symbols of one model, at least one, and it is made of these, in their order. -/
theorem C80_accepted {c : SymbolCall} (hc : c.Builds) (r : CallResult) :
    c.run = .ok r ↔ ∃ (m : Nat) (l : List Nat), l ≠ [] ∧ c.arguments = l.map (Handed.array m) ∧ r = .nodes l := by
  cases c with
  | constraint => exact hc.elim
  | objective => exact hc.elim
  | shares => exact hc.elim
  | one c x =>
    constructor
    · intro h
      cases x <;> cases h
      rename_i m n
      exact ⟨m, [n], by simp, rfl, rfl⟩
    · rintro ⟨m, l, _, h, rfl⟩
      match l, h with
      | [], h => cases h
      | [n], h =>
        cases h
        rfl
      | _ :: _ :: _, h => cases h
  | two c x y =>
    constructor
    · intro h
      cases x with
      | array m n =>
        cases y with
        | array k j =>
          simp only [SymbolCall.run, Handed.asArray, Handed.field, Handed.pointer, Res.ok_bind, Res.bind_eq_ok, guardThrow_eq_ok] at h
          obtain ⟨_, rfl, h⟩ := h
          cases h
          exact ⟨m, [n, j], by simp, rfl, rfl⟩
        | _ => cases h
      | none => cases y <;> cases h
      | _ => cases h
    · rintro ⟨m, l, _, h, rfl⟩
      match l, h with
      | [], h => cases h
      | [n], h => cases h
      | [n, j], h =>
        cases h
        simp only [SymbolCall.run, Handed.asArray, Handed.field, Handed.pointer, Res.ok_bind]
        rfl
      | _ :: _ :: _ :: _, h => cases h
  | many c xs =>
    cases xs with
    | nil =>
      constructor
      · intro h
        cases h
      · rintro ⟨m, l, hl, h, _⟩
        cases l with
        | nil => exact absurd rfl hl
        | cons => cases h
    | cons x xs =>
      simp only [SymbolCall.run, SymbolCall.arguments, Res.bind_eq_ok, manyLoop_ok]
      constructor
      · rintro ⟨m, _, l, h, hr⟩
        cases hr
        exact ⟨m, l, fun e => (by rw [e] at h; cases h), h, rfl⟩
      · rintro ⟨m, l, hl, h, rfl⟩
        cases l with
        | nil => exact absurd rfl hl
        | cons n l =>
          refine ⟨m, ?_, n :: l, h, rfl⟩
          cases h
          rfl
  | choose x y z =>
    constructor
    · intro h
      cases x with
      | array m n =>
        cases y with
        | array k j =>
          cases z with
          | array k' j' =>
            simp only [SymbolCall.run, Handed.asArray, Handed.field, Handed.pointer, Res.ok_bind, Res.bind_eq_ok, guardThrow_eq_ok] at h
            obtain ⟨_, rfl, _, rfl, h⟩ := h
            cases h
            exact ⟨m, [n, j, j'], by simp, rfl, rfl⟩
          | none =>
            simp only [SymbolCall.run, Handed.asArray, Handed.field, Res.ok_bind, Res.bind_eq_ok, guardThrow_eq_ok] at h
            obtain ⟨_, _, _, h, _⟩ := h
            cases h
          | _ => cases h
        | none => cases z <;> cases h
        | _ => cases h
      | none => cases y <;> cases z <;> cases h
      | _ => cases h
    · rintro ⟨m, l, _, h, rfl⟩
      match l, h with
      | [], h => cases h
      | [n], h => cases h
      | [n, j], h => cases h
      | [n, j, i], h =>
        cases h
        simp only [SymbolCall.run, Handed.asArray, Handed.field, Handed.pointer, Res.ok_bind]
        rfl
      | _ :: _ :: _ :: _ :: _, h => cases h
  | advanced a xs =>
    constructor
    · intro h
      cases a with
      | array m n =>
        simp only [SymbolCall.run, Handed.asArray, Handed.field, Handed.pointer, Res.ok_bind, Res.bind_eq_ok, advancedLoop_ok] at h
        obtain ⟨l, h, hr⟩ := h
        cases hr
        exact ⟨m, n :: l, by simp, by simp [SymbolCall.arguments, h], rfl⟩
      | _ => cases h
    · rintro ⟨m, l, hl, h, rfl⟩
      cases l with
      | nil => exact absurd rfl hl
      | cons n l =>
        simp only [SymbolCall.arguments, List.map_cons, List.cons.injEq] at h
        obtain ⟨rfl, h⟩ := h
        simp only [SymbolCall.run, Handed.asArray, Handed.field, Handed.pointer, Res.ok_bind, Res.bind_eq_ok, advancedLoop_ok]
        exact ⟨l, h, rfl⟩

example : (SymbolCall.many .naryAdd [.array 0 3, .array 0 5, .array 0 3]).run = .ok (.nodes [3, 5, 3]) := rfl
example : (SymbolCall.two .add (.array 0 3) (.array 1 5)).run = .throw := rfl
example : (SymbolCall.advanced (.array 0 3) [none, some (.plain 0 5)]).run = .throw := rfl

/-- **C80**, partial: without `None` no call is undefined; with `C80_accepted`, what is no array symbol is refused.  Missing: `None`, which
only some of the functions refuse (`C80_checked`, `C80_none_fails`). -/
theorem C80_others_partial (c : SymbolCall) (h : Handed.none ∉ c.arguments) : c.run ≠ .ub := by
  intro hr
  cases c with
  | one c x =>
    cases x with
    | none => exact h List.mem_cons_self
    | _ => cases hr
  | two c x y =>
    simp only [SymbolCall.arguments, List.mem_cons, List.not_mem_nil, or_false, not_or] at h
    cases x with
    | array m n =>
      cases y with
      | array k j =>
        simp only [SymbolCall.run, Handed.asArray, Handed.field, Handed.pointer, Res.ok_bind] at hr
        unfold guardThrow at hr
        split_ifs at hr
        · cases hr
        · cases hr
      | none => exact h.2 rfl
      | _ => cases hr
    | none => exact h.1 rfl
    | _ => cases hr
  | many c xs =>
    cases xs with
    | nil => cases hr
    | cons x xs =>
      simp only [SymbolCall.run] at hr
      cases x with
      | none => cases hr
      | other => cases hr
      | array m n =>
        simp only [Handed.modelOf, Res.ok_bind] at hr
        cases hl : manyLoop m (.array m n :: xs) with
        | ok l =>
          rw [hl] at hr
          cases hr
        | throw =>
          rw [hl] at hr
          cases hr
        | ub => exact manyLoop_total _ hl
      | plain m n =>
        simp only [Handed.modelOf, Res.ok_bind] at hr
        cases hl : manyLoop m (.plain m n :: xs) with
        | ok l =>
          rw [hl] at hr
          cases hr
        | throw =>
          rw [hl] at hr
          cases hr
        | ub => exact manyLoop_total _ hl
      | lookalike m =>
        simp only [Handed.modelOf, Res.ok_bind] at hr
        cases hl : manyLoop m (.lookalike m :: xs) with
        | ok l =>
          rw [hl] at hr
          cases hr
        | throw =>
          rw [hl] at hr
          cases hr
        | ub => exact manyLoop_total _ hl
  | choose x y z =>
    simp only [SymbolCall.arguments, List.mem_cons, List.not_mem_nil, or_false, not_or] at h
    cases x with
    | array m n =>
      cases y with
      | array k j =>
        cases z with
        | array k' j' =>
          simp only [SymbolCall.run, Handed.asArray, Handed.field, Handed.pointer, Res.ok_bind] at hr
          unfold guardThrow at hr
          split_ifs at hr
          all_goals cases hr
        | none => exact h.2.2 rfl
        | _ => cases hr
      | none => exact h.2.1 rfl
      | _ => cases hr
    | none => exact h.1 rfl
    | _ => cases hr
  | advanced a xs =>
    simp only [SymbolCall.arguments, List.mem_cons, not_or] at h
    cases a with
    | array m n =>
      simp only [SymbolCall.run, Handed.asArray, Handed.field, Res.ok_bind] at hr
      cases hl : advancedLoop m xs with
      | ok l =>
        rw [hl] at hr
        cases hr
      | throw =>
        rw [hl] at hr
        cases hr
      | ub => exact advancedLoop_total _ h.2 hl
    | none => exact h.1 rfl
    | _ => cases hr
  | constraint x => cases x <;> cases hr
  | objective x => cases x <;> cases hr
  | shares n x =>
    cases x with
    | none => exact h List.mem_cons_self
    | _ => cases hr

example : (SymbolCall.choose (.array 0 1) .other (.array 0 2)).run = .throw := rfl

/-- **C80**: the classes with many operands, `concatenate`, `add_constraint` and `minimize` refuse `None` too, and are never undefined. -/
theorem C80_checked {c : SymbolCall} (hc : c.Checks) : c.run ≠ .ub ∧ (Handed.none ∈ c.arguments → c.run = .throw) := by
  have hub : c.run ≠ .ub := by
    cases c with
    | many c xs =>
      cases xs with
      | nil => simp [SymbolCall.run]
      | cons x xs =>
        intro hr
        simp only [SymbolCall.run] at hr
        cases ha : x.modelOf with
        | ub => cases x <;> cases ha
        | throw =>
          rw [ha] at hr
          cases hr
        | ok m =>
          rw [ha, Res.ok_bind] at hr
          cases hl : manyLoop m (x :: xs) with
          | ok l =>
            rw [hl] at hr
            cases hr
          | throw =>
            rw [hl] at hr
            cases hr
          | ub => exact manyLoop_total _ hl
    | constraint x =>
      intro hr
      cases x <;> cases hr
    | objective x =>
      intro hr
      cases x <;> cases hr
    | _ => exact hc.elim
  refine ⟨hub, fun hn => ?_⟩
  cases hr : c.run with
  | throw => rfl
  | ub => exact absurd hr hub
  | ok r =>
    cases c with
    | many c xs =>
      obtain ⟨m, l, _, h, _⟩ := (C80_accepted (c := .many c xs) trivial r).1 hr
      rw [h] at hn
      obtain ⟨_, _, he⟩ := List.mem_map.1 hn
      cases he
    | constraint x =>
      simp only [SymbolCall.arguments, List.mem_singleton] at hn
      subst hn
      cases hr
    | objective x =>
      simp only [SymbolCall.arguments, List.mem_singleton] at hn
      subst hn
      cases hr
    | _ => exact hc.elim

example : (SymbolCall.many .concatenate [.array 0 1, .none]).run = .throw := rfl
example : (SymbolCall.objective .none).run = .throw := rfl

/-- **C80**: `shares_memory` says whether two symbols have the same node, and that other objects have not. -/
theorem C80_shares {n : Nat} {x : Handed} (hx : x ≠ .none) :
    ∃ b, (SymbolCall.shares n x).run = .ok (.answer b) ∧ (b = true ↔ ∃ m, x = .array m n ∨ x = .plain m n) := by
  cases x with
  | none => exact absurd rfl hx
  | array m k => exact ⟨decide (n = k), rfl, by simp [eq_comm]⟩
  | plain m k => exact ⟨decide (n = k), rfl, by simp [eq_comm]⟩
  | lookalike m => exact ⟨false, rfl, by simp⟩
  | other => exact ⟨false, rfl, by simp⟩

example : (SymbolCall.shares 4 (.array 0 4)).run = .ok (.answer true) := rfl

/-- **C80**: `add_constraint` and `minimize` take exactly the array symbols, and take the one they are given. -/
theorem C80_model {x : Handed} {r : CallResult} :
    ((SymbolCall.constraint x).run = .ok r ↔ ∃ m n, x = .array m n ∧ r = .nodes [n]) ∧
    ((SymbolCall.objective x).run = .ok r ↔ ∃ m n, x = .array m n ∧ r = .nodes [n]) := by
  have key : ∀ f : Handed → SymbolCall, (∀ m n, (f (.array m n)).run = .ok (.nodes [n])) →
      (∀ x, (∀ m n, x ≠ .array m n) → (f x).run = .throw) →
      ((f x).run = .ok r ↔ ∃ m n, x = .array m n ∧ r = .nodes [n]) := by
    intro f h1 h2
    constructor
    · intro h
      by_cases hx : ∃ m n, x = .array m n
      · obtain ⟨m, n, rfl⟩ := hx
        rw [h1] at h
        exact ⟨m, n, rfl, (Res.ok.inj h).symm⟩
      · rw [h2 x (fun m n e => hx ⟨m, n, e⟩)] at h
        cases h
    · rintro ⟨m, n, rfl, rfl⟩
      exact h1 m n
  refine ⟨key _ (fun m n => rfl) (fun x hx => ?_), key _ (fun m n => rfl) (fun x hx => ?_)⟩
  all_goals
    cases x with
    | array m n => exact absurd rfl (hx m n)
    | _ => rfl

example : (SymbolCall.objective (.array 0 4)).run = .ok (.nodes [4]) := rfl
example : (SymbolCall.constraint (.plain 0 4)).run = .throw := rfl

/-! ## Where C80 is false -/

/-- **C80 fails** for `None`: every class with typed operands reads from it as if it were a symbol, and so does `shares_memory`. -/
theorem C80_none_fails (m n k : Nat) :
    (∀ c, (SymbolCall.one c .none).run = .ub) ∧
    (∀ c, (SymbolCall.two c (.array m n) .none).run = .ub ∧ (SymbolCall.two c .none (.array m n)).run = .ub) ∧
    (SymbolCall.choose .none (.array m n) (.array m k)).run = .ub ∧ (SymbolCall.choose (.array m n) (.array m k) .none).run = .ub ∧
    (SymbolCall.advanced (.array m n) [some .none]).run = .ub ∧ (SymbolCall.shares n .none).run = .ub := by
  refine ⟨fun c => rfl, fun c => ⟨rfl, rfl⟩, rfl, ?_, rfl, rfl⟩
  simp only [SymbolCall.run, Handed.asArray, Handed.field, Res.ok_bind]
  rfl

/-- **C80 fails** for the functions: `add(x, None)` is undefined although `add(x, None, y)` raises an exception. -/
theorem C80_function_fails (o : Operation) (m n k : Nat) :
    o.call [.array m n, .none] = .ub ∧ o.call [.array m n, .none, .array m k] = .throw := by
  refine ⟨by cases o <;> rfl, ?_⟩
  simp only [Operation.call]
  exact (C80_checked (c := .many _ _) trivial).2 (by simp [SymbolCall.arguments])

/-- What `C80_function_fails` is the exception to: with array symbols of one model the functions make a symbol of all operands,
and they refuse fewer than two. -/
theorem C80_functions (o : Operation) (m : Nat) (l : List Nat) (h : 2 ≤ l.length) :
    o.call (l.map (Handed.array m)) = .ok (.nodes l) ∧ ∀ xs : List Handed, xs.length < 2 → o.call xs = .throw := by
  refine ⟨?_, fun xs hxs => ?_⟩
  swap
  · match xs, hxs with
    | [], _ => rfl
    | [_], _ => rfl
    | _ :: _ :: _, hxs => exact absurd hxs (by simp)
  match l, h with
  | [], h => simp at h
  | [_], h => simp at h
  | [x, y], _ =>
    simp only [List.map_cons, List.map_nil, Operation.call]
    exact (C80_accepted (by trivial) _).2 ⟨m, [x, y], by simp, rfl, rfl⟩
  | x :: y :: z :: l, _ =>
    simp only [List.map_cons, Operation.call]
    exact (C80_accepted (by trivial) _).2 ⟨m, x :: y :: z :: l, by simp, rfl, rfl⟩

example : Operation.maximum.call [.array 0 1, .array 0 2, .array 0 1] = .ok (.nodes [1, 2, 1]) := rfl

end Verif
