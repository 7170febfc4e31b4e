import Verif.Model.States
import Mathlib.Data.List.Basic
import Mathlib.Tactic.SplitIfs

set_option linter.unusedSimpArgs false
set_option linter.unusedVariables false

/-!
# C42: the list of states
-/

namespace Verif

variable {σ : Type} {fresh : σ}

/-- All future computations handed over are plain. -/
def PlainOps (ops : List (StatesOp σ)) : Prop := ∀ h, StatesOp.fromFuture h ∈ ops → h.Plain

namespace StatesObj

/-- The object stands for the list `l`: it holds it, or a computation is pending that will leave it. -/
inductive Stands : StatesObj σ → List σ → Prop
  | now {s : StatesObj σ} : s.future = none → Stands s s.states
  | later {s : StatesObj σ} {h : Hook σ} : s.future = some h → h.Plain → s.states = [] → Stands s (h.states [])

theorem Stands.resolve {s : StatesObj σ} {l : List σ} (h : Stands s l) :
    s.resolve.2 = false ∧ s.resolve.1.future = none ∧ s.resolve.1.states = l := by
  cases h with
  | now hn => simp [StatesObj.resolve, hn]
  | later hf hp he =>
    rename_i hk
    simp [StatesObj.resolve, hf, he, hp.1, hp.2]

theorem Stands.of {s : StatesObj σ} {l : List σ} (h : s.future = none) (e : s.states = l) : Stands s l := e ▸ Stands.now h

theorem resolve_none {s : StatesObj σ} (h : s.future = none) : s.resolve = (s, false) := by simp [StatesObj.resolve, h]

theorem Stands.step {s : StatesObj σ} {l : List σ} (h : Stands s l) (o : StatesOp σ) (ho : ∀ k, o = .fromFuture k → k.Plain) :
    Stands (s.step fresh o).1 (listStep fresh l o).1 ∧ (s.step fresh o).2 = (listStep fresh l o).2 := by
  obtain ⟨h1, h2, h3⟩ := h.resolve
  cases o with
  | size =>
    simp only [StatesObj.step, StatesObj.size, listStep, h1, Bool.false_eq_true, if_false, h3]
    exact ⟨.of h2 h3, trivial⟩
  | resize n =>
    simp only [StatesObj.step, StatesObj.resize, listStep, h1, Bool.false_eq_true, if_false, h3]
    by_cases hn : n < 0
    · simp only [if_pos hn]; exact ⟨.of h2 h3, trivial⟩
    · simp only [if_neg hn]; exact ⟨.of h2 rfl, trivial⟩
  | clear =>
    simp only [StatesObj.step, StatesObj.clear, listStep, h1, Bool.false_eq_true, if_false, h3]
    exact ⟨.of h2 rfl, trivial⟩
  | fromFuture k =>
    have e : s.resize fresh 0 = ({ s.resolve.1 with states := [] }, .done) := by
      simp [StatesObj.resize, h1, vectorResize]
    simp only [StatesObj.step, StatesObj.fromFuture, e, listStep]
    exact ⟨.later rfl (ho k rfl) rfl, trivial⟩
  | touch negative i f =>
    simp only [StatesObj.step, StatesObj.touch, listStep, h1, Bool.false_eq_true, if_false, resolve_none h2, h3]
    unfold stateIndex
    cases negative with
    | true =>
      by_cases hi : -(l.length : Int) ≤ i ∧ i < l.length
      · by_cases h0 : i < 0
        · have h0' : ¬ (0 ≤ i ∧ i < (l.length : Int)) := by omega
          have h0'' : ¬ 0 ≤ i := by omega
          simp only [hi, hi.1, h0, h0'', and_true, and_self, not_true, and_false, if_false, if_true, true_and, Bool.true_eq_false, false_and]
          exact .of h2 rfl
        · have h0' : 0 ≤ i ∧ i < (l.length : Int) := by omega
          simp only [hi, h0, h0', and_self, not_true, and_false, if_false, if_true, true_and, Bool.true_eq_false, false_and]
          exact ⟨.of h2 rfl, trivial⟩
      · have h0' : ¬ (0 ≤ i ∧ i < (l.length : Int)) := by omega
        have h0'' : ¬ (-(l.length : Int) ≤ i ∧ i < 0) := by omega
        simp only [hi, h0', h0'', not_false_eq_true, and_self, if_true, if_false, true_and]
        exact ⟨.of h2 h3, trivial⟩
    | false =>
      by_cases hi : 0 ≤ i ∧ i < (l.length : Int)
      · have h0 : ¬ i < 0 := by omega
        simp only [hi, h0, Bool.false_eq_true, false_and, if_false, and_self, not_true, and_false, if_true]
        exact ⟨.of h2 rfl, trivial⟩
      · simp only [hi, Bool.false_eq_true, false_and, if_false, not_false_eq_true, and_self, if_true]
        exact ⟨.of h2 h3, trivial⟩
  | each f =>
    simp only [StatesObj.step, StatesObj.each, listStep, h1, Bool.false_eq_true, if_false, h3]
    exact ⟨.of h2 rfl, trivial⟩
  | load new =>
    simp only [StatesObj.step, StatesObj.load, listStep, h1, Bool.false_eq_true, if_false, h3]
    exact ⟨.of rfl rfl, trivial⟩

theorem Stands.run {s : StatesObj σ} {l : List σ} (h : Stands s l) : ∀ (ops : List (StatesOp σ)), PlainOps ops →
    (StatesObj.run fresh s ops).1 = listRun fresh l ops
  | [], _ => rfl
  | o :: os, hp => by
    obtain ⟨h1, h2⟩ := h.step (fresh := fresh) o (fun k hk => hp k (by simp [hk]))
    simp only [StatesObj.run, listRun, h2]
    rw [h1.run os (fun k hk => hp k (by simp [hk]))]

end StatesObj

/-- **C42**: whatever sequence of operations a user performs - resizing, clearing, handing over future computations, accessing single
states, initialising or loading - they see what they would see of a plain list on which every future computation is carried out
at once: resizing keeps the first states and adds fresh ones, clearing removes all, negative sizes and indices outside the list
are rejected without effect.  (The computations neither raise nor hand over another one.) -/
theorem C42_list (fresh : σ) (ops : List (StatesOp σ)) (hp : PlainOps ops) :
    (StatesObj.run fresh StatesObj.new ops).1 = listRun fresh [] ops :=
  (StatesObj.Stands.now (s := StatesObj.new) rfl).run ops hp

/-- The calls of `from_future` that succeeded, in order. -/
def handedOver : List (StatesOp σ) → List (StatesOut σ) → List Nat
  | .fromFuture h :: ops, .done :: outs => h.id :: handedOver ops outs
  | _ :: ops, _ :: outs => handedOver ops outs
  | _, _ => []

namespace StatesObj

/-- The identifier of the pending computation. -/
def pendingId (s : StatesObj σ) : List Nat := (s.future.map Hook.id).toList

/-- While a computation is pending the list is empty, and the computation does not hand over another one. -/
def Waiting (s : StatesObj σ) : Prop := ∀ h ∈ s.future, s.states = [] ∧ h.next [] = none

theorem Waiting.resolve {s : StatesObj σ} (h : s.Waiting) :
    s.resolve.1.future = none ∧ s.resolve.1.called = s.called ++ s.pendingId := by
  cases hf : s.future with
  | none => simp [StatesObj.resolve, hf, pendingId]
  | some k =>
    obtain ⟨h1, h2⟩ := h k (by simp [hf])
    simp [StatesObj.resolve, hf, pendingId, h1, h2]

theorem waiting_none {s : StatesObj σ} (h : s.future = none) : s.Waiting := by
  intro k hk; rw [h] at hk; cases hk

theorem pendingId_none {s : StatesObj σ} (h : s.future = none) : s.pendingId = [] := by simp [pendingId, h]

theorem Waiting.step {s : StatesObj σ} (h : s.Waiting) (o : StatesOp σ) (ho : ∀ k, o = .fromFuture k → k.next [] = none) :
    (s.step fresh o).1.Waiting ∧
    (s.step fresh o).1.called ++ (s.step fresh o).1.pendingId = s.called ++ s.pendingId ++ handedOver [o] [(s.step fresh o).2] ∧
    ((∀ k, o ≠ .fromFuture k) → (s.step fresh o).1.future = none) := by
  obtain ⟨h1, h2⟩ := h.resolve
  cases o with
  | size =>
    simp only [StatesObj.step, StatesObj.size]
    split_ifs <;> simp [handedOver, waiting_none h1, pendingId_none h1, h1, h2]
  | resize n =>
    simp only [StatesObj.step, StatesObj.resize]
    split_ifs
    · simp [handedOver, waiting_none h1, pendingId_none h1, h1, h2]
    · simp [handedOver, waiting_none h1, pendingId_none h1, h1, h2]
    · have hf : ({ s.resolve.1 with states := vectorResize fresh n.toNat s.resolve.1.states } : StatesObj σ).future = none := h1
      refine ⟨waiting_none hf, ?_, fun _ => h1⟩
      rw [pendingId_none hf]
      simp [handedOver, h2]
  | clear =>
    simp only [StatesObj.step, StatesObj.clear]
    split_ifs
    · simp [handedOver, waiting_none h1, pendingId_none h1, h1, h2]
    · have hf : ({ s.resolve.1 with states := [] } : StatesObj σ).future = none := h1
      refine ⟨waiting_none hf, ?_, fun _ => h1⟩
      rw [pendingId_none hf]
      simp [handedOver, h2]
  | fromFuture k =>
    simp only [StatesObj.step, StatesObj.fromFuture, StatesObj.resize]
    by_cases hr : s.resolve.2 = true
    · simp [hr, handedOver, waiting_none h1, pendingId_none h1, h1, h2]
    · simp only [hr, Bool.false_eq_true, if_false, Int.lt_irrefl]
      refine ⟨?_, ?_, fun h => absurd rfl (h k)⟩
      · intro k' hk'
        simp at hk'
        subst hk'
        exact ⟨by simp [vectorResize], ho k rfl⟩
      · simp [handedOver, pendingId, h2]
  | touch negative i f =>
    simp only [StatesObj.step, StatesObj.touch]
    rw [resolve_none h1]
    simp only [Bool.false_eq_true, if_false]
    split_ifs <;> first
      | (simp [handedOver, waiting_none h1, pendingId_none h1, h1, h2]; done)
      | (refine ⟨waiting_none h1, ?_, fun _ => h1⟩
         simp [handedOver, pendingId, h1, h2])
  | each f =>
    simp only [StatesObj.step, StatesObj.each]
    split_ifs
    · simp [handedOver, waiting_none h1, pendingId_none h1, h1, h2]
    · refine ⟨waiting_none h1, ?_, fun _ => h1⟩
      simp [handedOver, pendingId, h1, h2]
  | load new =>
    simp only [StatesObj.step, StatesObj.load]
    split_ifs
    · simp [handedOver, waiting_none h1, pendingId_none h1, h1, h2]
    · refine ⟨waiting_none rfl, ?_, fun _ => rfl⟩
      simp [handedOver, pendingId, h1, h2]

theorem handedOver_cons (o : StatesOp σ) (r : StatesOut σ) (ops : List (StatesOp σ)) (outs : List (StatesOut σ)) :
    handedOver (o :: ops) (r :: outs) = handedOver [o] [r] ++ handedOver ops outs := by
  cases o <;> cases r <;> simp [handedOver]

theorem Waiting.run : ∀ (ops : List (StatesOp σ)) {s : StatesObj σ}, s.Waiting →
    (∀ k, StatesOp.fromFuture k ∈ ops → k.next [] = none) →
    (StatesObj.run fresh s ops).2.Waiting ∧
    (StatesObj.run fresh s ops).2.called ++ (StatesObj.run fresh s ops).2.pendingId =
      s.called ++ s.pendingId ++ handedOver ops (StatesObj.run fresh s ops).1 ∧
    ((∀ k, ops.getLast? ≠ some (.fromFuture k)) → (ops = [] → s.future = none) → (StatesObj.run fresh s ops).2.future = none)
  | [], s, h, _ => ⟨h, by simp [StatesObj.run, handedOver], fun _ h => h rfl⟩
  | o :: os, s, h, hp => by
    obtain ⟨h1, h2, h3⟩ := h.step (fresh := fresh) o (fun k hk => hp k (by simp [hk]))
    obtain ⟨g1, g2, g3⟩ := Waiting.run os h1 (fun k hk => hp k (by simp [hk]))
    simp only [StatesObj.run]
    refine ⟨g1, ?_, fun hl _ => ?_⟩
    · rw [handedOver_cons o _ os, g2, h2]
      simp
    · apply g3
      · intro k hk
        apply hl k
        cases os with
        | nil => simp at hk
        | cons a os => simpa using hk
      · rintro rfl
        apply h3
        rintro k rfl
        exact hl k rfl

end StatesObj

/-- **C42** (futures), also for computations that raise: the computations called so far, followed by the pending one if there is one,
are those handed over, in order - so each is called at most once, and exactly once unless it is the last one and nothing has been
done since: after any other operation none is pending. -/
theorem C42_future_once (fresh : σ) (ops : List (StatesOp σ)) (hp : ∀ k, StatesOp.fromFuture k ∈ ops → k.next [] = none) :
    (StatesObj.run fresh StatesObj.new ops).2.called ++
        ((StatesObj.run fresh StatesObj.new ops).2.future.map Hook.id).toList =
      handedOver ops (StatesObj.run fresh StatesObj.new ops).1 ∧
    ((∀ k, ops.getLast? ≠ some (.fromFuture k)) → (StatesObj.run fresh StatesObj.new ops).2.future = none) := by
  obtain ⟨_, h2, h3⟩ := StatesObj.Waiting.run (fresh := fresh) ops (s := StatesObj.new) (StatesObj.waiting_none rfl) hp
  exact ⟨by simpa [StatesObj.new, StatesObj.pendingId] using h2, fun h => h3 h (fun _ => rfl)⟩

/-- **C42** (resizing): the first states stay, fresh ones are added. -/
theorem C42_resize (fresh : σ) (s : StatesObj σ) (n : Nat) (h : s.future = none) :
    (s.resize fresh n).2 = .done ∧ (s.resize fresh n).1.states.length = n ∧
    (∀ i, i < n → i < s.states.length → (s.resize fresh n).1.states[i]? = s.states[i]?) ∧
    (∀ i, i < n → s.states.length ≤ i → (s.resize fresh n).1.states[i]? = some fresh) := by
  have e : s.resize fresh n = ({ s with states := StatesObj.vectorResize fresh n s.states }, .done) := by
    have hn : ¬ ((n : Int) < 0) := by omega
    simp [StatesObj.resize, StatesObj.resolve_none h, hn]
  rw [e]
  refine ⟨rfl, ?_, ?_, ?_⟩
  · simp [StatesObj.vectorResize]; omega
  · intro i hi hl
    simp only [StatesObj.vectorResize]
    rw [List.getElem?_append_left (by simp; omega), List.getElem?_take_of_lt hi]
  · intro i hi hl
    simp only [StatesObj.vectorResize]
    rw [List.getElem?_append_right (by simp; omega), List.getElem?_replicate]
    simp
    omega

/-! ## Concrete cases -/

/-- A computation leaving two states behind. -/
def twoStates : Hook Nat := .mk 7 (fun _ => [10, 20]) (fun _ => none) (fun _ => false)

example : PlainOps [StatesOp.resize 3, .touch false 1 (fun (_ : Nat) => 5), .fromFuture twoStates, .touch true (-1) id, .resize (-1)] := by
  intro h hh
  simp at hh
  subst hh
  exact ⟨rfl, rfl⟩

example : (StatesObj.run 0 StatesObj.new
    [StatesOp.resize 3, .touch false 1 (fun (_ : Nat) => 5), .fromFuture twoStates, .touch true (-1) id, .resize (-1), .resize 3, .touch false 2 id, .size,
      .touch false 3 id]).1 =
    [.done, .state 5, .done, .state 20, .error, .done, .state 0, .number 3, .error] := by decide

/-- A computation that raises is called once; the operation that called it does not take effect. -/
example : (StatesObj.run 0 StatesObj.new
    [StatesOp.fromFuture (.mk 1 (fun _ => []) (fun _ => none) (fun _ => true)), .resize 2, .resize 2, (.size : StatesOp Nat)]).1 =
    [.done, .error, .done, .number 2] := by decide

/-- **C42 fails** if a future computation hands over another one: `size` answers although that one is still pending, and
`from_future` throws it away without ever calling it. -/
theorem C42_chained_fails :
    let inner : Hook Nat := .mk 2 (fun _ => [1, 2, 3]) (fun _ => none) (fun _ => false)
    let outer : Hook Nat := .mk 1 (fun l => l) (fun _ => some inner) (fun _ => false)
    let last : Hook Nat := .mk 3 (fun _ => [4]) (fun _ => none) (fun _ => false)
    (StatesObj.run 0 StatesObj.new [.fromFuture outer, .size]).1 = [.done, .number 0] ∧
    (StatesObj.run 0 StatesObj.new [.fromFuture outer, .size]).2.pendingId = [2] ∧
    (StatesObj.run 0 StatesObj.new [.fromFuture outer, .fromFuture last, .size]).2.called = [1, 3] ∧
    (StatesObj.run 0 StatesObj.new [.fromFuture outer, .fromFuture last, .size]).2.pendingId = [] := by decide

end Verif
