import Verif.Model.Refused

/-!
# Model of Python code with `with model.lock():` blocks
(/repo/dwave/optimization/model.py 46-52, 310-347, 491-499; _model.pyx 760-762, 1437-1439)
-/

namespace Verif

/-- Code that works on one model.  Loops and calls are code that is written out; leaving a function with `return` is an exception
which the call catches. -/
inductive PyCode where
  | pass
  /-- a call of a method of the model, or the creation of a symbol -/
  | call (op : ModelOp)
  /-- access to the state of a symbol -/
  | read (v : Nat)
  /-- any exception that has nothing to do with the model -/
  | raise
  | seq (a b : PyCode)
  /-- `try: body except: handler` -/
  | attempt (body handler : PyCode)
  /-- `with model.lock(): body` -/
  | withLock (body : PyCode)
  /-- `c = model.lock()` -/
  | keep (c : Nat)
  /-- `with c: body` -/
  | withKept (c : Nat) (body : PyCode)
  deriving DecidableEq

/-- The model, and the variables that hold a context manager which has not been entered. -/
structure Scope where
  model : PyModel
  contexts : List Nat

/-- What executing code does: the scope afterwards, whether an exception leaves the code, and the scopes before and after every
statement. -/
structure Ran where
  after : Scope
  raised : Bool
  seen : List Scope

namespace PyCode

/-- * `call`: see `PyModel.attempt`.
* `read`: `TypeError` for the state of an intermediate symbol of an unlocked model, _model.pyx 760-762, 1437-1439.  (Other reasons
  for exceptions are not modelled here; see `Graph.stateAt`.)
* `withLock`: `lock()` locks and returns `locked(self)`, model.py 346-347, unless it raises.  `contextlib.contextmanager` runs `locked` (model.py
  46-52) up to `yield`, then the body; in the end, with or without an exception, it goes on with `locked`, that unlocks the model in
  `finally`.  It does not swallow exceptions.
* `keep`: a context manager that is replaced or never entered does nothing: the generator has not been started.
* `withKept`: a context manager made by `contextlib.contextmanager` can be entered once; after that, entering it raises an
  exception.
* `Model.unlock`, model.py 491-499, does nothing if the model is unlocked, as does `_Graph.unlock`; the states are not modelled
  here. -/
def exec : PyCode → Scope → Res Ran
  | .pass, w => .ok ⟨w, false, [w]⟩
  | .call op, w => do
    let q ← w.model.attempt op
    .ok ⟨{ w with model := q.1 }, q.2, [w, { w with model := q.1 }]⟩
  | .read v, w => .ok ⟨w, decide (w.model.isLocked = false ∧ (w.model.g.mem v).topo < 0), [w]⟩
  | .raise, w => .ok ⟨w, true, [w]⟩
  | .seq a b, w => do
    let r ← a.exec w
    if r.raised then .ok r
    else do
      let s ← b.exec r.after
      .ok { s with seen := r.seen ++ s.seen }
  | .attempt body handler, w => do
    let r ← body.exec w
    if r.raised then do
      let s ← handler.exec r.after
      .ok { s with seen := r.seen ++ s.seen }
    else .ok r
  | .withLock body, w => do
    let q ← w.model.attempt .lock
    if q.2 then .ok ⟨{ w with model := q.1 }, true, [w, { w with model := q.1 }]⟩
    else do
      let r ← body.exec { w with model := q.1 }
      let u ← r.after.model.attempt .unlock
      .ok ⟨{ r.after with model := u.1 }, r.raised || u.2, w :: r.seen ++ [{ r.after with model := u.1 }]⟩
  | .keep c, w => do
    let q ← w.model.attempt .lock
    if q.2 then .ok ⟨{ w with model := q.1 }, true, [w, { w with model := q.1 }]⟩
    else .ok ⟨⟨q.1, w.contexts.insert c⟩, false, [w, ⟨q.1, w.contexts.insert c⟩]⟩
  | .withKept c body, w =>
    if c ∈ w.contexts then do
      let r ← body.exec { w with contexts := w.contexts.erase c }
      let u ← r.after.model.attempt .unlock
      .ok ⟨{ r.after with model := u.1 }, r.raised || u.2, w :: r.seen ++ [{ r.after with model := u.1 }]⟩
    else .ok ⟨w, true, [w]⟩

end PyCode
end Verif
