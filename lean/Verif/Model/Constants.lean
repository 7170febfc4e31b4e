import Verif.Model.Bounds

/-!
# Model of `ConstantNode`'s statistics
(/repo/dwave/optimization/src/nodes/constants.cpp, include/dwave-optimization/nodes/constants.hpp)
-/

namespace Verif

/-- `ConstantNode::BufferStats`, constants.hpp 119-126. -/
structure BufferStats where
  integral : Bool
  min : Rat
  max : Rat
  deriving DecidableEq, Repr

/-- `std::ranges::min`, `std::ranges::max`: undefined for an empty range. -/
def rangesMin : List Rat → Res Rat
  | [] => .ub
  | x :: xs => .ok (xs.foldl (fun m y => if y < m then y else m) x)

def rangesMax : List Rat → Res Rat
  | [] => .ub
  | x :: xs => .ok (xs.foldl (fun m y => if m < y then y else m) x)

/-- `BufferStats::BufferStats`, constants.cpp 29-34. -/
def BufferStats.make (values : List Rat) : Res BufferStats := do
  let lo ← rangesMin values
  let hi ← rangesMax values
  guardUB (values ≠ [])
  .ok ⟨values.all isInteger, lo, hi⟩

/-- What can be asked. -/
inductive StatQuery where
  | integral | min | max
  deriving DecidableEq, Repr

/-- An answer. -/
inductive StatAnswer where
  | bool (b : Bool)
  | num (x : Rat)
  deriving DecidableEq, Repr

/-- The member of `BufferStats` that is asked for. -/
def BufferStats.answer (s : BufferStats) : StatQuery → StatAnswer
  | .integral => .bool s.integral
  | .min => .num s.min
  | .max => .num s.max

/-- The answers that do not need the cache, constants.cpp 36-45, 61-72, 88-99. -/
def directAnswer (values : List Rat) (q : StatQuery) : Option StatAnswer :=
  match values with
  | [] => some (match q with
    | .integral => .bool true
    | .min => .num 0
    | .max => .num 0)
  | [x] => some (match q with
    | .integral => .bool (isInteger x)
    | .min => .num x
    | .max => .num x)
  | _ => none

/-- The cache `buffer_stats_`, constants.hpp 130. -/
abbrev StatCache := Option BufferStats

/-- `ConstantNode::integral`, `max`, `min`, constants.cpp 36-111, called by one thread: the answer and the
cache afterwards. -/
def statQuery (values : List Rat) (cache : StatCache) (q : StatQuery) : Res (StatAnswer × StatCache) :=
  match directAnswer values q with
  | some a => .ok (a, cache)
  | none =>
    match cache with
    | some s => .ok (s.answer q, some s)
    | none => do
      let s ← BufferStats.make values
      .ok (s.answer q, some s)

/-- A sequence of calls. -/
def statQueries (values : List Rat) (cache : StatCache) : List StatQuery → Res (List StatAnswer)
  | [] => .ok []
  | q :: qs => do
    let (a, cache) ← statQuery values cache q
    let rest ← statQueries values cache qs
    .ok (a :: rest)

/-! ## Several threads

The same calls by any number of threads, in atomic steps, interleaved in any order: the first check, taking
`buffer_stats_mutex`, the second check, constructing the contents of the optional, marking it as engaged,
releasing the mutex, reading.  (`std::optional::emplace` of libstdc++ constructs the contents before it marks the
optional as engaged.)  Steps are taken to be seen by all threads in the same order; the C++ memory model does
not promise this for `buffer_stats_`, which is not atomic. -/

/-- Where a thread is in a call that needs the cache. -/
inductive StatPC where
  | start (q : StatQuery)          -- before `if (!buffer_stats_)`
  | wait (q : StatQuery)           -- before `lock_guard`
  | check (q : StatQuery)          -- the mutex is held, before the second `if`
  | construct (q : StatQuery)      -- the mutex is held, before the contents are written
  | engage (q : StatQuery)         -- the mutex is held, before the optional is engaged
  | release (q : StatQuery)        -- the mutex is held, at the end of the block
  | read (q : StatQuery)           -- before `return buffer_stats_->…`
  | done (q : StatQuery) (a : Res StatAnswer)
  deriving DecidableEq, Repr

/-- The shared memory and the threads. -/
structure StatMachine where
  /-- the contents of the optional; `none` when not constructed -/
  contents : Option BufferStats
  /-- whether the optional is engaged -/
  engaged : Bool
  /-- whether the mutex is held -/
  locked : Bool
  /-- the number of times the contents were constructed -/
  constructions : Nat
  threads : List StatPC
  deriving DecidableEq, Repr

namespace StatMachine

/-- One step of thread `t`; a thread that cannot move leaves everything as it is.  Constructing the contents of
no values is undefined; a thread in that place stays there. -/
def step (values : List Rat) (m : StatMachine) (t : Nat) : StatMachine :=
  match m.threads[t]? with
  | some (.start q) =>
    { m with threads := m.threads.set t (if m.engaged then .read q else .wait q) }
  | some (.wait q) =>
    if m.locked then m else { m with locked := true, threads := m.threads.set t (.check q) }
  | some (.check q) =>
    { m with threads := m.threads.set t (if m.engaged then .release q else .construct q) }
  | some (.construct q) =>
    match BufferStats.make values with
    | .ok s => { m with contents := some s, constructions := m.constructions + 1,
                        threads := m.threads.set t (.engage q) }
    | _ => m
  | some (.engage q) => { m with engaged := true, threads := m.threads.set t (.release q) }
  | some (.release q) => { m with locked := false, threads := m.threads.set t (.read q) }
  | some (.read q) =>
    { m with threads := m.threads.set t (.done q (match m.contents with
      | some s => .ok (s.answer q)
      | none => .ub)) }
  | _ => m

/-- A schedule: which thread moves next. -/
def run (values : List Rat) (m : StatMachine) (schedule : List Nat) : StatMachine :=
  schedule.foldl (step values) m

/-- All threads begin a call; nothing is cached. -/
def fresh (queries : List StatQuery) : StatMachine := ⟨none, false, false, 0, queries.map .start⟩

end StatMachine

end Verif
