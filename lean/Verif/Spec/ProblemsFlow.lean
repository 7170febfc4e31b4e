import Verif.Spec.Problems

/-!
# Flow-shop scheduling

Each job goes through all machines, first through machine 0, then through machine 1 and so on; all machines take the jobs in the same
order.
-/

namespace Verif

/-- Machine `m` needs the time `times m j` for job `j`. -/
structure FlowShop where
  machines : Nat
  jobs : Nat
  times : Nat → Nat → Rat

namespace FlowShop

/-- A schedule: `start m k` is when machine `m` starts with the `k`-th job of the order. -/
structure Schedule (p : FlowShop) (order : List Nat) (start : Nat → Nat → Rat) : Prop where
  /-- Nothing starts before time 0. -/
  begin_ : ∀ m < p.machines, ∀ k < p.jobs, 0 ≤ start m k
  /-- A job is not on the next machine before it has left this one. -/
  flow : ∀ m, m + 1 < p.machines → ∀ k < p.jobs, start m k + p.times m (order.getD k 0) ≤ start (m + 1) k
  /-- A machine does not start with the next job before it has finished this one. -/
  alone : ∀ m < p.machines, ∀ k, k + 1 < p.jobs → start m k + p.times m (order.getD k 0) ≤ start m (k + 1)

/-- Everything is finished by the time `c`. -/
def DoneBy (p : FlowShop) (order : List Nat) (start : Nat → Nat → Rat) (c : Rat) : Prop :=
  ∀ m < p.machines, ∀ k < p.jobs, start m k + p.times m (order.getD k 0) ≤ c

/-- The makespan of an order: the least time by which everything can be finished. -/
def IsMakespan (p : FlowShop) (order : List Nat) (c : Rat) : Prop :=
  (∃ start, p.Schedule order start ∧ p.DoneBy order start c) ∧
  ∀ start c', p.Schedule order start → p.DoneBy order start c' → c ≤ c'

/-- A machine that takes one job after the other, each as soon as it can: the `k`-th job arrives at `ready k` and takes `time k`.  When
the `k`-th job is finished. -/
def inTurn (ready time : Nat → Rat) : Nat → Rat
  | 0 => ready 0 + time 0
  | k + 1 => max (ready (k + 1)) (inTurn ready time k) + time (k + 1)

/-- When the `k`-th job is finished on machine `m`; it arrives when it is finished on the machine before. -/
def finish (p : FlowShop) (order : List Nat) : Nat → Nat → Rat
  | 0 => inTurn (fun _ => 0) fun k => p.times 0 (order.getD k 0)
  | m + 1 => inTurn (p.finish order m) fun k => p.times (m + 1) (order.getD k 0)

/-- A solution is an order of the jobs, its cost the time at which the last job leaves the last machine. -/
def problem (p : FlowShop) : Problem (List Nat) where
  valid := fun order => order.Perm (List.range p.jobs)
  values := fun order _ => shownList [(p.jobs : Int)] order
  cost := fun order => p.finish order (p.machines - 1) (p.jobs - 1)
  feasible := fun _ => True

end FlowShop

/-- The instance given by an array with a row for each machine. -/
def flowShopOf (M J : Nat) (T : Arr Rat) : FlowShop := ⟨M, J, T.entry J⟩

end Verif
