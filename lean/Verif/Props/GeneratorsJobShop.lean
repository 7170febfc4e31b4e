import Verif.Lemmas.GenerateJobShopMain
import Mathlib.Tactic.IntervalCases

set_option linter.unusedSectionVars false
set_option linter.unusedSimpArgs false
set_option linter.unusedVariables false

/-! Property C51: the generated job-shop models are models of job-shop scheduling. -/

namespace Verif

open Script

/-- C51: for every matrix of nonnegative times and every matrix of machines whose rows are orders of the machines, counted from zero or
all from one, the generated model can be built and locked; its states are exactly the start times up to the bound; it is feasible
exactly if every job uses its machines one after the other in the given order and no two jobs use a machine at the same time; its
objective is the time at which everything is finished; and this stays so after every history of proposals. -/
theorem C51_jobShop {J m : Nat} {times machines : Arr Rat} {upper : Option Int} (hT : times.IsMatrix J m) (hK : machines.IsMatrix J m)
    (h0 : ∀ x ∈ times.data, 0 ≤ x) {base : Nat} (hbase : base = 0 ∨ base = 1) {order : List Nat}
    (hdata : machines.data = order.map fun k : Nat => ((k + base : Nat) : Rat))
    (hrow : ∀ j < J, ((order.drop (j * m)).take m).Perm (List.range m)) (hJ0 : 0 < J) (hm0 : 0 < m)
    (hJ : (J : Int) ≤ ssMax) (hm : (m : Int) ≤ ssMax) (hJm : (J : Int) * m ≤ ssMax) (hup : ∀ u ∈ upper, 1 ≤ u)
    (hmax : (jobShopOf J m times order upper).upper ≤ 2000000000) :
    ∃ M g, Generators.jobShop times machines upper = .ok M ∧ M.Tracks (jobShopOf J m times order upper).problem g := by
  obtain ⟨M, e, h⟩ := jobShop_proves (full := True) hT hK h0 hbase hdata hrow hJ0 hm0 hJ hm hJm hup hmax
  obtain ⟨g, hg⟩ := h.tracks
  exact ⟨M, g, e, hg⟩

/-- C51: other times, machines and bounds are not accepted. -/
theorem C51_accepts_only {J m : Nat} {times machines : Arr Rat} {upper : Option Int} {M : Generated} (hT : times.IsMatrix J m)
    (hK : machines.IsMatrix J m) (e : Generators.jobShop times machines upper = .ok M) :
    (∀ x ∈ times.data, 0 ≤ x) ∧ 0 < J ∧ 0 < m ∧ (∀ u ∈ upper, 1 ≤ u) ∧
    ∃ base : Nat, (base = 0 ∨ base = 1) ∧ ∃ order : List Nat, (machines.data = order.map fun k : Nat => ((k + base : Nat) : Rat)) ∧
      ∀ j < J, ((order.drop (j * m)).take m).Perm (List.range m) := jobShop_accepted hT hK e

/-- Two jobs on three machines, which are counted from one. -/
def twoJobs : Arr Rat := ⟨[2, 3], [2, 1, 3, 4, 2, 1]⟩

example : ∃ M g, Generators.jobShop twoJobs ⟨[2, 3], [1, 2, 3, 3, 1, 2]⟩ none = .ok M ∧
    M.Tracks (jobShopOf 2 3 twoJobs [0, 1, 2, 2, 0, 1] none).problem g :=
  C51_jobShop (base := 1) ⟨rfl, rfl⟩ ⟨rfl, rfl⟩ (by decide +kernel) (.inr rfl) (by decide +kernel)
    (by decide) (by decide) (by decide) (by decide) (by decide) (by decide) (by simp) (by decide +kernel)

-- a schedule that finishes at time 8
example : (jobShopOf 2 3 twoJobs [0, 1, 2, 2, 0, 1] none).problem.cost [0, 2, 3, 2, 6, 0] = 8 := by decide +kernel
example : (jobShopOf 2 3 twoJobs [0, 1, 2, 2, 0, 1] none).InOrder [0, 2, 3, 2, 6, 0] 0 := by
  intro k hk
  have hk : k < 2 := Nat.lt_of_succ_lt_succ hk
  interval_cases k <;> decide +kernel
-- job 1 leaves machine 2 at time 1, enters machine 0 at time 2 and machine 1 at time 6
example : (jobShopOf 2 3 twoJobs [0, 1, 2, 2, 0, 1] none).InOrder [0, 2, 3, 2, 6, 0] 1 := by
  intro k hk
  have hk : k < 2 := Nat.lt_of_succ_lt_succ hk
  interval_cases k <;> decide +kernel
example : (jobShopOf 2 3 twoJobs [0, 1, 2, 2, 0, 1] none).Apart [0, 2, 3, 2, 6, 0] 0 1 := by
  intro k hk
  have hk : k < 3 := hk
  interval_cases k <;> decide +kernel
-- both jobs on machine 0 at time 1
example : ¬ (jobShopOf 2 3 twoJobs [0, 1, 2, 2, 0, 1] none).Apart [0, 2, 3, 1, 6, 0] 0 1 := by
  intro h
  exact absurd (h 0 (by decide)) (by decide +kernel)

end Verif
