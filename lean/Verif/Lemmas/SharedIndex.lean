import Verif.Model.Sessions

/-!
# Two symbols that share a place in the states (for C75)
-/

namespace Verif

/-- Two symbols with one index: after the state of one is set, reading the state of the other is undefined behaviour. -/
theorem read_of_shared {V D : Type} {sem : Nat → NodeSem V D} (dflt : Nat → V) {m : PyModel} {z d i : Nat} (hz : (m.g.mem z).topo = i)
    (hd : (m.g.mem d).topo = i) (hne : d ≠ z) (hs : (m.g.mem d).succs = []) {x : V} {s : (sem d).σ} (hx : (sem d).init [x] = .ok s) :
    ∃ s', Session.step dflt (⟨m, [[]]⟩ : Session sem) (.set d 0 x) = .ok (s', .done) ∧ s'.m = m ∧
      Session.step dflt s' (.read z 0) = .ub := by
  have hneg : ¬ ((i : Int) < 0) := by omega
  have h1 : StateVec.resetState m.g ([] : StateVec sem) d = .ok (List.replicate (i + 1) none) := by
    simp only [StateVec.resetState, hd, if_neg hneg, StateVec.recReset, hs, List.foldlM_nil, Int.toNat_natCast, StateVec.extend,
      StateVec.resize, List.length_nil, Nat.zero_le, if_true, List.take_nil, List.nil_append, Nat.sub_zero, List.length_replicate]
    rw [if_neg (by push_cast; omega), List.set_replicate_self]
    rfl
  have hlt : i < (List.replicate (i + 1) (none : Option (Entry sem))).length := by simp
  have h2 : StateVec.setState m.g ([] : StateVec sem) d x =
      .ok ((List.replicate (i + 1) none).set i (some ⟨d, s⟩), .done) := by
    simp only [StateVec.setState, h1, Res.ok_bind, hx, StateVec.assign, StateVec.emplace, hd, if_neg hneg, Int.toNat_natCast,
      List.getElem?_eq_getElem hlt, List.getElem_replicate]
    rfl
  have hget : ((List.replicate (i + 1) (none : Option (Entry sem))).set i (some ⟨d, s⟩))[i]? = some (some ⟨d, s⟩) :=
    List.getElem?_set_self hlt
  have hlen : ((List.replicate (i + 1) (none : Option (Entry sem))).set i (some ⟨d, s⟩)).length = i + 1 := by simp
  refine ⟨⟨m, [(List.replicate (i + 1) none).set i (some ⟨d, s⟩)]⟩, ?_, rfl, ?_⟩
  · simp [Session.step, Session.onState, h2, Res.bind]
  · have h3 : StateVec.readState m.g dflt ((List.replicate (i + 1) (none : Option (Entry sem))).set i (some ⟨d, s⟩)) z =
        .ok ((List.replicate (i + 1) none).set i (some ⟨d, s⟩)) := by
      simp only [StateVec.readState, StateVec.recInit, hz, if_neg hneg, Int.toNat_natCast, StateVec.extend, hlen,
        if_neg (show ¬ (i + 1 ≤ i) by omega), hget]
    have h4 : StateVec.value m.g ((List.replicate (i + 1) (none : Option (Entry sem))).set i (some ⟨d, s⟩)) z = .ub := by
      simp only [StateVec.value, hz, if_neg hneg, Int.toNat_natCast, hget, if_neg hne]
    simp only [Session.step, Session.read, List.length_singleton, hz, hneg, and_false, if_false]
    simp [h3, h4]

end Verif
