import Verif.Lemmas.ProgramStates
import Verif.Props.ProgramFile

/-!
# C69: saved programs with their states
-/

namespace Verif

open Graph PyModel Draft Script

/-- C69 with states: take any program as in `C69_round_trip_partial` and any number of states, in which decisions may have no value.  If
the model can be saved (its symbols have bounded sizes, see C60), then the file can be loaded, with and without the check of the header;
the loaded model is the same, it has as many states, and in each of them its decisions have the saved values.  Disjoint lists and sets
need a value in every state, and all their parts must exist (`StateFits`, cf. `C41_sparse_fails` and `C41_parts_fails`).

Together with `C69_values_partial`, all symbols have the values that they had. -/
theorem C69_states_partial {p : Program} {M : Generated} (hp : p.run = .ok M) {isList : Nat → Bool} (hpy : M.FromPython isList)
    {m : PyModel} (hm : PyModel.new.run M.ops = .ok m) {numStates : Nat} {states : Nat → Nat → Option Val}
    (hst : ∀ j < numStates, ∀ v ∈ m.g.decisions, M.rows.StateFits v (states j v)) {a : ProgramArchive}
    (hsv : M.saveStates m isList numStates states = .ok a) (check : Bool) :
    ∃ l, a.load check = .ok l ∧ Generated.Same (M.draft m).at_ l.M M ∧ l.numStates = numStates ∧
      (List.range l.M.rows.numDecisions).map (M.draft m).at_ = m.g.decisions ∧
      l.states = (List.range m.g.decisions.length).map fun i => (List.range numStates).map fun j => states j ((M.draft m).at_ i) := by
  obtain ⟨hS, ho, hc⟩ := Source.of_run hp hm hpy.1
  obtain ⟨_, h1, h2⟩ := Program.run_inv hp
  obtain ⟨h3, h4⟩ := Program.run_targets hp
  obtain ⟨F, L, e1, e2, hL, hsame⟩ := hS.round_trip ho hc (fun o hoo => ⟨h1 o hoo, h3 o hoo, hpy.2.1 o hoo⟩)
    (fun c hcc => ⟨h2 c hcc, h4 c hcc, hpy.2.2 c hcc⟩)
  obtain ⟨hd, hle, hdec⟩ := hL.decisions hS
  have hlen := hL.length
  have hnum : L.rows.numDecisions = m.g.decisions.length := by
    have := count_first (L := L.rows) (n := L.rows.length) (le_refl _) (by rw [hlen]; exact hd)
    rw [List.take_length] at this
    unfold Script.numDecisions
    omega
  have hopen : ∀ i < m.g.decisions.length, L.rows.openIndex i = i := by
    intro i hi
    unfold Script.openIndex
    rw [hd i (by omega), count_first (L := L.rows) (n := i) (by omega) (by rw [hlen]; exact hd)]
    simp only [hi, decide_true, if_true]
    omega
  have hfilter : ((List.range L.rows.length).filter fun i => (L.rows.row i).decision) = List.range m.g.decisions.length := by
    have hf : ∀ i ∈ List.range L.rows.length, (L.rows.row i).decision = decide (i < m.g.decisions.length) := fun i hi =>
      hd i (by rw [← hlen]; exact List.mem_range.1 hi)
    rw [List.filter_congr hf, hlen]
    obtain ⟨c, hc⟩ : ∃ c, M.rows.length = m.g.decisions.length + c := ⟨M.rows.length - m.g.decisions.length, by omega⟩
    rw [hc, List.range_add, List.filter_append, List.filter_eq_self.2 (by simp), List.filter_eq_nil_iff.2 (by simp), List.append_nil]
  have hnodes : (List.range M.rows.length).map (M.draft m).at_ = m.g.nodes := by
    have hcount : (M.draft m).m.g.nodes.length = M.rows.length := hS.count
    have := take_at (d := M.draft m) (k := M.rows.length) (by omega)
    rw [← this, List.take_of_length_le (by omega)]
    rfl
  unfold Generated.saveStates at hsv
  obtain ⟨h, hh, hsv⟩ := Res.bind_eq_ok.1 hsv
  rw [e1, Res.ok_bind, Res.ok.injEq] at hsv
  have hhead : L.rows.headerData (List.range m.g.decisions.length) (List.range L.rows.length) numStates = .ok h := by
    rw [← hh]
    unfold Script.headerData
    rw [hL.stateSizes hS (fun i hi => by have := List.mem_range.1 hi; omega), ← hdec,
      hL.stateSizes hS (fun i hi => by rw [← hlen]; exact List.mem_range.1 hi), hlen, hnodes, List.length_range, ← hS.count]
  have hinfo : h.numStates = numStates ∧ 0 ≤ h.numNodes := by
    unfold Script.headerData at hh
    obtain ⟨_, _, hh⟩ := Res.bind_eq_ok.1 hh
    obtain ⟨_, _, hh⟩ := Res.bind_eq_ok.1 hh
    rw [← Res.ok.inj hh]
    exact ⟨rfl, by simp⟩
  subst hsv
  have hstates : ((List.range L.rows.length).take L.rows.numDecisions).mapM (fun v =>
      (List.range numStates).mapM fun j => L.rows.loadState v
        (if 0 ≤ L.rows.openIndex v ∧ (L.rows.openIndex v).toNat < m.g.decisions.length ∧ j < numStates then
          M.rows.savedState (states j ((M.draft m).at_ (L.rows.openIndex v).toNat)) ((M.draft m).at_ (L.rows.openIndex v).toNat)
        else [])) =
      .ok ((List.range m.g.decisions.length).map fun i => (List.range numStates).map fun j => states j ((M.draft m).at_ i)) := by
    rw [hnum, List.take_range, Nat.min_eq_left (by omega)]
    refine mapM_ok _ _ _ fun i hi => ?_
    have hi := List.mem_range.1 hi
    refine mapM_ok _ _ _ fun j hj => ?_
    have hj := List.mem_range.1 hj
    rw [hopen i hi, if_pos ⟨by omega, by simpa using hi, hj⟩, Int.toNat_natCast]
    have hmem : (M.draft m).at_ i ∈ m.g.decisions := by
      rw [hdec]
      exact List.mem_map_of_mem (List.mem_range.2 hi)
    have hil : i < M.rows.length := by omega
    exact hS.state (hS.at_lt hil) (hL.loads i hil) ((hS.whole.decisions _ (hS.at_lt hil)).1 hmem) (hst j hj _ hmem)
  refine ⟨⟨L, numStates, (List.range m.g.decisions.length).map fun i => (List.range numStates).map fun j => states j ((M.draft m).at_ i)⟩,
    ?_, hsame, rfl, by rw [hnum, ← hdec], rfl⟩
  unfold ProgramArchive.load
  dsimp only
  rw [guardThrow_true hinfo.2, Res.ok_bind, e2, Res.ok_bind, guardThrow_true (by rw [hinfo.1]; omega), Res.ok_bind, hinfo.1,
    Int.toNat_natCast, hstates, Res.ok_bind]
  cases check with
  | false => rfl
  | true =>
    rw [if_pos rfl, hfilter, hhead, Res.ok_bind, guardThrow_true rfl, Res.ok_bind]

/-! ## A program that meets the hypotheses -/

namespace ProgramFileExample

/-- Three items in two lists, a list, a matrix permuted by the list, and a slice of the permuted matrix without its first row. -/
def routes : Program :=
  ⟨[(.kind (.constant ⟨[2, 2], [0, 1, 2, 3]⟩), []), (.kind (.disjointBitSets 3 2), []), (.kind (.output 0), [1]), (.kind (.output 1), [1]),
    (.kind (.collection 2 2 2), []), (.permutation, [0, 4]), (.basic [.slice (some 1) none none, .slice none none none], [0]),
    (.kind (.collection 3 0 2), []), (.kind (.reduce .sum 0), [7])], some 8, []⟩

def routesList (i : Nat) : Bool := i = 4

/-- Two states; in the second one the set has no value. -/
def routesStates (j v : Nat) : Option Val :=
  if v = 1 then (if j = 0 then some [⟨[3], [1, 0, 1]⟩, ⟨[3], [0, 1, 0]⟩] else some [⟨[3], [0, 0, 0]⟩, ⟨[3], [1, 1, 1]⟩])
  else if v = 4 then some [⟨[2], [1, 0]⟩]
  else if j = 0 then some [⟨[-1], [2, 0]⟩] else none

def isBits : Built → Bool
  | .kind (.disjointBitSets 3 2) => true
  | _ => false

def isColl (n lo hi : Nat) : Built → Bool
  | .kind (.collection n' lo' hi') => decide (n' = n ∧ lo' = lo ∧ hi' = hi)
  | _ => false

theorem of_isBits {b : Built} (h : isBits b = true) : b = .kind (.disjointBitSets 3 2) := by
  unfold isBits at h
  split at h
  · rfl
  · cases h

theorem of_isColl {b : Built} {n lo hi : Nat} (h : isColl n lo hi b = true) : b = .kind (.collection n lo hi) := by
  unfold isColl at h
  split at h
  · obtain ⟨rfl, rfl, rfl⟩ := of_decide_eq_true h
    rfl
  · cases h

theorem routes_made : ∃ M m a, routes.run = .ok M ∧ PyModel.new.run M.ops = .ok m ∧ M.FromPython routesList ∧
    (M.rows.row 1).built = .kind (.disjointBitSets 3 2) ∧ (M.rows.row 4).built = .kind (.collection 2 2 2) ∧
    (M.rows.row 7).built = .kind (.collection 3 0 2) ∧ (M.rows.countP fun r => 1 ∈ r.ops) = 2 ∧ m.g.decisions = [1, 4, 7] ∧
    m.g.nodes.take 3 = [1, 4, 7] ∧ M.saveStates m routesList 2 routesStates = .ok a := by
  obtain ⟨M, m, h1, h2, h3⟩ := of_locked (p := routes) (test := fun M m => pythonB routesList M && isBits (M.rows.row 1).built &&
    isColl 2 2 2 (M.rows.row 4).built && isColl 3 0 2 (M.rows.row 7).built && decide ((M.rows.countP fun r => 1 ∈ r.ops) = 2) &&
    decide (m.g.decisions = [1, 4, 7]) && decide (m.g.nodes.take 3 = [1, 4, 7]) &&
    match M.saveStates m routesList 2 routesStates with
    | .ok _ => true
    | _ => false) (by decide +kernel)
  simp only [Bool.and_eq_true, decide_eq_true_eq] at h3
  obtain ⟨⟨⟨⟨⟨⟨⟨p1, p2⟩, p3⟩, p4⟩, p5⟩, p6⟩, p7⟩, p8⟩ := h3
  split at p8
  · exact ⟨M, m, _, h1, h2, of_pythonB p1, of_isBits p2, of_isColl p3, of_isColl p4, p5, p6, p7, ‹_›⟩
  · cases p8

/-- The values of these states are valid. -/
theorem routes_fits {s : Script} (h1 : (s.row 1).built = .kind (.disjointBitSets 3 2)) (h4 : (s.row 4).built = .kind (.collection 2 2 2))
    (h7 : (s.row 7).built = .kind (.collection 3 0 2)) (hc : (s.countP fun r => 1 ∈ r.ops) = 2) {j : Nat} (hj : j < 2) {v : Nat}
    (hv : v ∈ [1, 4, 7]) : s.StateFits v (routesStates j v) := by
  simp only [List.mem_cons, List.not_mem_nil, or_false] at hv
  unfold Script.StateFits Row.node
  rcases hv with rfl | rfl | rfl
  · generalize (s.row 1).ins = ins, (s.row 1).out = out
    rw [h1]
    refine ⟨fun x hx => ?_, fun _ => ⟨?_, hc⟩⟩
    · obtain rfl | rfl : j = 0 ∨ j = 1 := by omega
      · obtain rfl : [⟨[3], [1, 0, 1]⟩, ⟨[3], [0, 1, 0]⟩] = x := by simpa [routesStates] using hx
        exact ⟨[[1, 0, 1], [0, 1, 0]], rfl, rfl, by unfold IsBitPartition; decide +kernel⟩
      · obtain rfl : [⟨[3], [0, 0, 0]⟩, ⟨[3], [1, 1, 1]⟩] = x := by simpa [routesStates] using hx
        exact ⟨[[0, 0, 0], [1, 1, 1]], rfl, rfl, by unfold IsBitPartition; decide +kernel⟩
    · unfold routesStates
      rw [if_pos rfl]
      split_ifs <;> simp
  · generalize (s.row 4).ins = ins, (s.row 4).out = out
    rw [h4]
    refine ⟨fun x hx => ?_, fun h => by cases h⟩
    obtain rfl : [⟨[2], [1, 0]⟩] = x := by simpa [routesStates] using hx
    exact ⟨[1, 0], rfl, by decide +kernel⟩
  · generalize (s.row 7).ins = ins, (s.row 7).out = out
    rw [h7]
    refine ⟨fun x hx => ?_, fun h => by cases h⟩
    obtain rfl | rfl : j = 0 ∨ j = 1 := by omega
    · obtain rfl : [⟨[-1], [2, 0]⟩] = x := by simpa [routesStates] using hx
      exact ⟨[2, 0], rfl, by decide +kernel⟩
    · simp [routesStates] at hx

/-- It can be saved and loaded. -/
example : ∃ M m a l, routes.run = .ok M ∧ PyModel.new.run M.ops = .ok m ∧ M.saveStates m routesList 2 routesStates = .ok a ∧
    a.load true = .ok l ∧ l.numStates = 2 ∧
    l.states = [[some [⟨[3], [1, 0, 1]⟩, ⟨[3], [0, 1, 0]⟩], some [⟨[3], [0, 0, 0]⟩, ⟨[3], [1, 1, 1]⟩]],
      [some [⟨[2], [1, 0]⟩], some [⟨[2], [1, 0]⟩]], [some [⟨[-1], [2, 0]⟩], none]] := by
  obtain ⟨M, m, a, h1, h2, h3, p1, p2, p3, p4, p5, p6, ha⟩ := routes_made
  obtain ⟨l, e1, _, e2, e3, e4⟩ := C69_states_partial h1 h3 h2
    (fun j hj v hv => routes_fits p1 p2 p3 p4 hj (by rw [← p5]; exact hv)) ha true
  refine ⟨M, m, a, l, h1, h2, ha, e1, e2, ?_⟩
  have hat : (List.range 3).map (M.draft m).at_ = [1, 4, 7] := by
    obtain ⟨a, b, c, t, e⟩ : ∃ a b c t, m.g.nodes = a :: b :: c :: t := by
      match h : m.g.nodes, p6 with
      | a :: b :: c :: t, _ => exact ⟨a, b, c, t, rfl⟩
    rw [← p6, e]
    simp [Draft.at_, Generated.draft, e, List.range_succ]
  rw [e4, p5, show (List.map (fun i => List.map (fun j => routesStates j ((M.draft m).at_ i)) (List.range 2)) (List.range [1, 4, 7].length)) =
    ((List.range 3).map (M.draft m).at_).map fun v => (List.range 2).map fun j => routesStates j v by rw [List.map_map]; rfl, hat]
  decide +kernel

end ProgramFileExample

end Verif
