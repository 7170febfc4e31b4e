import Verif.Lemmas.Graph

set_option linter.unusedSectionVars false
set_option linter.unusedSimpArgs false
set_option linter.unusedVariables false

/-! Helper lemmas: which nodes keep their order when a model is sorted. -/

namespace Verif
namespace Graph

open Relation

theorem visit_changes (succs : Nat → List Nat) : ∀ (fuel : Nat) (s s' : (Nat → Int) × Int) (n : Nat),
    visit succs fuel s n = .ok s' → s'.2 ≤ s.2 ∧ (0 ≤ s.1 n → s' = s) ∧ (s.1 n < 0 → s'.1 n ≤ s.2) ∧
      ∀ x, s'.1 x ≠ s.1 x → Reaches succs n x
  | 0, s, s', n, h => by simp [visit] at h
  | fuel + 1, s, s', n, h => by
    unfold visit at h
    by_cases h0 : 0 ≤ s.1 n
    · rw [if_pos h0] at h
      simp only [Res.ok.injEq] at h
      subst h
      exact ⟨Int.le_refl _, fun _ => rfl, fun h => by omega, fun x hx => absurd rfl hx⟩
    rw [if_neg h0] at h
    by_cases h2 : s.1 n = -2
    · rw [if_pos h2] at h; cases h
    rw [if_neg h2] at h
    obtain ⟨t, ht, he⟩ := Res.bind_eq_ok.1 h
    simp only [Res.ok.injEq] at he
    subst he
    have key : ∀ (l : List Nat) (a b : (Nat → Int) × Int), l.foldlM (visit succs fuel) a = .ok b →
        b.2 ≤ a.2 ∧ ∀ x, b.1 x ≠ a.1 x → ∃ m ∈ l, Reaches succs m x := by
      intro l
      induction l with
      | nil =>
        intro a b hf
        simp only [List.foldlM_nil, Res.pure_eq, Res.ok.injEq] at hf
        subst hf
        exact ⟨Int.le_refl _, fun x hx => absurd rfl hx⟩
      | cons m l ih =>
        intro a b hf
        rw [List.foldlM_cons] at hf
        obtain ⟨c, hc, hf⟩ := Res.bind_eq_ok.1 hf
        obtain ⟨c1, _, _, c3⟩ := visit_changes succs fuel a c m hc
        obtain ⟨b1, b2⟩ := ih c b hf
        refine ⟨by omega, fun x hx => ?_⟩
        by_cases hh : b.1 x = c.1 x
        · exact ⟨m, by simp, c3 x (by rw [← hh]; exact hx)⟩
        · obtain ⟨m', hm', hg⟩ := b2 x hh
          exact ⟨m', by simp [hm'], hg⟩
    obtain ⟨k1, k2⟩ := key _ _ _ ht
    simp only at k1 k2
    refine ⟨by simp only; omega, fun h => absurd h h0, fun _ => by simpa using k1, fun x hx => ?_⟩
    by_cases hxn : x = n
    · subst hxn; exact ReflTransGen.refl
    simp only at hx
    rw [upd_ne _ _ hxn] at hx
    obtain ⟨m, hm, hg⟩ := k2 x (by rw [upd_ne _ _ hxn]; exact hx)
    exact ReflTransGen.head (List.mem_reverse.1 hm) hg

variable {succs : Nat → List Nat} {V : List Nat} {nd : Nat} {dec : Nat → Prop}

/-- A node that cannot be reached from the nodes after it is numbered below all of them. -/
theorem sort_before (hV : V.Nodup) (hcl : ∀ v ∈ V, ∀ m ∈ succs v, m ∈ V ∧ ¬ dec m)
    {idx idx' : Nat → Int} (hdec : ∀ v ∈ V, dec v → 0 ≤ idx v) (hwhite : ∀ v ∈ V, ¬ dec v → idx v = -1)
    (hnum : nd + cnt V (fun v => decide (idx v = -1)) = V.length) (hok : sortIdx succs V nd idx = .ok idx')
    {A B : List Nat} {u v : Nat} (hs : V = A ++ u :: B) (hv : v ∈ B) (hu : ¬ dec u) (hvd : ¬ dec v)
    (hno : ∀ w ∈ B, ¬ dec w → ¬ Reaches succs w u) : idx' u < idx' v := by
  have hpend : pending V idx = cnt V (fun v => decide (idx v = -1)) := by
    unfold pending cnt
    apply List.countP_congr
    intro v hv
    by_cases hd : dec v
    · have := hdec v hv hd; simp; omega
    · simp [hwhite v hv hd]
  have hneg : ∀ v ∈ V, ¬ dec v → ¬ 0 ≤ idx v := fun v hv hd => by rw [hwhite v hv hd]; omega
  have hI : Inv succs V nd dec idx ((V.length : Int) - 1) :=
    { state := fun v hv => by
        by_cases hd : dec v
        · exact .inr (.inr (hdec v hv hd))
        · exact .inl (hwhite v hv hd)
      decOk := hdec
      cntEq := by omega
      upper := by omega
      range := fun v hv hd h => absurd h (hneg v hv hd)
      inj := fun v hv w _ hd _ h => absurd h (hneg v hv hd)
      edge := fun v hv hd h => absurd h (hneg v hv hd) }
  have hnogray : ∀ w ∈ V, idx w ≠ -2 := by
    intro w hw
    by_cases hd : dec w
    · have := hdec w hw hd; omega
    · rw [hwhite w hw hd]; omega
  have hw : white V idx < V.length + 1 := by
    have : white V idx ≤ V.length := List.countP_le_length
    omega
  have hstep := fun s n hI hn (_ : True) hw hg => visit_spec (nd := nd) hV hcl (V.length + 1) s n hI hn hw hg
  have hmem : ∀ x, x ∈ A ∨ x = u ∨ x ∈ B → x ∈ V := fun x hx => by rw [hs]; simpa using hx
  unfold sortIdx at hok
  obtain ⟨s3, h3, hg⟩ := Res.bind_eq_ok.1 hok
  obtain ⟨_, _, he⟩ := Res.bind_eq_ok.1 hg
  simp only [Res.ok.injEq] at he
  subst he
  have hrev : V.reverse = B.reverse ++ u :: A.reverse := by rw [hs]; simp
  rw [hrev, List.foldlM_append] at h3
  obtain ⟨s1, h1, h3⟩ := Res.bind_eq_ok.1 h3
  rw [List.foldlM_cons] at h3
  obtain ⟨s2, h2, h3⟩ := Res.bind_eq_ok.1 h3
  -- the nodes after `u`
  have f1 := fold_spec (P := fun _ => True) hstep B.reverse (idx, (V.length : Int) - 1) hI
    (fun n hn => ⟨hmem n (Or.inr (Or.inr (List.mem_reverse.1 hn))), trivial⟩) hw
    (fun n _ w hwV hw2 => absurd hw2 (hnogray w hwV))
  rcases f1 with ⟨t, ht, hI1, hE1, hd1⟩ | ⟨ht, _⟩
  swap
  · rw [h1] at ht; cases ht
  rw [h1] at ht
  obtain rfl : s1 = t := by simpa using ht
  have hnog1 : ∀ w ∈ V, s1.1 w ≠ -2 := fun w hw h => hnogray w hw ((hE1.gray w hw).2 h)
  have hw1 : white V s1.1 < V.length + 1 := Nat.lt_of_le_of_lt hE1.white_le hw
  have huV : u ∈ V := hmem u (Or.inr (Or.inl rfl))
  have hvV : v ∈ V := hmem v (Or.inr (Or.inr hv))
  -- `u` has not been visited
  have hu1 : s1.1 u = -1 := by
    have key : ∀ (l : List Nat) (a b : (Nat → Int) × Int), (∀ w ∈ l, w ∈ B) → (∀ w ∈ V, dec w → 0 ≤ a.1 w) →
        Inv succs V nd dec a.1 a.2 → (∀ w ∈ V, a.1 w ≠ -2) → white V a.1 < V.length + 1 →
        l.foldlM (visit succs (V.length + 1)) a = .ok b → b.1 u = a.1 u := by
      intro l
      induction l with
      | nil =>
        intro a b _ _ _ _ _ hf
        simp only [List.foldlM_nil, Res.pure_eq, Res.ok.injEq] at hf
        rw [hf]
      | cons m l ih =>
        intro a b hl hda hIa hga hwa hf
        rw [List.foldlM_cons] at hf
        obtain ⟨c, hc, hf⟩ := Res.bind_eq_ok.1 hf
        have hmB := hl m (by simp)
        have hmV := hmem m (Or.inr (Or.inr hmB))
        rcases visit_spec (nd := nd) hV hcl (V.length + 1) a m hIa hmV hwa
          (fun w hw h => absurd h (hga w hw)) with ⟨t, ht, hI1, hE1, _⟩ | ⟨ht, _⟩
        swap
        · rw [hc] at ht; cases ht
        rw [hc] at ht
        obtain rfl : c = t := by simpa using ht
        rw [ih c b (fun w hw => hl w (by simp [hw]))
          (fun w hw hd => by rw [hE1.done w hw (hda w hw hd)]; exact hda w hw hd) hI1
          (fun w hw h => hga w hw ((hE1.gray w hw).2 h)) (Nat.lt_of_le_of_lt hE1.white_le hwa) hf]
        obtain ⟨_, c1, _, c3⟩ := visit_changes succs _ a c m hc
        by_contra hne
        by_cases hmd : dec m
        · exact hne (by rw [c1 (hda m hmV hmd)])
        · exact hno m hmB hmd (c3 u hne)
    have := key B.reverse (idx, (V.length : Int) - 1) s1 (fun w hw => List.mem_reverse.1 hw) hdec hI hnogray hw h1
    rw [this]
    exact hwhite u huV hu
  -- visiting `u`
  rcases visit_spec (nd := nd) hV hcl (V.length + 1) s1 u hI1 huV hw1
    (fun w hw h => absurd h (hnog1 w hw)) with ⟨t, ht, hI2, hE2, hd2⟩ | ⟨ht, _⟩
  swap
  · rw [h2] at ht; cases ht
  rw [h2] at ht
  obtain rfl : s2 = t := by simpa using ht
  have hle := (visit_changes succs _ s1 s2 u h2).2.2.1 (by rw [hu1]; omega)
  have hv0 : 0 ≤ s1.1 v := hd1 v (by simpa using hv)
  have hlt := (hI1.range v hvV hvd hv0).1
  have hu0 : 0 ≤ s2.1 u := hd2 u (by simp)
  have hv2 := hE2.done v hvV hv0
  -- the rest
  have f3 := fold_spec (P := fun _ => True) hstep A.reverse s2 hI2
    (fun n hn => ⟨hmem n (Or.inl (List.mem_reverse.1 hn)), trivial⟩) (Nat.lt_of_le_of_lt hE2.white_le hw1)
    (fun n _ w hwV hw2 => absurd ((hE2.gray w hwV).2 hw2) (hnog1 w hwV))
  rcases f3 with ⟨t, ht, _, hE3, _⟩ | ⟨ht, _⟩
  swap
  · rw [h3] at ht; cases ht
  rw [h3] at ht
  obtain rfl : s3 = t := by simpa using ht
  rw [hE3.done u huV hu0, hE3.done v hvV (by rw [hv2]; exact hv0), hv2]
  omega

theorem sort_order {g g' : Graph} (h : g.WF) (hs : g.sorted = false) (hok : g.topologicalSort = .ok g')
    {A B : List Nat} {u v : Nat} (hn : g.nodes = A ++ u :: B) (hv : v ∈ B) (hu : u ∉ g.decisions)
    (hvd : v ∉ g.decisions) (hno : ∀ w ∈ B, w ∉ g.decisions → ¬ Reaches g.succsOf w u) :
    g'.topoOf u < g'.topoOf v := by
  have hun := h.unsorted hs
  have hdt : ∀ v ∈ g.nodes, v ∈ g.decisions → 0 ≤ g.topoOf v := by
    intro v _ hd
    obtain ⟨i, hi, rfl⟩ := List.mem_iff_getElem.1 hd
    rw [h.decTopo i hi]; omega
  have hnum : g.decisions.length + cnt g.nodes (fun v => decide (g.topoOf v = -1)) = g.nodes.length := by
    have h1 := cnt_add_not g.nodes (fun v => decide (v ∈ g.decisions))
    rw [h.cnt_dec] at h1
    have h2 : cnt g.nodes (fun v => decide (g.topoOf v = -1)) =
        cnt g.nodes (fun v => !decide (v ∈ g.decisions)) := by
      apply List.countP_congr
      intro v hv
      by_cases hd : v ∈ g.decisions
      · have := hdt v hv hd
        simp [hd]; omega
      · simp [hd, hun v hv hd]
    omega
  unfold topologicalSort at hok
  rw [if_neg (by simp [hs])] at hok
  obtain ⟨idx, h1, he⟩ := Res.bind_eq_ok.1 hok
  simp only [Res.ok.injEq] at he
  subst he
  exact sort_before (nd := g.decisions.length) (dec := fun v => v ∈ g.decisions) h.nodup
    (fun v hv => h.succ_not_dec hv) hdt hun hnum h1 hn hv hu hvd hno

/-- After sorting, nodes are in the order of their numbers. -/
theorem sorted_pairwise {g : Graph} (h : g.WF) (hs : g.sorted = true) :
    g.nodes.Pairwise fun a b => g.topoOf a < g.topoOf b := by
  rw [List.pairwise_iff_getElem]
  intro i j hi hj hij
  rw [h.positions hs i hi, h.positions hs j hj]
  omega

theorem filter_eq_of_order {key : Nat → Int} {l l' : List Nat} (hp : l'.Perm l)
    (h1 : l.Pairwise fun a b => key a < key b) (h2 : l'.Pairwise fun a b => key a < key b) : l' = l :=
  List.Perm.eq_of_pairwise (le := fun a b => key a < key b) (fun a b _ _ h1 h2 => by omega) h2 h1 hp

theorem pairwise_of_split {l : List Nat} {R : Nat → Nat → Prop}
    (h : ∀ A u B, l = A ++ u :: B → ∀ v ∈ B, R u v) : l.Pairwise R := by
  induction l with
  | nil => exact List.Pairwise.nil
  | cons a l ih =>
    refine List.Pairwise.cons (h [] a l rfl) (ih fun A u B e v hv => h (a :: A) u B (by rw [e]; rfl) v hv)

/-- Sorting keeps the order of nodes that are computed from decisions alone. -/
theorem sort_filter {g g' : Graph} (h : g.WF) (hs : g.sorted = false) (hok : g.topologicalSort = .ok g')
    (P : Nat → Bool) (hP : ∀ u ∈ g.nodes, P u = true → u ∉ g.decisions ∧ ∀ p ∈ g.predsOf u, p ∈ g.decisions) :
    g'.nodes.filter P = g.nodes.filter P := by
  rcases h.sort_spec hs with ⟨g2, e2, w2, hs2, hperm, -⟩ | ⟨e2, -⟩
  swap
  · rw [hok] at e2; cases e2
  rw [hok] at e2
  obtain rfl : g' = g2 := by simpa using e2
  refine filter_eq_of_order (key := g'.topoOf) (hperm.filter P) ?_ ((sorted_pairwise w2 hs2).filter _)
  rw [List.pairwise_filter]
  refine pairwise_of_split fun A u B e v hv hPu hPv => ?_
  have huV : u ∈ g.nodes := by rw [e]; simp
  have hvV : v ∈ g.nodes := by rw [e]; simp [hv]
  refine sort_order h hs hok e hv (hP u huV hPu).1 (hP v hvV hPv).1 fun w hw hwd hr => ?_
  have hwV : w ∈ g.nodes := by rw [e]; simp [hw]
  have hwu : w ≠ u := by
    rintro rfl
    have := h.nodup
    rw [e] at this
    exact (List.nodup_cons.1 (List.nodup_append.1 this).2.1).1 hw
  have key : ∀ x, Reaches g.succsOf w x → x ∈ g.nodes ∧ x ∉ g.decisions := by
    intro x hx
    induction hx with
    | refl => exact ⟨hwV, hwd⟩
    | tail _ hb ih => exact h.succ_not_dec ih.1 _ hb
  rcases ReflTransGen.cases_tail hr with hh | ⟨x, hx, hxu⟩
  · exact hwu hh.symm
  · obtain ⟨hxV, hxd⟩ := key x hx
    exact hxd ((hP u huV hPu).2 x ((h.mem_link hxV huV).1 hxu))

/-- Sorting changes nothing if the decisions come first and every edge leads forward. -/
theorem sort_same {g g' : Graph} (h : g.WF) (hs : g.sorted = false) (hok : g.topologicalSort = .ok g')
    {rest : List Nat} (hd : g.nodes = g.decisions ++ rest)
    (hf : ∀ A u B, g.nodes = A ++ u :: B → ∀ p ∈ g.predsOf u, p ∉ B) : g'.nodes = g.nodes := by
  rcases h.sort_spec hs with ⟨g2, e2, w2, hs2, hperm, hmem, hdec, -⟩ | ⟨e2, -⟩
  swap
  · rw [hok] at e2; cases e2
  rw [hok] at e2
  obtain rfl : g' = g2 := by simpa using e2
  refine filter_eq_of_order (key := g'.topoOf) hperm ?_ (sorted_pairwise w2 hs2)
  have hdt : ∀ v ∈ g.nodes, v ∉ g.decisions → (g.decisions.length : Int) ≤ g'.topoOf v := by
    intro v hv hd
    have ht := w2.topological hs2
    have h0 := ht.range v (hperm.mem_iff.2 hv)
    by_contra hlt
    have hi : (g'.topoOf v).toNat < g'.decisions.length := by rw [hdec]; omega
    have := ht.decision _ hi
    have hm : g'.decisions[(g'.topoOf v).toNat] ∈ g'.nodes := w2.decMem _ (List.getElem_mem hi)
    have e := ht.inj v (hperm.mem_iff.2 hv) _ hm (by rw [this]; omega)
    exact hd (by rw [e, ← hdec]; exact List.getElem_mem _)
  rw [hd, List.pairwise_append]
  refine ⟨?_, ?_, ?_⟩
  · rw [List.pairwise_iff_getElem]
    intro i j hi hj hij
    have h1 := w2.decTopo i (by rw [hdec]; exact hi)
    have h2 := w2.decTopo j (by rw [hdec]; exact hj)
    simp only [hdec] at h1 h2
    rw [h1, h2]; omega
  · refine pairwise_of_split fun A u B e v hv => ?_
    have hnod := h.nodup
    have hnot : ∀ x ∈ rest, x ∉ g.decisions := by
      intro x hx hx'
      rw [hd] at hnod
      exact (List.nodup_append.1 hnod).2.2 x hx' x hx rfl
    have e' : g.nodes = (g.decisions ++ A) ++ u :: B := by rw [hd, e]; simp
    refine sort_order h hs hok e' hv (hnot u (by rw [e]; simp)) (hnot v (by rw [e]; simp [hv])) fun w hw hwd hr => ?_
    -- nothing after `u` leads to `u`
    have key : ∀ x, Reaches g.succsOf w x → x ∈ B := by
      intro x hx
      induction hx with
      | refl => exact hw
      | @tail y z _ hb ih =>
        have hyV : y ∈ g.nodes := by rw [e']; simp [ih]
        have hzV := h.succMem y hyV z hb
        by_contra hz
        have hyz := (h.mem_link hyV hzV).1 hb
        rw [e'] at hzV
        have hz' : z ∈ g.decisions ++ A ++ [u] := by
          rw [List.mem_append] at hzV ⊢
          rcases hzV with hzV | hzV
          · exact Or.inl hzV
          · rcases List.mem_cons.1 hzV with rfl | hzV
            · right; simp
            · exact absurd hzV hz
        obtain ⟨A', B', eA⟩ := List.append_of_mem hz'
        have e2 : g.nodes = A' ++ z :: (B' ++ B) := by
          rw [e', show g.decisions ++ A ++ u :: B = (g.decisions ++ A ++ [u]) ++ B by simp, eA]; simp
        exact hf _ _ _ e2 y hyz (by simp [ih])
    have := key u hr
    rw [e'] at hnod
    exact (List.nodup_cons.1 (List.nodup_append.1 hnod).2.1).1 this
  · intro u hu v hv
    have hvV : v ∈ g.nodes := by rw [hd]; simp [hv]
    have hvd : v ∉ g.decisions := by
      intro hx
      have hnod := h.nodup
      rw [hd] at hnod
      exact (List.nodup_append.1 hnod).2.2 v hx v hv rfl
    have h1 := hdt v hvV hvd
    obtain ⟨i, hi, rfl⟩ := List.mem_iff_getElem.1 hu
    have := w2.decTopo i (by rw [hdec]; exact hi)
    simp only [hdec] at this
    rw [this]
    omega

end Graph
end Verif
