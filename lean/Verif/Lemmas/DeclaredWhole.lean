import Verif.Lemmas.Declared
import Verif.Lemmas.Program

set_option linter.unusedSectionVars false
set_option linter.unusedSimpArgs false
set_option linter.unusedVariables false

/-! Helper lemmas: the symbols of a whole model declare the truth. -/

namespace Verif

theorem make_ne_nil {k : Kind} {ps : List (List (List Int))} {out : List (List Int)}
    (hm : k.make ps = .ok out) : out ≠ [] := by
  intro ho
  subst ho
  unfold Kind.make at hm
  split at hm
  all_goals (repeat (obtain ⟨_, h, hm⟩ := Res.bind_eq_ok.1 hm))
  all_goals first
    | (simp at hm; done)
    | (have h := guardThrow_eq_ok.1 h; simp at hm; omega)

theorem broadcastRev_last_mem : ∀ {l r s : List Int}, broadcastRev l r = .ok s → ∀ d ∈ s.getLast?,
    d ∈ l.getLast? ∨ d ∈ r.getLast?
  | [], r, s, h, d, hd => by
    have h : s = r := by
      cases r with
      | nil => simpa [broadcastRev] using h
      | cons a r => simpa [broadcastRev] using h.symm
    rw [h] at hd; exact Or.inr hd
  | e :: l, [], s, h, d, hd => by
    simp [broadcastRev] at h; rw [← h] at hd; exact Or.inl hd
  | e :: l, r :: rs, s, h, d, hd => by
    have key : ∀ x, (x = e ∨ x = r) → (broadcastRev l rs >>= fun t => Res.ok (x :: t)) = Res.ok s →
        d ∈ (e :: l).getLast? ∨ d ∈ (r :: rs).getLast? := by
      intro x hx h
      obtain ⟨t, ht, he⟩ := Res.bind_eq_ok.1 h
      simp only [Res.ok.injEq] at he
      subst he
      cases t with
      | nil =>
        have : l = [] ∧ rs = [] := by
          cases l <;> cases rs <;> simp [broadcastRev] at ht ⊢
          split_ifs at ht <;> (obtain ⟨_, _, h⟩ := Res.bind_eq_ok.1 ht; simp at h)
        obtain ⟨rfl, rfl⟩ := this
        simp at hd
        subst hd
        rcases hx with rfl | rfl
        · left; simp
        · right; simp
      | cons y t =>
        rw [List.getLast?_cons_cons] at hd
        rcases broadcastRev_last_mem ht d hd with h | h
        · left
          cases l with
          | nil => simp at h
          | cons z l => rw [List.getLast?_cons_cons]; exact h
        · right
          cases rs with
          | nil => simp at h
          | cons z rs => rw [List.getLast?_cons_cons]; exact h
    simp only [broadcastRev] at h
    split_ifs at h
    · exact key _ (Or.inl rfl) h
    · exact key _ (Or.inr rfl) h
    · exact key _ (Or.inl rfl) h

theorem binaryShape_fixed {l r s : List Int} (h : binaryShape l r = .ok s) (hl : dynamicShape l = false)
    (hr : dynamicShape r = false) : dynamicShape s = false := by
  obtain ⟨t, ht, hg⟩ := Res.bind_eq_ok.1 h
  obtain ⟨_, _, he⟩ := Res.bind_eq_ok.1 hg
  simp only [Res.ok.injEq] at he
  subst he
  obtain ⟨u, hu, he⟩ := Res.bind_eq_ok.1 ht
  simp only [Res.ok.injEq] at he
  subst he
  rw [dynamicShape_head] at hl hr ⊢
  have := broadcastRev_last_mem hu
  cases hx : u.reverse.head? with
  | none => rfl
  | some d =>
    rw [List.head?_reverse] at hx
    rcases this d hx with h | h
    · rw [List.getLast?_reverse] at h; rw [Option.mem_def.1 h] at hl; simpa using hl
    · rw [List.getLast?_reverse] at h; rw [Option.mem_def.1 h] at hr; simpa using hr

/-- The number of elements of the first output of every symbol. -/
def Symbols.lengths (vals : Nat → Val) (v : Nat) : Nat := (single (vals v)).data.length

namespace Symbols

open Graph

variable {S : Symbols} {g : Graph} {A vals : Nat → Val}

theorem Assembled.shaped (h : S.Assembled g) (w : g.WF) (ev : Evaluates g (S.sem g) A vals) {v : Nat}
    (hv : v ∈ g.nodes) : HasShapes (S.shapes v) (vals v) := by
  rw [ev.value v hv]
  exact (h.typing w).out v hv _ (ev.accepted v hv)

theorem first_output {ss : List (List Int)} {v : Val} (hne : ss ≠ []) (h : HasShapes ss v) :
    (single v).shape = Kind.shape1 ss ∧ (single v).WF := by
  obtain ⟨rfl, hw⟩ := h
  cases v with
  | nil => exact absurd rfl hne
  | cons a v => exact ⟨rfl, hw a (by simp)⟩

theorem describes_self (v n : Nat) {lo hi : Option Int} (len : Nat → Nat) (hn : len v = n)
    (h1 : ∀ m ∈ lo, m ≤ (n : Int)) (h2 : ∀ m ∈ hi, (n : Int) ≤ m) : (SizeInfo.of v lo hi).Describes len n :=
  ⟨h1, h2, fun h => by simp [SizeInfo.of] at h, fun _ => ⟨rfl, rfl, v, rfl, hn⟩⟩

theorem binary_lengths {op : BinaryOp} {l r s : List Int} (hs : binaryShape l r = .ok s)
    {a b : Arr Rat} (ha : a.shape = l) (hb : b.shape = r) :
    (dynamicShape l = true → (binaryValue op.func a b).length = a.data.length) ∧
      (dynamicShape r = true → (binaryValue op.func a b).length = b.data.length) := by
  obtain ⟨t, ht, hg⟩ := Res.bind_eq_ok.1 hs
  obtain ⟨_, hc, he⟩ := Res.bind_eq_ok.1 hg
  have hc := guardThrow_eq_ok.1 hc
  have hno : ∀ u : List Int, dynamicShape u = true → sizeOne u = false := by
    intro u hu; simp [sizeOne, hu]
  refine ⟨fun hd => ?_, fun hd => ?_⟩
  · have h1 := hno l hd
    have h2 : sizeOne r = true := by
      rcases hc with h | h | h
      · rw [h1] at h; cases h
      · exact h
      · exact absurd (Or.inl hd) h.1
    unfold binaryValue
    rw [ha, hb, if_neg (by simp [h1]), if_pos h2, List.length_map]
  · have h1 := hno r hd
    have h2 : sizeOne l = true := by
      rcases hc with h | h | h
      · exact h
      · rw [h1] at h; cases h
      · exact absurd (Or.inr hd) h.1
    unfold binaryValue
    rw [ha, if_pos h2, List.length_map]

/-- Every symbol's own report of its size is right. -/
theorem Assembled.describes (h : S.Assembled g) (w : g.WF) (ev : Evaluates g (S.sem g) A vals) {v : Nat}
    (hv : v ∈ g.nodes) : (S.sizeInfo g v).Describes (lengths vals) (lengths vals v) := by
  have hsh := h.shaped w ev hv
  have hmk := h.made v hv
  obtain ⟨f1, f2⟩ := first_output (make_ne_nil hmk) hsh
  unfold sizeInfo
  cases hdy : dynamicShape (Kind.shape1 (S.shapes v)) with
  | false =>
    rw [if_neg (by simp)]
    have hl := f2.length_fixed (show dynamicShape (single (vals v)).shape = false by rw [f1]; exact hdy)
    rw [f1] at hl
    have hl : (lengths vals v : Int) = (Kind.shape1 (S.shapes v)).prod := hl
    refine ⟨?_, ?_, fun _ => hl.symm, fun hc => absurd rfl hc⟩ <;>
      (intro m hm; simp only [SizeInfo.fixed, Option.mem_def, Option.some.injEq] at hm; omega)
  | true =>
    rw [if_pos rfl]
    have hself : (SizeInfo.of v none none).Describes (lengths vals) (lengths vals v) :=
      describes_self v _ _ rfl (by simp) (by simp)
    have hval := ev.value v hv
    have hacc := ev.accepted v hv
    have hin : S.inShapes g v = (g.mem v).preds.map S.shapes := rfl
    split
    · rename_i op l r hk hp
      have hnd : v ∉ g.decisions := by
        rw [h.decisions v hv, hk]; simp [Kind.isDecision]
      have hops : operands g A vals v = [vals l, vals r] := by
        unfold operands; rw [if_neg hnd, hp]; rfl
      rw [hin, hp, hk] at hmk
      have hl := h.shaped w ev (w.predMem v hv l (by unfold predsOf; rw [hp]; simp))
      have hr := h.shaped w ev (w.predMem v hv r (by unfold predsOf; rw [hp]; simp))
      simp only [List.map_cons, List.map_nil, Kind.make] at hmk
      obtain ⟨ls, e1, hmk⟩ := Res.bind_eq_ok.1 hmk
      obtain ⟨rs, e2, hmk⟩ := Res.bind_eq_ok.1 hmk
      obtain ⟨s, hs, hmk⟩ := Res.bind_eq_ok.1 hmk
      simp only [Res.ok.injEq] at hmk
      have e1 := arrayShape_ok e1
      have e2 := arrayShape_ok e2
      rw [e1] at hl
      rw [e2] at hr
      obtain ⟨a, ea, ha, _⟩ := hl.one
      obtain ⟨b, eb, hb, _⟩ := hr.one
      have hlv : lengths vals v = (binaryValue op.func a b).length := by
        unfold lengths
        rw [hval, hops]
        unfold sem
        rw [hk, ea, eb]
        rfl
      obtain ⟨k1, k2⟩ := binary_lengths (op := op) hs ha hb
      rw [e1]
      rw [← hmk] at hdy
      have hdy : dynamicShape s = true := hdy
      by_cases hd : dynamicShape ls = true
      · rw [if_pos (by exact hd)]
        refine describes_self l _ _ ?_ (by simp) (by simp)
        rw [hlv, k1 hd]
        unfold lengths; rw [ea]; rfl
      · rw [if_neg (by exact hd)]
        have hd' : dynamicShape rs = true := by
          cases hr' : dynamicShape rs with
          | true => rfl
          | false => rw [binaryShape_fixed hs (by simpa using hd) hr'] at hdy; cases hdy
        refine describes_self r _ _ ?_ (by simp) (by simp)
        rw [hlv, k2 hd']
        unfold lengths; rw [eb]; rfl
    · rename_i n lo hi hk
      have hd : v ∈ g.decisions := by
        rw [h.decisions v hv, hk]; simp [Kind.isDecision]
      have hops : operands g A vals v = [A v] := if_pos hd
      rw [hops] at hval hacc
      unfold sem at hval hacc
      rw [hk] at hval hacc
      obtain ⟨data, e, _, _, h1, h2⟩ := hacc
      have hlv : lengths vals v = data.length := by
        unfold lengths
        rw [hval, e]
        rfl
      have hmk0 : (Kind.collection n lo hi).make (S.inShapes g v) = .ok (S.shapes v) := by rw [← hk]; exact hmk
      generalize S.inShapes g v = ps at hmk0
      match ps, hmk0 with
      | [], hmk0 =>
        simp only [Kind.make] at hmk0
        obtain ⟨c, hc, _⟩ := Res.bind_eq_ok.1 hmk0
        unfold CollNode.make at hc
        obtain ⟨_, g1, hc⟩ := Res.bind_eq_ok.1 hc
        have g1 := guardThrow_eq_ok.1 g1
        have h1 : lo.toNat ≤ data.length := h1
        have h2 : data.length ≤ hi.toNat := h2
        refine describes_self v _ _ rfl ?_ ?_
        · intro m hm; obtain rfl : lo = m := by simpa using hm
          omega
        · intro m hm; obtain rfl : hi = m := by simpa using hm
          omega
    · rename_i i p hk hp
      split
      · rename_i P N hkp
        have hpn : p ∈ g.nodes := w.predMem v hv p (by unfold predsOf; rw [hp]; simp)
        have hnd : v ∉ g.decisions := by
          rw [h.decisions v hv, hk]; simp [Kind.isDecision]
        have hpd : p ∈ g.decisions := by
          rw [h.decisions p hpn, hkp]; simp [Kind.isDecision]
        have hops : operands g A vals v = [vals p] := by
          unfold operands; rw [if_neg hnd, hp]; rfl
        have hopp : operands g A vals p = [A p] := if_pos hpd
        have hvp := ev.value p hpn
        have hap := ev.accepted p hpn
        rw [hopp] at hvp hap
        rw [hops] at hval hacc
        unfold sem at hval hacc hvp hap
        rw [hk] at hval hacc
        rw [hkp] at hvp hap
        obtain ⟨lists, el, _, hperm⟩ := hap
        obtain ⟨x, ex, hi, _⟩ := hacc
        obtain rfl : vals p = x := by simpa using ex
        have hvp : vals p = lists.map fun l => ⟨[-1], l⟩ := by rw [hvp, el]; rfl
        have hlv : lengths vals v = (lists.getD i []).length := by
          unfold lengths
          rw [hval]
          show ((vals p).getD i ⟨[], []⟩).data.length = _
          rw [hvp] at hi ⊢
          rw [List.length_map] at hi
          simp [List.getD_eq_getElem?_getD, hi]
        have hle : (lists.getD i []).length ≤ P.toNat := by
          have hi : i < lists.length := by rw [hvp, List.length_map] at hi; exact hi
          have e := hperm.length_eq
          rw [List.length_map, List.length_range] at e
          rw [← e, List.getD_eq_getElem?_getD, List.getElem?_eq_getElem hi, Option.getD_some]
          exact (List.sublist_flatten_of_mem (List.getElem_mem hi)).length_le
        have hmp := h.made p hpn
        rw [hkp] at hmp
        generalize S.inShapes g p = ps at hmp
        match ps, hmp with
        | [], hmp =>
          simp only [Kind.make] at hmp
          obtain ⟨_, g1, _⟩ := Res.bind_eq_ok.1 hmp
          have g1 := guardThrow_eq_ok.1 g1
          refine describes_self v _ _ rfl ?_ ?_
          · intro m hm; obtain rfl : 0 = m := by simpa using hm
            omega
          · intro m hm; obtain rfl : P = m := by simpa using hm
            omega
      · exact hself
    · exact hself

/-- Dynamic symbols of the model. -/
def DynamicAt (S : Symbols) (g : Graph) (v : Nat) : Prop :=
  v ∈ g.nodes ∧ dynamicShape (Kind.shape1 (S.shapes v)) = true

theorem Assembled.chain (h : S.Assembled g) (w : g.WF) (ev : Evaluates g (S.sem g) A vals) :
    SizeInfo.Chain (S.sizeInfo g) (lengths vals) (S.DynamicAt g) := by
  refine ⟨fun v hv => h.describes w ev hv.1, ?_, ?_⟩
  · rintro v ⟨hv, hd⟩
    unfold sizeInfo
    rw [if_pos hd]
    split
    · split_ifs <;> rfl
    · rfl
    · split <;> rfl
    · rfl
  · rintro v ⟨hv, hd⟩
    unfold sizeInfo
    rw [if_pos hd]
    split
    · rename_i op l r hk hp
      have hln : l ∈ g.nodes := w.predMem v hv l (by unfold predsOf; rw [hp]; simp)
      have hrn : r ∈ g.nodes := w.predMem v hv r (by unfold predsOf; rw [hp]; simp)
      by_cases hl : dynamicShape (Kind.shape1 (S.shapes l)) = true
      · rw [if_pos hl]; exact ⟨l, rfl, hln, hl⟩
      · rw [if_neg hl]
        refine ⟨r, rfl, hrn, ?_⟩
        have hmk := h.made v hv
        have hin : S.inShapes g v = (g.mem v).preds.map S.shapes := rfl
        rw [hin, hp, hk] at hmk
        simp only [List.map_cons, List.map_nil, Kind.make] at hmk
        obtain ⟨ls, e1, hmk⟩ := Res.bind_eq_ok.1 hmk
        obtain ⟨rs, e2, hmk⟩ := Res.bind_eq_ok.1 hmk
        obtain ⟨s, hs, hmk⟩ := Res.bind_eq_ok.1 hmk
        simp only [Res.ok.injEq] at hmk
        rw [arrayShape_ok e1] at hl
        rw [arrayShape_ok e2]
        rw [← hmk] at hd
        cases hr : dynamicShape rs with
        | true => exact hr
        | false =>
          have := binaryShape_fixed hs (by simpa [Kind.shape1] using hl) hr
          rw [show dynamicShape (Kind.shape1 [s]) = dynamicShape s from rfl, this] at hd
          cases hd
    · exact ⟨v, rfl, hv, hd⟩
    · split <;> exact ⟨v, rfl, hv, hd⟩
    · exact ⟨v, rfl, hv, hd⟩

theorem Assembled.known (h : S.Assembled g) (w : g.WF) (ev : Evaluates g (S.sem g) A vals) {v : Nat}
    (hv : v ∈ g.nodes) : ∃ n, S.sizeKnown g v = .ok n ∧ n.Has (lengths vals v) := by
  unfold sizeKnown
  cases hd : dynamicShape (Kind.shape1 (S.shapes v)) with
  | false =>
    rw [if_neg (by simp)]
    refine ⟨_, rfl, ?_⟩
    have hsh := h.shaped w ev hv
    obtain ⟨f1, f2⟩ := first_output (make_ne_nil (h.made v hv)) hsh
    have hl := f2.length_fixed (show dynamicShape (single (vals v)).shape = false by rw [f1]; exact hd)
    rw [f1] at hl
    have hl : (lengths vals v : Int) = (Kind.shape1 (S.shapes v)).prod := hl
    show lengths vals v = (Kind.shape1 (S.shapes v)).prod.toNat
    omega
  | true =>
    rw [if_pos rfl]
    obtain ⟨t, ht, h1, h2⟩ := C16_substitute_partial (h.chain w ev) ⟨hv, hd⟩ 100
    rw [ht]
    exact ⟨_, rfl, h1, h2⟩

/-- All values are as declared. -/
theorem Assembled.claims (h : S.Assembled g) (w : g.WF) (hs : g.sorted = true)
    (ev : Evaluates g (S.sem g) A vals) {claim : Nat → Claim} (hd : S.Declared g claim)
    (ht : ∀ v ∈ g.nodes, (S.kind v).Tame ((g.mem v).preds.map claim) (S.inShapes g v))
    (hf : ∀ v ∈ g.nodes, ∀ a ∈ vals v, a.data.length ≤ 2 ^ 63 ∧ ∀ x ∈ a.data, Finite x) :
    ∀ v ∈ g.nodes, (claim v).Holds (vals v) := by
  have key : ∀ (n : Nat) v, v ∈ g.nodes → (g.topoOf v).toNat < n → (claim v).Holds (vals v) := by
    intro n
    induction n with
    | zero => intro v _ h; omega
    | succ n ih =>
      intro v hv hn
      have hval := ev.value v hv
      have hacc := ev.accepted v hv
      have hans := hd.answers v hv
      unfold claimOf at hans
      cases hk : (S.kind v).isDecision with
      | true =>
        rw [hval]
        exact decision_claim hk (h.made v hv) hacc hans
      | false =>
        have hnd : v ∉ g.decisions := by rw [h.decisions v hv, hk]; simp
        have hops : operands g A vals v = (g.mem v).preds.map vals := if_neg hnd
        rw [hops] at hval hacc
        have hpm : ∀ p ∈ (g.mem v).preds, p ∈ g.nodes := fun p hp => w.predMem v hv p hp
        have hfv := hf v hv
        rw [hval] at hfv ⊢
        have hhead : (g.mem v).preds.map vals ≠ [] → (g.mem v).preds.headD 0 ∈ g.nodes ∧
            single (((g.mem v).preds.map vals).headD []) = single (vals ((g.mem v).preds.headD 0)) ∧
            S.shapes ((g.mem v).preds.headD 0) = (S.inShapes g v).headD [] := by
          unfold inShapes
          intro hne
          cases hp : (g.mem v).preds with
          | nil => rw [hp] at hne; exact absurd rfl hne
          | cons p ps => exact ⟨hpm p (by rw [hp]; simp), rfl, rfl⟩
        have hshape : Kind.shape1 (S.shapes ((g.mem v).preds.headD 0)) =
            Kind.shape1 ((S.inShapes g v).headD []) ∨ (g.mem v).preds = [] := by
          cases hp : (g.mem v).preds with
          | nil => right; rfl
          | cons p ps =>
            left
            have := hhead (by rw [hp]; simp)
            rw [hp] at this
            rw [this.2.2]
        have hgood : ∀ p ∈ S.inShapes g v, ∀ s ∈ p, GoodShape s := by
          intro p hp s hs
          obtain ⟨u, hu, rfl⟩ := List.mem_map.1 hp
          exact h.good u (hpm u hu) s hs
        have hxs : List.Forall₂ HasShapes (S.inShapes g v) ((g.mem v).preds.map vals) :=
          forall₂_shapes fun p hp => h.shaped w ev (hpm p hp)
        have hins : List.Forall₂ Claim.Holds ((g.mem v).preds.map claim) ((g.mem v).preds.map vals) := by
          have : ∀ p ∈ (g.mem v).preds, (claim p).Holds (vals p) := by
            intro p hp
            have hlt := (w.topological hs).edge p (hpm p hp) v ((w.mem_link (hpm p hp) hv).2 hp)
            have h0 := ((w.topological hs).range p (hpm p hp)).1
            exact ih p (hpm p hp) (by omega)
          generalize (g.mem v).preds = ps at this
          induction ps with
          | nil => exact .nil
          | cons p ps ih' => exact .cons (this p (by simp)) (ih' fun q hq => this q (by simp [hq]))
        rcases hshape with hshape | hnil
        · refine kind_claim hk (h.made v hv) (h.regular v hv) hgood hxs hins (hd.checked v hv) (ht v hv)
            (fun a ha => (hfv a ha).2) hshape ?_ ?_ ?_ ?_ hans
          · intro hne n hn
            obtain ⟨h1, h2, _⟩ := hhead hne
            obtain ⟨n', hn', hh⟩ := h.known w ev h1
            rw [hn] at hn'
            obtain rfl : n = n' := by simpa using hn'
            rw [h2]; exact hh
          · intro hne
            obtain ⟨h1, h2, _⟩ := hhead hne
            rw [h2]; exact (h.describes w ev h1).min
          · intro hne
            obtain ⟨h1, h2, _⟩ := hhead hne
            rw [h2]; exact (h.describes w ev h1).max
          · intro hne
            obtain ⟨h1, h2, _⟩ := hhead hne
            rw [h2]
            cases hq : vals ((g.mem v).preds.headD 0) with
            | nil => simp [single]
            | cons a as => exact (hf _ h1 a (by rw [hq]; simp)).1
        · rw [hnil] at hans ⊢
          have hmk := h.made v hv
          unfold inShapes at hmk
          rw [hnil] at hmk
          have hcon : ∃ a, S.kind v = .constant a := by
            cases hkv : S.kind v <;> rw [hkv] at hk hmk <;>
              first | exact ⟨_, rfl⟩ | (simp [Kind.isDecision] at hk; done) |
                (simp [Kind.make, naryShape] at hmk; done)
          obtain ⟨a, ha⟩ := hcon
          unfold sem
          rw [ha] at hans ⊢
          exact constant_claim hans
  exact fun v hv => key _ v hv (Nat.lt_succ_self _)

end Symbols
end Verif
