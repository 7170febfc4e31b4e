import Verif.Spec.Equality
import Verif.Lemmas.ProgramMade

set_option linter.unusedSectionVars false
set_option linter.unusedSimpArgs false
set_option linter.unusedVariables false

/-! Helper lemmas: `equals`. -/

namespace Verif

namespace Script

variable {s t u : Script}

theorem Made.ops_lt (h : s.Made) (i : Nat) : ∀ p ∈ (s.row i).ops, p < i := by
  by_cases hi : i < s.length
  · exact (h i hi).elim fun _ h => h.elim fun _ h => h.1
  · have : s.row i = Row.unused := by
      unfold row
      rw [List.getD_eq_getElem?_getD, List.getElem?_eq_none (by omega)]
      rfl
    rw [this]
    simp [Row.unused]

theorem Made.constant_ops (h : s.Made) {i : Nat} {a : Arr Rat} (hb : (s.row i).built.constant? = some a) : (s.row i).ops = [] := by
  by_cases hi : i < s.length
  · obtain ⟨sizes, _, hins, _, how⟩ := h.how hi
    cases how with
    | basic hb' => rw [hb'] at hb; cases hb
    | advanced hb' => rw [hb'] at hb; cases hb
    | permutation hb' => rw [hb'] at hb; cases hb
    | @kind k asked shapes hb' _ _ hm ho =>
      rw [hb'] at hb
      cases k <;> simp [Built.constant?] at hb
      subst hb
      rw [hins] at hm
      cases hops : (s.row i).ops with
      | nil => rfl
      | cons p l =>
        rw [hops] at hm
        simp [Kind.make] at hm
  · have : s.row i = Row.unused := by
      unfold row
      rw [List.getD_eq_getElem?_getD, List.getElem?_eq_none (by omega)]
      rfl
    rw [this]
    rfl

theorem Made.constant_shape (h : s.Made) {i : Nat} (hi : i < s.length) {a : Arr Rat} (hb : (s.row i).built.constant? = some a) :
    (s.row i).out.shape = a.shape := by
  obtain ⟨sizes, _, hins, _, how⟩ := h.how hi
  cases how with
  | basic hb' => rw [hb'] at hb; cases hb
  | advanced hb' => rw [hb'] at hb; cases hb
  | permutation hb' => rw [hb'] at hb; cases hb
  | @kind k asked shapes hb' _ _ hm ho =>
    rw [hb'] at hb
    cases k <;> simp [Built.constant?] at hb
    subst hb
    have hops := h.constant_ops (i := i) (by rw [hb']; rfl)
    rw [hins, hops] at hm
    simp only [List.map_nil, Kind.make, Res.ok.injEq] at hm
    rw [ho, ← hm]
    rfl

theorem constant_class {b : Built} : b.pyClass = .constant ↔ b.constant?.isSome = true := by
  cases b with
  | kind k =>
    cases k with
    | unary op => cases op <;> simp [Built.pyClass, Built.constant?]
    | collection n lo hi => simp only [Built.pyClass, Built.constant?]; split_ifs <;> simp
    | _ => simp [Built.pyClass, Built.constant?]
  | _ => simp [Built.pyClass, Built.constant?]

/-- What can be seen of two symbols without looking at predecessors. -/
structure Here (s t : Script) (i j : Nat) : Prop where
  cls : (s.row i).built.pyClass = (t.row j).built.pyClass
  shape : (s.row i).built.pyClass.isArray = true → (s.row i).out.shape = (t.row j).out.shape
  constant : (s.row i).built.constant?.map Arr.data = (t.row j).built.constant?.map Arr.data
  count : (s.row i).ops.length = (t.row j).ops.length

theorem Alike.here {i j : Nat} (h : Alike s t i j) : Here s t i j := by cases h with | mk h1 h2 h3 h4 _ => exact ⟨h1, h2, h3, h4⟩

theorem Alike.operands {i j : Nat} (h : Alike s t i j) :
    ∀ k a b : Nat, (s.row i).ops[k]? = some a → (t.row j).ops[k]? = some b → Alike s t a b := by cases h with | mk _ _ _ _ h => exact h

theorem Here.alike {i j : Nat} (h : Here s t i j) (ho : ∀ k a b : Nat, (s.row i).ops[k]? = some a → (t.row j).ops[k]? = some b → Alike s t a b) :
    Alike s t i j := .mk h.cls h.shape h.constant h.count ho

theorem Alike.refl (h : s.Made) : ∀ i, Alike s s i i := by
  intro i
  induction i using Nat.strong_induction_on with
  | _ i ih =>
    refine .mk rfl (fun _ => rfl) rfl rfl fun k a b ha hb => ?_
    rw [ha] at hb
    obtain rfl : a = b := by simpa using hb
    exact ih a (h.ops_lt i a (List.mem_of_getElem? ha))

theorem Alike.symm {i j : Nat} (h : Alike s t i j) : Alike t s j i := by
  induction h with
  | mk h1 h2 h3 h4 _ ih => exact .mk h1.symm (fun h => (h2 (by rw [h1]; exact h)).symm) h3.symm h4.symm fun k a b ha hb => ih k b a hb ha

theorem Alike.trans {i j l : Nat} (h : Alike s t i j) : Alike t u j l → Alike s u i l := by
  induction h generalizing l with
  | @mk i j h1 h2 h3 h4 _ ih =>
    intro h'
    have h'' := h'.here
    refine .mk (h1.trans h''.cls) (fun h => (h2 h).trans (h''.shape (by rw [← h1]; exact h))) (h3.trans h''.constant) (h4.trans h''.count) ?_
    intro k a c ha hc
    have hk : k < (t.row j).ops.length := by
      rw [← h4]
      exact (List.getElem?_eq_some_iff.1 ha).1
    have hb : (t.row j).ops[k]? = some ((t.row j).ops[k]) := List.getElem?_eq_getElem hk
    exact ih k a _ ha hb (h'.operands k _ c hb hc)

theorem zip_any_iff {l l' : List Nat} {P : Nat × Nat → Bool} : (l.zip l').any P = true ↔ ∃ k a b : Nat, l[k]? = some a ∧ l'[k]? = some b ∧ P (a, b) = true := by
  rw [List.any_eq_true]
  constructor
  · rintro ⟨p, hp, h⟩
    obtain ⟨k, hk⟩ := List.getElem?_of_mem hp
    rw [List.getElem?_zip_eq_some] at hk
    exact ⟨k, p.1, p.2, hk.1, hk.2, h⟩
  · rintro ⟨k, a, b, h1, h2, h⟩
    exact ⟨(a, b), List.mem_of_getElem? (List.getElem?_zip_eq_some.2 ⟨h1, h2⟩), h⟩

theorem zip_all_iff {l l' : List Nat} {P : Nat × Nat → Bool} :
    (l.zip l').all P = true ↔ ∀ k a b : Nat, l[k]? = some a → l'[k]? = some b → P (a, b) = true := by
  rw [List.all_eq_true]
  constructor
  · intro h k a b h1 h2
    exact h _ (List.mem_of_getElem? (List.getElem?_zip_eq_some.2 ⟨h1, h2⟩))
  · intro h p hp
    obtain ⟨k, hk⟩ := List.getElem?_of_mem hp
    rw [List.getElem?_zip_eq_some] at hk
    exact h k _ _ hk.1 hk.2

theorem maybeEqualsSymbol_spec (same : Bool) (i j : Nat) :
    (s.maybeEqualsSymbol t same i j = .not → ¬ Alike s t i j) ∧
    (s.maybeEqualsSymbol t same i j = .definitely → same = true ∧ i = j) ∧
    (s.maybeEqualsSymbol t same i j = .maybe → (s.row i).built.pyClass = (t.row j).built.pyClass ∧
      (s.row i).ops.length = (t.row j).ops.length) := by
  unfold maybeEqualsSymbol
  split_ifs with h1 h2 h3 h4
  · exact ⟨fun _ h => h1 h.here.cls, by simp, by simp⟩
  · exact ⟨by simp, fun _ => h2, by simp⟩
  · exact ⟨fun _ h => h3 h.here.count, by simp, by simp⟩
  · refine ⟨fun _ h => ?_, by simp, by simp⟩
    obtain ⟨k, a, b, ha, hb, hp⟩ := zip_any_iff.1 h4
    exact (of_decide_eq_true hp) (h.operands k a b ha hb).here.cls
  · exact ⟨by simp, by simp, fun _ => ⟨not_not.1 h1, not_not.1 h3⟩⟩

theorem maybeEqualsArray_spec (same : Bool) (i j : Nat) (ha : (s.row i).built.pyClass.isArray = true) :
    (s.maybeEqualsArray t same i j = .not → ¬ Alike s t i j) ∧
    (s.maybeEqualsArray t same i j = .definitely → same = true ∧ i = j) ∧
    (s.maybeEqualsArray t same i j = .maybe → (s.row i).built.pyClass = (t.row j).built.pyClass ∧
      (s.row i).ops.length = (t.row j).ops.length ∧ (s.row i).out.shape = (t.row j).out.shape) := by
  obtain ⟨h1, h2, h3⟩ := maybeEqualsSymbol_spec (s := s) (t := t) same i j
  unfold maybeEqualsArray
  cases hm : s.maybeEqualsSymbol t same i j with
  | not => exact ⟨fun _ => h1 hm, by simp, by simp⟩
  | definitely => exact ⟨by simp, fun _ => h2 hm, by simp⟩
  | maybe =>
    obtain ⟨e1, e2⟩ := h3 hm
    dsimp only
    split_ifs with g1 g2
    · rw [← e1, ha] at g1; cases g1
    · exact ⟨fun _ h => g2 (h.here.shape ha), by simp, by simp⟩
    · exact ⟨by simp, by simp, fun _ => ⟨e1, e2, not_not.1 g2⟩⟩

theorem maybeEquals_spec (hs : s.Made) {same : Bool} (i j : Nat) :
    (s.maybeEquals t same i j = .not → ¬ Alike s t i j) ∧
    (s.maybeEquals t same i j = .definitely → same = true ∧ i = j ∨ Alike s t i j) ∧
    (s.maybeEquals t same i j = .maybe → Here s t i j) := by
  unfold maybeEquals
  cases hc : (s.row i).built.constant? with
  | some a =>
    have hcl : (s.row i).built.pyClass = .constant := constant_class.2 (by rw [hc]; rfl)
    obtain ⟨h1, h2, h3⟩ := maybeEqualsArray_spec (s := s) (t := t) same i j (by rw [hcl]; rfl)
    dsimp only
    unfold maybeEqualsConstant
    cases hm : s.maybeEqualsArray t same i j with
    | not => exact ⟨fun _ => h1 hm, by simp, by simp⟩
    | definitely => exact ⟨by simp, fun _ => .inl (h2 hm), by simp⟩
    | maybe =>
      obtain ⟨e1, e2, e3⟩ := h3 hm
      dsimp only
      split_ifs with g
      · refine ⟨by simp, fun _ => .inr ?_, by simp⟩
        refine .mk e1 (fun _ => e3) (by rw [hc]; exact g) e2 ?_
        intro k a b ha
        rw [hs.constant_ops hc] at ha
        simp at ha
      · refine ⟨fun _ h => g ?_, by simp, by simp⟩
        have := h.here.constant
        rw [hc] at this
        exact this
  | none =>
    have hn : (s.row i).built.pyClass ≠ .constant := fun h => by
      have := constant_class.1 h
      rw [hc] at this
      cases this
    have none2 : (s.row i).built.pyClass = (t.row j).built.pyClass → (t.row j).built.constant? = none := by
      intro e
      cases h : (t.row j).built.constant? with
      | none => rfl
      | some b => exact (hn (e.trans (constant_class.2 (by rw [h]; rfl)))).elim
    dsimp only
    split_ifs with ha
    · obtain ⟨h1, h2, h3⟩ := maybeEqualsArray_spec (s := s) (t := t) same i j ha
      refine ⟨h1, fun h => .inl (h2 h), fun h => ?_⟩
      obtain ⟨e1, e2, e3⟩ := h3 h
      exact ⟨e1, fun _ => e3, by rw [hc, none2 e1], e2⟩
    · obtain ⟨h1, h2, h3⟩ := maybeEqualsSymbol_spec (s := s) (t := t) same i j
      refine ⟨h1, fun h => .inl (h2 h), fun h => ?_⟩
      obtain ⟨e1, e2⟩ := h3 h
      exact ⟨e1, fun h => (ha h).elim, by rw [hc, none2 e1], e2⟩

theorem equalsTo_iff (hs : s.Made) {same : Bool} (hsame : same = true → s = t) : ∀ (n i j : Nat), i < n →
    (s.equalsTo t same n i j = true ↔ Alike s t i j) := by
  intro n
  induction n with
  | zero => intro i j h; omega
  | succ n ih =>
    intro i j hi
    obtain ⟨h1, h2, h3⟩ := maybeEquals_spec (t := t) hs (same := same) i j
    unfold equalsTo
    cases hm : s.maybeEquals t same i j with
    | not => exact ⟨by simp, fun h => (h1 hm h).elim⟩
    | definitely =>
      refine ⟨fun _ => ?_, fun _ => rfl⟩
      rcases h2 hm with ⟨h, rfl⟩ | h
      · obtain rfl := hsame h
        exact Alike.refl hs i
      · exact h
    | maybe =>
      dsimp only
      rw [zip_all_iff]
      constructor
      · intro h
        refine (h3 hm).alike fun k a b ha hb => ?_
        exact (ih a b (by have := hs.ops_lt i a (List.mem_of_getElem? ha); omega)).1 (h k a b ha hb)
      · intro h k a b ha hb
        exact (ih a b (by have := hs.ops_lt i a (List.mem_of_getElem? ha); omega)).2 (h.operands k a b ha hb)

theorem plain_array {root : Rat → Rat} {b : Built} (h : b.Plain root) : b.pyClass.isArray = true := by
  cases b with
  | kind k =>
    cases k with
    | unary op => cases op <;> rfl
    | collection n lo hi => simp only [Built.pyClass]; split_ifs <;> rfl
    | disjointLists => exact h.elim
    | disjointBitSets => exact h.elim
    | _ => rfl
  | _ => rfl

/-- Plain symbols of the same class and shape compute the same. -/
theorem plain_f {root : Rat → Rat} {b b' : Built} {ins ins' : List Info} {out out' : Info} (hc : b.pyClass = b'.pyClass) (hp : b.Plain root)
    (hp' : b'.Plain root) (hd : b.decision = false) (hconst : b.constant? = b'.constant?) (hshape : out.shape = out'.shape)
    (hins : Kind.shape1 ((ins.map Info.shapes).getD 0 []) = Kind.shape1 ((ins'.map Info.shapes).getD 0 []))
    (hr : ∀ sh, b = .kind (.reshape sh) → out.shape = sh) (hr' : ∀ sh, b' = .kind (.reshape sh) → out'.shape = sh) (xs : List Val) :
    (b.node ins out).f xs = (b'.node ins' out').f xs := by
  cases b with
  | basic => exact hp.elim
  | advanced => exact hp.elim
  | permutation => exact hp.elim
  | kind k =>
    cases b' with
    | basic => exact hp'.elim
    | advanced => exact hp'.elim
    | permutation => exact hp'.elim
    | kind k' =>
      have hshape : Kind.shape1 out.shapes = Kind.shape1 out'.shapes := hshape
      cases k with
      | integer => cases hd
      | binaryVar => cases hd
      | collection => cases hd
      | disjointLists => cases hd
      | disjointBitSets => cases hd
      | output => exact hp.elim
      | partialSum => exact hp.elim
      | quadratic => exact hp.elim
      | constant a =>
        cases k' with
        | constant b => simp only [Built.constant?, Option.some.injEq] at hconst; subst hconst; rfl
        | unary op => cases op <;> cases hc
        | collection n lo hi => simp only [Built.pyClass] at hc; split_ifs at hc
        | _ => cases hc
      | unary op =>
        cases k' with
        | unary op' =>
          have e : op = op' := by
            cases op <;> cases op' <;> first | rfl | (cases hc; done) | skip
            simp only [Built.Plain] at hp hp'
            rw [hp, hp']
          subst e
          show [(_ : Arr Rat)] = [_]
          simp only [unaryNode, arrayNode, hshape]
        | collection n lo hi => cases op <;> (simp only [Built.pyClass] at hc; split_ifs at hc)
        | _ => cases op <;> cases hc
      | binary op =>
        cases k' with
        | binary op' =>
          cases hc
          show [(_ : Arr Rat)] = [_]
          simp only [binaryNode, arrayNode, hshape]
        | unary op => cases op <;> cases hc
        | collection n lo hi => simp only [Built.pyClass] at hc; split_ifs at hc
        | _ => cases hc
      | nary op =>
        cases k' with
        | nary op' =>
          cases hc
          cases op <;> (show [(_ : Arr Rat)] = [_]; simp only [naryNode, arrayNode, hshape])
        | unary op => cases op <;> cases hc
        | collection n lo hi => simp only [Built.pyClass] at hc; split_ifs at hc
        | _ => cases hc
      | reduce op init =>
        cases k' with
        | reduce op' init' =>
          cases hc
          have e : init = init' := by cases op <;> (simp only [Built.Plain] at hp hp'; rw [hp, hp'])
          subst e
          cases op <;> rfl
        | unary op => cases op <;> cases hc
        | collection n lo hi => simp only [Built.pyClass] at hc; split_ifs at hc
        | _ => cases hc
      | fold op init =>
        cases k' with
        | fold op' init' =>
          cases hc
          have e : init = init' := by cases op <;> (simp only [Built.Plain] at hp hp'; rw [hp, hp'])
          subst e
          cases op <;> rfl
        | unary op => cases op <;> cases hc
        | collection n lo hi => simp only [Built.pyClass] at hc; split_ifs at hc
        | _ => cases hc
      | reshape sh =>
        cases k' with
        | reshape sh' =>
          have h1 := hr sh rfl
          have h2 := hr' sh' rfl
          obtain rfl : sh = sh' := by rw [← h1, ← h2]; exact hshape
          rfl
        | unary op => cases op <;> cases hc
        | collection n lo hi => simp only [Built.pyClass] at hc; split_ifs at hc
        | _ => cases hc
      | size =>
        cases k' with
        | size => rfl
        | unary op => cases op <;> cases hc
        | collection n lo hi => simp only [Built.pyClass] at hc; split_ifs at hc
        | _ => cases hc
      | where_ =>
        cases k' with
        | where_ =>
          show [(_ : Arr Rat)] = [_]
          simp only [whereNode, arrayNode, hshape, hins]
        | unary op => cases op <;> cases hc
        | collection n lo hi => simp only [Built.pyClass] at hc; split_ifs at hc
        | _ => cases hc

theorem Made.reshape_shape (h : s.Made) {i : Nat} (hi : i < s.length) {sh : List Int} (hb : (s.row i).built = .kind (.reshape sh)) :
    (s.row i).out.shape = sh := by
  obtain ⟨sizes, _, hins, _, how⟩ := h.how hi
  cases how with
  | basic hb' => rw [hb'] at hb; cases hb
  | advanced hb' => rw [hb'] at hb; cases hb
  | permutation hb' => rw [hb'] at hb; cases hb
  | @kind k asked shapes hb' _ _ hm ho =>
    rw [hb] at hb'
    cases hb'
    rw [hins] at hm
    match hops : (s.row i).ops with
    | [] => rw [hops] at hm; simp [Kind.make] at hm
    | _ :: _ :: _ => rw [hops] at hm; simp [Kind.make] at hm
    | [p] =>
      rw [hops] at hm
      simp only [List.map_cons, List.map_nil, Kind.make] at hm
      obtain ⟨_, _, hm⟩ := Res.bind_eq_ok.1 hm
      obtain ⟨r, hr, hm⟩ := Res.bind_eq_ok.1 hm
      unfold reshapeShape at hr
      obtain ⟨_, _, hr⟩ := Res.bind_eq_ok.1 hr
      obtain ⟨_, _, hr⟩ := Res.bind_eq_ok.1 hr
      obtain ⟨_, _, hr⟩ := Res.bind_eq_ok.1 hr
      cases hr
      cases hm
      rw [ho]
      rfl

theorem Matched.up {i j p q a b k : Nat} (ha : (s.row i).ops[k]? = some a) (hb : (t.row j).ops[k]? = some b) (h : Matched s t a b p q) :
    Matched s t i j p q := by
  induction h with
  | root => exact .step .root ha hb
  | step _ h1 h2 ih => exact .step ih h1 h2

theorem alike_value (hs : s.Made) (ht : t.Made) {A B vals vals' : Nat → Val} (hf : s.Follows A vals) (hf' : t.Follows B vals')
    (root : Rat → Rat) : ∀ i j : Nat, i < s.length → j < t.length → Alike s t i j →
      (∀ p q, Matched s t i j p q → (s.row p).built.Plain root ∧ (t.row q).built.Plain root) →
      (∀ p q, Matched s t i j p q → (s.row p).decision = true → vals p = vals' q) → vals i = vals' j := by
  intro i
  induction i using Nat.strong_induction_on with
  | _ i ih =>
    intro j hi hj hal hpl hdec
    by_cases hd : (s.row i).decision = true
    · exact hdec i j .root hd
    · have hd : (s.row i).decision = false := by simpa using hd
      obtain ⟨hp, hp'⟩ := hpl i j .root
      have here := hal.here
      have hdc : ∀ {b b' : Built}, b.pyClass = b'.pyClass → b.decision = b'.decision := by
        have key : ∀ b : Built, b.decision = (match b.pyClass with
          | .integerVariable | .binaryVariable | .listVariable | .setVariable | .disjointLists | .disjointBitSets => true
          | _ => false) := by
          intro b
          cases b with
          | kind k =>
            cases k with
            | unary op => cases op <;> rfl
            | collection n lo hi => simp only [Built.pyClass]; split_ifs <;> rfl
            | _ => rfl
          | _ => rfl
        intro b b' e
        rw [key b, key b', e]
      have hd' : (t.row j).decision = false := by
        unfold Row.decision at hd ⊢
        rw [← hdc here.cls]
        exact hd
      have e1 := hf i hi
      have e2 := hf' j hj
      rw [hd] at e1
      rw [hd'] at e2
      simp only [Bool.false_eq_true, if_false] at e1 e2
      have hops : (s.row i).ops.map vals = (t.row j).ops.map vals' := by
        apply List.ext_getElem?
        intro k
        rw [List.getElem?_map, List.getElem?_map]
        by_cases hk : k < (s.row i).ops.length
        · have ha : (s.row i).ops[k]? = some (s.row i).ops[k] := List.getElem?_eq_getElem hk
          have hb : (t.row j).ops[k]? = some ((t.row j).ops[k]'(by rw [← here.count]; exact hk)) := List.getElem?_eq_getElem _
          rw [ha, hb]
          have hla := hs.ops_lt i _ (List.mem_of_getElem? ha)
          have hlb := ht.ops_lt j _ (List.mem_of_getElem? hb)
          simp only [Option.map_some]
          congr 1
          exact ih _ hla _ (by omega) (by omega) (hal.operands k _ _ ha hb) (fun p q h => hpl p q (h.up ha hb)) fun p q h => hdec p q (h.up ha hb)
        · rw [List.getElem?_eq_none (by omega), List.getElem?_eq_none (by rw [← here.count]; omega)]
          rfl
      rw [e1, e2, hops]
      unfold Row.node
      refine plain_f here.cls hp hp' hd ?_ (here.shape (plain_array hp)) ?_ (fun sh e => hs.reshape_shape hi e) (fun sh e => ht.reshape_shape hj e) _
      · have hdata := here.constant
        cases hc : (s.row i).built.constant? with
        | none =>
          rw [hc] at hdata
          cases hc' : (t.row j).built.constant? with
          | none => rfl
          | some b => rw [hc'] at hdata; cases hdata
        | some a =>
          rw [hc] at hdata
          cases hc' : (t.row j).built.constant? with
          | none => rw [hc'] at hdata; cases hdata
          | some b =>
            rw [hc'] at hdata
            have h1 := hs.constant_shape hi hc
            have h2 := ht.constant_shape hj hc'
            have h3 := here.shape (plain_array hp)
            obtain ⟨ash, adata⟩ := a
            obtain ⟨bsh, bdata⟩ := b
            simp only [Option.map_some, Option.some.injEq] at hdata
            have h4 : ash = bsh := h1.symm.trans (h3.trans h2)
            rw [hdata, h4]
      · obtain ⟨_, _, hins, _⟩ := hs.how hi
        obtain ⟨_, _, hins', _⟩ := ht.how hj
        rw [hins, hins']
        cases hl : (s.row i).ops with
        | nil =>
          have : (t.row j).ops = [] := by
            rw [← List.length_eq_zero_iff, ← here.count, hl]
            rfl
          rw [this]
          rfl
        | cons a l =>
          cases hl' : (t.row j).ops with
          | nil => have := here.count; rw [hl, hl'] at this; simp at this
          | cons b l' =>
            have ha : (s.row i).ops[0]? = some a := by rw [hl]; rfl
            have hb : (t.row j).ops[0]? = some b := by rw [hl']; rfl
            have hop := hal.operands 0 a b ha hb
            exact hop.here.shape (plain_array (hpl a b (.step .root ha hb)).1)

end Script

end Verif
