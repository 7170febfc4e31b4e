import Verif.Lemmas.SizeRename
import Verif.Lemmas.ArchiveKinds

set_option linter.unusedSimpArgs false
set_option linter.unusedVariables false

/-! Helper lemmas: constructors called with symbols that have other numbers. -/

namespace Verif

/-- The same, said with other numbers. -/
structure Info.Like (f : Nat → Nat) (a b : Info) : Prop where
  shapes : a.shapes = b.shapes
  claim : a.claim = b.claim
  size : a.size.rename f = b.size
  const : a.const = b.const

theorem Info.Like.shape {f : Nat → Nat} {a b : Info} (h : a.Like f b) : a.shape = b.shape := by
  unfold Info.shape; rw [h.shapes]

theorem Info.Like.absent (f : Nat → Nat) : Info.absent.Like f .absent := ⟨rfl, rfl, rfl, rfl⟩

theorem like_headD {f : Nat → Nat} {ins' ins : List Info} (h : List.Forall₂ (Info.Like f) ins' ins) :
    (ins'.headD .absent).Like f (ins.headD .absent) := by
  cases h with
  | nil => exact .absent f
  | cons h _ => exact h

theorem like_shapes {f : Nat → Nat} {ins' ins : List Info} (h : List.Forall₂ (Info.Like f) ins' ins) :
    ins'.map Info.shapes = ins.map Info.shapes := by
  induction h with
  | nil => rfl
  | cons h _ ih => simp only [List.map_cons, h.shapes, ih]

theorem like_claims {f : Nat → Nat} {ins' ins : List Info} (h : List.Forall₂ (Info.Like f) ins' ins) :
    ins'.mapM Info.claim = ins.mapM Info.claim := by
  induction h with
  | nil => rfl
  | cons h _ ih => simp only [List.mapM_cons, h.claim, ih]

namespace Kind

theorem Alike.asks {k k' : Kind} (h : Alike k' k) : k'.asks = k.asks := by cases h <;> rfl

theorem Alike.isTruth {k k' : Kind} (h : Alike k' k) : k'.isTruth = k.isTruth := by cases h <;> rfl

theorem Alike.value {k k' : Kind} (h : Alike k' k) : k'.value = k.value := by cases h <;> rfl

end Kind

variable {P : Nat → Prop} {f : Nat → Nat} {sizes' sizes : Nat → SizeInfo}

theorem Info.Like.known (h : Renames P f sizes' sizes) {a b : Info} (hab : a.Like f b) (hP : ∀ i, a.size.array = some i → P i) :
    a.known sizes' = b.known sizes := by
  unfold Info.known
  rw [hab.shape, ← hab.size, h.substitute 100 hP]
  split_ifs
  · rcases a.size.substitute sizes' 100 with t | _ | _ <;> rfl
  · rfl

theorem claimFrom_like (h : Renames P f sizes' sizes) {k' k : Kind} (hk : Kind.Alike k' k) {ins' ins : List Info}
    (hi : List.Forall₂ (Info.Like f) ins' ins) (hP : ∀ a ∈ ins', ∀ i, a.size.array = some i → P i) :
    k'.claimFrom sizes' ins' = k.claimFrom sizes ins := by
  unfold Kind.claimFrom
  have hh := like_headD hi
  have hPh : ∀ i, (ins'.headD .absent).size.array = some i → P i := by
    cases ins' with
    | nil => intro i hi; cases hi
    | cons a _ => exact hP a List.mem_cons_self
  rw [hk.isTruth, like_claims hi, hh.known h hPh, hh.shape]
  split_ifs
  · rfl
  · rcases ins.mapM Info.claim with cs | _ | _
    · simp only [Res.ok_bind]
      rw [hk.claim cs (ins'.headD .absent).size _ _]
      exact Kind.claim_info k cs (by rw [← hh.size]; rfl) (by rw [← hh.size]; rfl) _ _
    · rfl
    · rfl

theorem sizeFrom_binary (op : BinaryOp) {self' : Nat} {shapes : List (List Int)} {ops' : List Nat}
    {ins' ins : List Info} (hi : List.Forall₂ (Info.Like f) ins' ins) :
    ((Kind.binary op).sizeFrom self' shapes ops' ins').rename f = (Kind.binary op).sizeFrom (f self') shapes (ops'.map f) ins := by
  unfold Kind.sizeFrom
  split_ifs
  · rcases ops' with _ | ⟨l, _ | ⟨r, _ | ⟨q, ops'⟩⟩⟩
    · rfl
    · rfl
    · rcases hi with _ | ⟨h1, _ | ⟨h2, _ | ⟨h3, h4⟩⟩⟩
      · rfl
      · rfl
      · simp only [List.map_cons, List.map_nil, h1.shape]
        split_ifs <;> rfl
      · rfl
    · rfl
  · rfl

theorem sizeFrom_output (j : Nat) {self' : Nat} {shapes : List (List Int)} {ops' : List Nat}
    {ins' ins : List Info} (hi : List.Forall₂ (Info.Like f) ins' ins) :
    ((Kind.output j).sizeFrom self' shapes ops' ins').rename f = (Kind.output j).sizeFrom (f self') shapes (ops'.map f) ins := by
  unfold Kind.sizeFrom
  split_ifs
  · rcases hi with _ | ⟨h1, _ | ⟨h2, h3⟩⟩
    · rfl
    · simp only [← h1.size]
      rfl
    · rfl
  · rfl

theorem sizeFrom_like {k' k : Kind} (hk : Kind.Alike k' k) {self' : Nat} {shapes : List (List Int)} {ops' : List Nat}
    {ins' ins : List Info} (hi : List.Forall₂ (Info.Like f) ins' ins) :
    (k'.sizeFrom self' shapes ops' ins').rename f = k.sizeFrom (f self') shapes (ops'.map f) ins := by
  have aux : ∀ (c : Prop) [Decidable c] (a b : SizeInfo) (n : Int), a.rename f = b →
      (if c then a else SizeInfo.fixed n).rename f = if c then b else SizeInfo.fixed n := by
    intro c _ a b n e
    split_ifs
    · exact e
    · rfl
  cases hk with
  | integer _ _ _ => exact aux _ _ _ _ rfl
  | quadratic _ _ _ _ => exact aux _ _ _ _ rfl
  | same k₀ =>
    cases k' with
    | binary op => exact sizeFrom_binary op hi
    | output j => exact sizeFrom_output j hi
    | _ => exact aux _ _ _ _ rfl

/-- A constructor of the catalog. -/
theorem construct_like (h : Renames P f sizes' sizes) {k' k : Kind} (hk : Kind.Alike k' k) {self' : Nat} {ops' : List Nat}
    {ins' ins : List Info} (hi : List.Forall₂ (Info.Like f) ins' ins) (hP : ∀ a ∈ ins', ∀ i, a.size.array = some i → P i)
    {b : Built} {out : Info} (hc : k.construct (f self') sizes (ops'.map f) ins = .ok (b, out)) :
    ∃ out', k'.construct self' sizes' ops' ins' = .ok (.kind k', out') ∧ out'.Like f out := by
  rw [Kind.construct_eq] at hc ⊢
  obtain ⟨asked, h1, hc⟩ := Res.bind_eq_ok.1 hc
  obtain ⟨_, h2, hc⟩ := Res.bind_eq_ok.1 hc
  have h2 := guardThrow_eq_ok.1 h2
  obtain ⟨shapes, h3, hc⟩ := Res.bind_eq_ok.1 hc
  simp only [Res.ok.injEq, Prod.mk.injEq] at hc
  obtain ⟨-, rfl⟩ := hc
  rw [hk.asks, like_claims hi, h1]
  simp only [Res.ok_bind]
  rw [guardThrow_true (hk.rangeChecks asked |>.mpr h2), like_shapes hi]
  simp only [Res.ok_bind]
  rw [hk.make, h3]
  simp only [Res.ok_bind]
  exact ⟨_, rfl, rfl, claimFrom_like h hk hi hP, sizeFrom_like hk hi, hk.value⟩

theorem advScan_none {stride0 : Int} {m : Option Int} : ∀ {idx : List (Option Indexer)} {axis : Nat} {shape : List Int} {s s' : AdvScan},
    idx.reduceOption = [] → s.first = none → advScan stride0 m axis shape idx s = .ok s' → s'.first = none := by
  intro idx
  induction idx with
  | nil =>
    intro axis shape s s' _ hs h
    cases shape <;> (simp only [advScan, Res.ok.injEq] at h; rw [← h]; exact hs)
  | cons o idx ih =>
    intro axis shape s s' hn hs h
    cases o with
    | some i => simp at hn
    | none =>
      cases shape with
      | nil => simp only [advScan, Res.ok.injEq] at h; rw [← h]; exact hs
      | cons d shape =>
        simp only [advScan] at h
        exact ih (by simpa using hn) (by exact hs) h

theorem advParse_some {shape : List Int} {m : Option Int} {idx : List (Option Indexer)} {Q : Adv} (h : advParse shape m idx = .ok Q)
    (hn : idx.reduceOption = []) : False := by
  unfold advParse at h
  obtain ⟨_, _, h⟩ := Res.bind_eq_ok.1 h
  obtain ⟨_, _, h⟩ := Res.bind_eq_ok.1 h
  obtain ⟨s, hs, h⟩ := Res.bind_eq_ok.1 h
  rw [advScan_none hn rfl hs] at h
  cases h

/-- `x[arrays]`. -/
theorem advanced_like (h : Renames P f sizes' sizes) {slots : List Bool} {self' : Nat} {ops' : List Nat} {g' g : Nat → Info}
    (hi : ∀ p ∈ ops', (g' p).Like f (g (f p))) (hP : ∀ p ∈ ops', P p ∧ p < self' ∧ f p < f self')
    (hS : ∀ p ∈ ops', ∀ i, (g' p).size.array = some i → P i) {b : Built} {out : Info}
    (hc : (Term.advanced slots).construct (f self') sizes (ops'.map f) ((ops'.map f).map g) = .ok (b, out)) :
    ∃ out', (Term.advanced slots).construct self' sizes' ops' (ops'.map g') = .ok (b, out') ∧ out'.Like f out := by
  match ops', hi, hP, hS, hc with
  | [], _, _, _, hc => simp [Term.construct] at hc
  | x :: xs, hi, hP, hS, hc =>
    simp only [Term.construct, List.map_cons] at hc ⊢
    have hx := hi x List.mem_cons_self
    obtain ⟨sh, h1, hc⟩ := Res.bind_eq_ok.1 hc
    obtain ⟨idx, h2, hc⟩ := Res.bind_eq_ok.1 hc
    obtain ⟨z, h3, hc⟩ := Res.bind_eq_ok.1 hc
    obtain ⟨Q, h4, hc⟩ := Res.bind_eq_ok.1 hc
    simp only [Res.ok.injEq, Prod.mk.injEq] at hc
    obtain ⟨rfl, rfl⟩ := hc
    have hidx : indexers sizes' (self' + 1) none slots (xs.zip (xs.map g')) = .ok idx := by
      rw [← h2]
      refine (h.indexers (first' := none) (by intro i hi; cases hi) ?_).symm
      have : ∀ l : List Nat, (∀ p ∈ l, p ∈ x :: xs) → List.Forall₂ (fun a b : Nat × Info => b.1 = f a.1 ∧
          (P a.1 ∧ a.1 < self' + 1 ∧ f a.1 < f self' + 1) ∧ a.2.shapes = b.2.shapes ∧ a.2.claim = b.2.claim)
          (l.zip (l.map g')) ((l.map f).zip ((l.map f).map g)) := by
        intro l
        induction l with
        | nil => intro _; exact .nil
        | cons p l ih =>
          intro hl
          have hp := hP p (hl p List.mem_cons_self)
          have hq := hi p (hl p List.mem_cons_self)
          exact .cons ⟨rfl, ⟨hp.1, by simp only; omega, by simp only; omega⟩, hq.shapes, hq.claim⟩
            (ih fun p hp => hl p (List.mem_cons_of_mem _ hp))
      exact this xs fun p hp => List.mem_cons_of_mem _ hp
    have hz : ∃ z', (g' x).size.substitute sizes' (if (g' x).size.array = none then 0 else 100) = .ok z' ∧ z'.min = z.min := by
      have hn : ((g (f x)).size.array = none) ↔ ((g' x).size.array = none) := by
        rw [← hx.size]
        show ((g' x).size.array.map f = none) ↔ _
        simp
      rw [← hx.size, h.substitute _ (hS x List.mem_cons_self)] at h3
      rw [hx.size] at h3
      simp only [hn] at h3
      obtain ⟨z', e, h3⟩ := Res.bind_eq_ok.1 h3
      refine ⟨z', e, ?_⟩
      rw [← Res.ok.inj h3]
      rfl
    obtain ⟨z', hz, hm⟩ := hz
    rw [hx.shapes, h1]
    simp only [Res.ok_bind]
    rw [hidx]
    simp only [Res.ok_bind]
    rw [hz]
    simp only [Res.ok_bind]
    rw [hm, h4]
    simp only [Res.ok_bind]
    refine ⟨⟨[Q.shape], (g' x).claim, if dynamicShape Q.shape then .of (xs.headD 0) none none else .fixed Q.shape.prod, none⟩,
      by rw [hx.const], rfl, hx.claim, ?_, rfl⟩
    split_ifs with hd
    · cases xs with
      | nil =>
        exfalso
        have hnil : idx.reduceOption = [] := by
          have := indexers_inv h2
          simpa using this
        exact advParse_some h4 hnil
      | cons y ys => rfl
    · rfl

/-- `A[x, :][:, x]`. -/
theorem permutation_like {self' : Nat} {ops' : List Nat} {g' g : Nat → Info} (hi : ∀ p ∈ ops', (g' p).Like f (g (f p)))
    {b : Built} {out : Info}
    (hc : Term.permutation.construct (f self') sizes (ops'.map f) ((ops'.map f).map g) = .ok (b, out)) :
    ∃ out', Term.permutation.construct self' sizes' ops' (ops'.map g') = .ok (b, out') ∧ out'.Like f out := by
  match ops', hi, hc with
  | [], _, hc => simp [Term.construct] at hc
  | [_], _, hc => simp [Term.construct] at hc
  | _ :: _ :: _ :: _, _, hc => simp [Term.construct] at hc
  | [x, y], hi, hc =>
    have hx := hi x (by simp)
    have hy := hi y (by simp)
    simp only [Term.construct, List.map_cons, List.map_nil] at hc ⊢
    obtain ⟨sh, h1, hc⟩ := Res.bind_eq_ok.1 hc
    obtain ⟨t, h2, hc⟩ := Res.bind_eq_ok.1 hc
    obtain ⟨c, h3, hc⟩ := Res.bind_eq_ok.1 hc
    obtain ⟨_, h4, hc⟩ := Res.bind_eq_ok.1 hc
    simp only [Res.ok.injEq, Prod.mk.injEq] at hc
    obtain ⟨rfl, rfl⟩ := hc
    rw [hx.shapes, h1, hy.shapes, h2, hy.claim, h3, hx.const]
    simp only [Res.ok_bind]
    rw [h4]
    exact ⟨_, rfl, rfl, hx.claim, rfl, rfl⟩

/-- `x[idx]` with other indices that give the same view. -/
theorem basic_like {self' : Nat} {ops' : List Nat} {g' g : Nat → Info} (hi : ∀ p ∈ ops', (g' p).Like f (g (f p)))
    {sh : List Int} {idx idx' : List BasicIndex} {Q Q' : Parsed} (hQ : basicParse sh idx' = .ok Q') (hs : Q'.shape = Q.shape)
    (ha : Q'.axis0 = Q.axis0) {out : Info}
    (hc : (Term.basic idx).construct (f self') sizes (ops'.map f) ((ops'.map f).map g) = .ok (.basic sh idx Q, out)) :
    ∃ out', (Term.basic idx').construct self' sizes' ops' (ops'.map g') = .ok (.basic sh idx' Q', out') ∧ out'.Like f out := by
  match ops', hi, hc with
  | [], _, hc => simp [Term.construct] at hc
  | _ :: _ :: _, _, hc => simp [Term.construct] at hc
  | [x], hi, hc =>
    have hx := hi x (by simp)
    simp only [Term.construct, List.map_cons, List.map_nil] at hc ⊢
    obtain ⟨sh₁, h1, hc⟩ := Res.bind_eq_ok.1 hc
    obtain ⟨Q₁, h2, hc⟩ := Res.bind_eq_ok.1 hc
    rw [hx.shapes, h1]
    simp only [Res.ok_bind]
    cases hax : Q₁.axis0 with
    | none =>
      rw [hax] at hc
      simp only [Res.ok_bind, Res.ok.injEq, Prod.mk.injEq, Built.basic.injEq] at hc
      obtain ⟨⟨rfl, -, rfl⟩, rfl⟩ := hc
      rw [hQ]
      simp only [Res.ok_bind, ha, hax]
      exact ⟨_, rfl, by rw [hs], hx.claim, by rw [hs]; rfl, rfl⟩
    | some sl =>
      rw [hax] at hc
      obtain ⟨z, h3, hc⟩ := Res.bind_eq_ok.1 hc
      simp only [Res.ok.injEq, Prod.mk.injEq, Built.basic.injEq] at hc
      obtain ⟨⟨rfl, -, rfl⟩, rfl⟩ := hc
      rw [hQ]
      simp only [Res.ok_bind, ha, hax, hs]
      unfold SizeInfo.ofSlice at h3 ⊢
      obtain ⟨_, g1, h3⟩ := Res.bind_eq_ok.1 h3
      obtain ⟨_, g2, h3⟩ := Res.bind_eq_ok.1 h3
      rw [g1, Res.ok_bind, g2, Res.ok_bind, Res.ok_bind]
      exact ⟨_, rfl, rfl, hx.claim, by rw [← Res.ok.inj h3]; rfl, rfl⟩

end Verif
