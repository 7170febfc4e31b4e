import Verif.Lemmas.ProgramFileRows
import Verif.Lemmas.ProgramWhole
import Verif.Lemmas.ProgramRealises
import Verif.Lemmas.ArchiveLoad

set_option linter.unusedSimpArgs false
set_option linter.unusedVariables false

/-! Helper lemmas: loading a program makes its symbols again, one after the other. -/

namespace Verif

open Graph PyModel Draft

namespace Script

/-- A program that can be saved, and its graph. -/
structure Source (M : Generated) (m : PyModel) (isList : Nat → Bool) : Prop where
  made : M.rows.Made
  whole : Whole M.rows m
  python : M.rows.FromPython isList

/-- The symbols after some have been loaded. -/
structure Loading (M : Generated) (m : PyModel) (i : Nat) (L : Script) : Prop where
  length : L.length = i
  made : L.Made
  loads : ∀ j < i, Row.Loads (M.draft m).at_ (L.row j) (M.rows.row ((M.draft m).at_ j))

variable {M : Generated} {m : PyModel} {isList : Nat → Bool}

namespace Source

theorem count (h : Source M m isList) : m.g.nodes.length = M.rows.length := by
  have hn := h.whole.inv.wf.nodup
  have : m.g.nodes.Perm (List.range M.rows.length) :=
    (List.perm_ext_iff_of_nodup hn List.nodup_range).2 fun a => by rw [h.whole.nodes, List.mem_range]
  simpa using this.length_eq

theorem at_lt (h : Source M m isList) {i : Nat} (hi : i < M.rows.length) : (M.draft m).at_ i < M.rows.length :=
  (h.whole.nodes _).1 (at_mem (d := M.draft m) (by show i < m.g.nodes.length; rw [h.count]; exact hi))

/-- The operands in the file. -/
theorem operands (h : Source M m isList) {i : Nat} (hi : i < M.rows.length) :
    (∀ p ∈ (M.draft m).operands ((M.draft m).at_ i), p < i ∧ (M.draft m).at_ p < (M.draft m).at_ i) ∧
      ((M.draft m).operands ((M.draft m).at_ i)).map (M.draft m).at_ = (M.rows.row ((M.draft m).at_ i)).ops ∧
      (M.draft m).operands ((M.draft m).at_ i) = (M.rows.row ((M.draft m).at_ i)).ops.map fun p => ((M.draft m).pos p).toNat := by
  have w : (M.draft m).m.g.WF := h.whole.inv.wf
  have hs : (M.draft m).m.g.sorted = true := h.whole.sorted
  have hi' : i < (M.draft m).m.g.nodes.length := by show i < m.g.nodes.length; rw [h.count]; exact hi
  have hv := at_mem hi'
  have hvl := h.at_lt hi
  have hpr : ((M.draft m).m.g.mem ((M.draft m).at_ i)).preds = (M.rows.row ((M.draft m).at_ i)).ops := h.whole.preds _ hvl
  have hpos : ∀ p ∈ (M.rows.row ((M.draft m).at_ i)).ops, ((M.draft m).pos p).toNat < i ∧ (M.draft m).at_ ((M.draft m).pos p).toNat = p := by
    intro p hp
    rw [← hpr] at hp
    have h1 := pred_pos w hs hv hp
    obtain ⟨h2, h3, h4⟩ := at_pos w hs (w.predMem _ hv p hp)
    rw [pos_at w hs hi'] at h1
    exact ⟨by omega, h4⟩
  have he : (M.draft m).operands ((M.draft m).at_ i) = (M.rows.row ((M.draft m).at_ i)).ops.map fun p => ((M.draft m).pos p).toNat := by
    rw [Draft.operands, hpr]
  rw [he]
  refine ⟨?_, ?_, rfl⟩
  · intro p hp
    obtain ⟨q, hq, rfl⟩ := List.mem_map.1 hp
    obtain ⟨h1, h2⟩ := hpos q hq
    rw [h2]
    exact ⟨h1, h.made.before hvl q hq⟩
  · rw [List.map_map]
    conv_rhs => rw [← List.map_id (M.rows.row ((M.draft m).at_ i)).ops]
    exact List.map_congr_left fun p hp => (hpos p hp).2

end Source

namespace Loading

variable {L : Script} {i : Nat}

/-- The sizes of the symbols below. -/
theorem renames (h : Source M m isList) (hL : Loading M m i L) (hi : i < M.rows.length) {sizes : Nat → SizeInfo}
    (hs : ∀ j < (M.draft m).at_ i, sizes j = M.rows.sizes j) :
    Renames (fun j => j < i ∧ (M.draft m).at_ j < (M.draft m).at_ i) (M.draft m).at_ L.sizes sizes := by
  have w : (M.draft m).m.g.WF := h.whole.inv.wf
  have hlen : (M.draft m).m.g.nodes.length = M.rows.length := h.count
  have hsz : ∀ j, j < i ∧ (M.draft m).at_ j < (M.draft m).at_ i → (L.sizes j).rename (M.draft m).at_ = sizes ((M.draft m).at_ j) := by
    intro j hj
    rw [hs _ hj.2]
    exact (hL.loads j hj.1).same.size
  have hdn : ∀ j, j < i ∧ (M.draft m).at_ j < (M.draft m).at_ i → ∀ a, (sizes ((M.draft m).at_ j)).array = some a → a ≤ (M.draft m).at_ j := by
    intro j hj a ha
    rw [hs _ hj.2] at ha
    exact h.made.size_down (h.at_lt (lt_trans hj.1 hi)) ha
  have hdn' : ∀ j, j < i → ∀ a, (L.sizes j).array = some a → a ≤ j := fun j hj a ha =>
    hL.made.size_down (by rw [hL.length]; exact hj) ha
  refine ⟨?_, hsz, ?_, fun j hj => hdn' j hj.1, hdn⟩
  · intro a ha b hb he
    exact at_inj w (by omega) (by omega) he
  · intro j hj a ha
    have h1 := hdn' j hj.1 a ha
    have h2 := hdn j hj ((M.draft m).at_ a) (by rw [← hsz j hj]; simp [SizeInfo.rename, ha])
    omega

/-- The next symbol. -/
theorem extend (h : Source M m isList) (hL : Loading M m i L) (hi : i < M.rows.length) {t : Term} {b : Built} {out : Info}
    (hc : t.construct i L.sizes ((M.draft m).operands ((M.draft m).at_ i))
      (((M.draft m).operands ((M.draft m).at_ i)).map fun p => (L.row p).out) = .ok (b, out))
    (hr : Row.Loads (M.draft m).at_ ⟨b, (M.draft m).operands ((M.draft m).at_ i),
      ((M.draft m).operands ((M.draft m).at_ i)).map fun p => (L.row p).out, out⟩ (M.rows.row ((M.draft m).at_ i))) :
    ∃ L', L.add t ((M.draft m).operands ((M.draft m).at_ i)) = .ok (L', i) ∧ Loading M m (i + 1) L' := by
  have ha : L.add t ((M.draft m).operands ((M.draft m).at_ i)) = .ok (L ++ [⟨b, (M.draft m).operands ((M.draft m).at_ i),
      ((M.draft m).operands ((M.draft m).at_ i)).map fun p => (L.row p).out, out⟩], i) := by
    unfold Script.add
    rw [guardUB_true (fun p hp => by rw [hL.length]; exact ((h.operands hi).1 p hp).1), Res.ok_bind, hL.length, hc]
    rfl
  refine ⟨_, ha, by simp [hL.length], hL.made.add ha, ?_⟩
  intro j hj
  rcases Nat.lt_or_ge j i with hlt | hge
  · rw [row_append (by rw [hL.length]; exact hlt)]
    exact hL.loads j hlt
  · obtain rfl : j = L.length := by rw [hL.length]; omega
    rw [row_last, hL.length]
    exact hr

theorem ins (h : Source M m isList) (hL : Loading M m i L) (hi : i < M.rows.length) :
    ∀ p ∈ (M.draft m).operands ((M.draft m).at_ i), ((L.row p).out).Like (M.draft m).at_ (M.rows.row ((M.draft m).at_ p)).out :=
  fun p hp => (hL.loads p ((h.operands hi).1 p hp).1).like

/-- A symbol of the catalog. -/
theorem construct (h : Source M m isList) (hL : Loading M m i L) (hi : i < M.rows.length) {k' k : Kind}
    (hb : (M.rows.row ((M.draft m).at_ i)).built = .kind k) (hk : Kind.Alike k' k) :
    ∃ L', L.construct k' ((M.draft m).operands ((M.draft m).at_ i)) = .ok L' ∧ Loading M m (i + 1) L' := by
  have hvl := h.at_lt hi
  obtain ⟨h1, h2, h3⟩ := h.operands hi
  have hpy := h.python _ hvl
  unfold Row.FromPython at hpy
  rw [hb] at hpy
  obtain ⟨hty, _, hre, _⟩ := hpy
  have hmade := h.made _ hvl
  obtain ⟨t, sizes, -, k2, k3, k4⟩ := hmade
  have ht : t = .kind k := by
    have := (realises_of_construct k4).2
    cases t with
    | kind k' => rw [hb] at this; simpa using this.symm
    | basic _ => obtain ⟨_, _, this⟩ := this; rw [hb] at this; cases this
    | advanced _ => obtain ⟨_, _, _, this, _⟩ := this; rw [hb] at this; cases this
    | permutation => obtain ⟨_, this⟩ := this; rw [hb] at this; cases this
  subst ht
  have hins := hL.ins h hi
  have k4 : k.construct _ sizes _ _ = _ := k4
  rw [← h2] at k4
  have hf : List.Forall₂ (Info.Like (M.draft m).at_) (((M.draft m).operands ((M.draft m).at_ i)).map fun p => (L.row p).out)
      (M.rows.row ((M.draft m).at_ i)).ins := by
    rw [k2, ← h2, List.map_map, List.forall₂_map_left_iff, List.forall₂_map_right_iff, List.forall₂_same]
    exact hins
  obtain ⟨out', e1, e2⟩ := construct_like (hL.renames h hi k3) hk hf (by
    intro a ha j hj
    obtain ⟨p, hp, rfl⟩ := List.mem_map.1 ha
    exact (hL.renames h hi k3).closed p (h1 p hp) j hj) k4
  have hrow : M.rows.row ((M.draft m).at_ i) = ⟨.kind k, (M.rows.row ((M.draft m).at_ i)).ops, (M.rows.row ((M.draft m).at_ i)).ins,
      (M.rows.row ((M.draft m).at_ i)).out⟩ := by rw [← hb]
  obtain ⟨L', e3, e4⟩ := hL.extend h hi (t := .kind k') e1 (by
    rw [hrow]
    exact loads_kind hk h2 (like_shapes hf) e2)
  refine ⟨L', ?_, e4⟩
  unfold Script.construct
  rw [guardThrow_true, Res.ok_bind, guardThrow_true, Res.ok_bind, e3]
  · rfl
  · intro hr p hp
    rw [(hL.loads p (h1 p hp).1).contiguous]
    apply hre
    · cases hk with
      | same _ => exact hr
      | integer _ _ _ => cases hr
      | quadratic _ _ _ _ => cases hr
    · rw [← h2]
      exact List.mem_map_of_mem hp
  · rw [hk.typed, ← hty, ← h2]
    refine Kind.typed_congr _ ?_
    rw [List.map_map, List.map_map, List.map_map]
    exact List.map_congr_left fun p hp => (hL.loads p (h1 p hp).1).kind.isArray

/-- Operands that are arrays. -/
theorem array (hL : Loading M m i L) {p : Nat} (hp : p < i) :
    (L.row p).built.asKind.isArray = (M.rows.row ((M.draft m).at_ p)).built.asKind.isArray := (hL.loads p hp).kind.isArray

/-- A slice. -/
theorem basic (h : Source M m isList) (hL : Loading M m i L) (hi : i < M.rows.length) {sh : List Int} {idx : List BasicIndex} {P : Parsed}
    (hb : (M.rows.row ((M.draft m).at_ i)).built = .basic sh idx P) :
    ∃ out L', reportedIndices sh P = .ok out ∧
      L.loadSymbol .basicIndexing (.indices out) ((M.draft m).operands ((M.draft m).at_ i)) = .ok L' ∧ Loading M m (i + 1) L' := by
  have hvl := h.at_lt hi
  obtain ⟨h1, h2, h3⟩ := h.operands hi
  have hpy := h.python _ hvl
  unfold Row.FromPython at hpy
  rw [hb] at hpy
  obtain ⟨hV, hA⟩ := hpy
  obtain ⟨t, sizes, k1, k2, k3, k4⟩ := h.made _ hvl
  have ht : t = .basic idx := by
    have := (realises_of_construct k4).2
    cases t with
    | kind k' => rw [hb] at this; cases this
    | basic _ => obtain ⟨_, _, this⟩ := this; rw [hb] at this; cases this; rfl
    | advanced _ => obtain ⟨_, _, _, this, _⟩ := this; rw [hb] at this; cases this
    | permutation => obtain ⟨_, this⟩ := this; rw [hb] at this; cases this
  subst ht
  obtain ⟨x, hx, hP⟩ : ∃ x, (M.rows.row ((M.draft m).at_ i)).ops = [x] ∧ basicParse sh idx = .ok P := by
    obtain ⟨_, _, _, _, how⟩ := h.made.how hvl
    cases how with
    | kind e => rw [hb] at e; cases e
    | basic e e1 _ _ e2 => rw [hb] at e; cases e; exact ⟨_, e1, e2⟩
    | advanced e => rw [hb] at e; cases e
    | permutation e => rw [hb] at e; cases e
  obtain ⟨q, hq⟩ : ∃ q, (M.draft m).operands ((M.draft m).at_ i) = [q] := by rw [h3, hx]; exact ⟨_, rfl⟩
  have hqx : (M.draft m).at_ q = x := by rw [hq, hx] at h2; simpa using h2
  obtain ⟨out, Q, e1, e2, e3, e4, e5, e6⟩ := hV.again hP
  rw [k2, hb, ← h2] at k4
  obtain ⟨out', e7, e8⟩ := basic_like (sizes' := L.sizes) (g' := fun p => (L.row p).out) (g := fun p => (M.rows.row p).out) (hL.ins h hi) e2 e3 e4 k4
  have hrow : M.rows.row ((M.draft m).at_ i) = ⟨.basic sh idx P, (M.rows.row ((M.draft m).at_ i)).ops, (M.rows.row ((M.draft m).at_ i)).ins,
      (M.rows.row ((M.draft m).at_ i)).out⟩ := by rw [← hb]
  obtain ⟨L', e9, e10⟩ := hL.extend h hi e7 (by
    rw [hrow]
    exact loads_basic e3 e5 e6 h2 e8)
  refine ⟨out, L', e1, ?_, e10⟩
  have hqi := (h1 q (by rw [hq]; simp)).1
  have hxA := hA x (by rw [hx]; simp)
  rw [hq] at e9 ⊢
  unfold Script.loadSymbol Script.arrayArg Script.basicIndexing
  have g1 : (L.row ([q].headD 0)).built.asKind.isArray = true := by
    show (L.row q).built.asKind.isArray = true
    rw [hL.array hqi, hqx]; exact hxA.1
  have g2 : (L.row ([q].headD 0)).built.contiguous = true := by
    show (L.row q).built.contiguous = true
    rw [(hL.loads q hqi).contiguous, hqx]; exact hxA.2
  have e9 : L.add (.basic out) [[q].headD 0] = .ok (L', i) := e9
  dsimp only
  rw [guardThrow_true (by rfl), Res.ok_bind, guardThrow_true g1, Res.ok_bind, guardThrow_true g2, Res.ok_bind, e9]
  rfl

theorem places_load {L : Script} {f : Nat → Int} : ∀ {idx : List (Option Indexer)} {xs : List Nat}, xs.length = idx.reduceOption.length →
    (∀ p ∈ xs, 0 ≤ f p ∧ (f p).toNat < L.length ∧ (L.row (f p).toNat).built.asKind.isArray = true) →
    ∃ l, (Generated.places idx (xs.map f)).mapM L.loadPlace = .ok l ∧ l.map Option.isSome = idx.map Option.isSome ∧
      l.filterMap id = xs.map fun p => (f p).toNat := by
  intro idx
  induction idx with
  | nil =>
    intro xs hl hx
    obtain rfl : xs = [] := by simpa using hl
    exact ⟨[], rfl, rfl, rfl⟩
  | cons o idx ih =>
    intro xs hl hx
    cases o with
    | none =>
      obtain ⟨l, h1, h2, h3⟩ := ih (xs := xs) (by simpa using hl) hx
      refine ⟨none :: l, ?_, by simp [h2], by simpa using h3⟩
      show (none :: Generated.places idx (xs.map f)).mapM L.loadPlace = _
      rw [List.mapM_cons, h1]
      rfl
    | some I =>
      cases xs with
      | nil => simp at hl
      | cons x xs =>
        obtain ⟨l, h1, h2, h3⟩ := ih (xs := xs) (by simpa using hl) (fun p hp => hx p (by simp [hp]))
        obtain ⟨a, b, c⟩ := hx x (by simp)
        refine ⟨some (f x).toNat :: l, ?_, by simp [h2], by simpa using h3⟩
        show (some (f x) :: Generated.places idx (xs.map f)).mapM L.loadPlace = _
        rw [List.mapM_cons, h1]
        unfold Script.loadPlace Script.arrayArg
        simp only
        rw [guardUB_true ⟨a, b⟩, Res.ok_bind, guardThrow_true c]
        rfl

/-- An array indexed by arrays. -/
theorem advanced (h : Source M m isList) (hL : Loading M m i L) (hi : i < M.rows.length) {idx : List (Option Indexer)} {P : Adv}
    {base : Option (Arr Rat)} (hb : (M.rows.row ((M.draft m).at_ i)).built = .advanced idx P base) :
    ∃ L', L.loadSymbol .advancedIndexing (.places (Generated.places idx
        ((M.rows.row ((M.draft m).at_ i)).ops.tail.map (M.draft m).pos))) ((M.draft m).operands ((M.draft m).at_ i)) = .ok L' ∧
      Loading M m (i + 1) L' := by
  have hvl := h.at_lt hi
  obtain ⟨h1, h2, h3⟩ := h.operands hi
  have hA := h.python _ hvl
  unfold Row.FromPython at hA
  rw [hb] at hA
  have hA : ∀ p ∈ (M.rows.row ((M.draft m).at_ i)).ops, (M.rows.row p).built.asKind.isArray = true := hA
  obtain ⟨t, sizes, k1, k2, k3, k4⟩ := h.made _ hvl
  have ht : t = .advanced (idx.map Option.isSome) := by
    have := (realises_of_construct k4).2
    cases t with
    | kind k' => rw [hb] at this; cases this
    | basic _ => obtain ⟨_, _, this⟩ := this; rw [hb] at this; cases this
    | advanced _ => obtain ⟨_, _, _, this, e⟩ := this; rw [hb] at this; cases this; rw [← e]
    | permutation => obtain ⟨_, this⟩ := this; rw [hb] at this; cases this
  subst ht
  obtain ⟨x, xs, hx, hlen⟩ : ∃ x xs, (M.rows.row ((M.draft m).at_ i)).ops = x :: xs ∧ xs.length = idx.reduceOption.length := by
    obtain ⟨_, _, _, _, how⟩ := h.made.how hvl
    cases how with
    | kind e => rw [hb] at e; cases e
    | basic e => rw [hb] at e; cases e
    | advanced e e1 e2 e3 => rw [hb] at e; cases e; exact ⟨_, _, e1, (indexers_rows e3).length_eq⟩
    | permutation e => rw [hb] at e; cases e
  have w : (M.draft m).m.g.WF := h.whole.inv.wf
  have hs : (M.draft m).m.g.sorted = true := h.whole.sorted
  have hpos : ∀ p ∈ (M.rows.row ((M.draft m).at_ i)).ops, 0 ≤ (M.draft m).pos p ∧ ((M.draft m).pos p).toNat < L.length ∧
      (L.row ((M.draft m).pos p).toNat).built.asKind.isArray = true := by
    intro p hp
    obtain ⟨a, _, b⟩ := at_pos w hs (show p ∈ (M.draft m).m.g.nodes from (h.whole.nodes p).2 (lt_trans (k1 p hp) hvl))
    have c : ((M.draft m).pos p).toNat < i := (h1 _ (by rw [h3]; exact List.mem_map_of_mem (f := fun p => ((M.draft m).pos p).toNat) hp)).1
    refine ⟨a, by rw [hL.length]; exact c, ?_⟩
    rw [hL.array c, b]
    exact hA p hp
  obtain ⟨l, e1, e2, e3⟩ := places_load (L := L) (f := (M.draft m).pos) hlen (fun p hp => hpos p (by rw [hx]; simp [hp]))
  rw [k2, hb, ← h2] at k4
  obtain ⟨out', e7, e8⟩ := advanced_like (hL.renames h hi k3) (g' := fun p => (L.row p).out) (g := fun p => (M.rows.row p).out) (hL.ins h hi)
    (fun p hp => ⟨h1 p hp, h1 p hp⟩) (fun p hp j hj => (hL.renames h hi k3).closed p (h1 p hp) j hj) k4
  have hrow : M.rows.row ((M.draft m).at_ i) = ⟨.advanced idx P base, (M.rows.row ((M.draft m).at_ i)).ops,
      (M.rows.row ((M.draft m).at_ i)).ins, (M.rows.row ((M.draft m).at_ i)).out⟩ := by rw [← hb]
  obtain ⟨L', e9, e10⟩ := hL.extend h hi e7 (by
    rw [hrow]
    exact loads_same (by simp) h2 e8)
  refine ⟨L', ?_, e10⟩
  have hop : (M.draft m).operands ((M.draft m).at_ i) = ((M.draft m).pos x).toNat :: xs.map fun p => ((M.draft m).pos p).toNat := by
    rw [h3, hx]; rfl
  rw [hop] at e9 ⊢
  rw [hx]
  unfold Script.loadSymbol Script.arrayArg Script.advancedIndexing
  have g1 : (L.row ((((M.draft m).pos x).toNat :: xs.map fun p => ((M.draft m).pos p).toNat).headD 0)).built.asKind.isArray = true :=
    (hpos x (by rw [hx]; simp)).2.2
  have e9 : L.add (.advanced (idx.map Option.isSome))
    ((((M.draft m).pos x).toNat :: xs.map fun p => ((M.draft m).pos p).toNat).headD 0 :: xs.map fun p => ((M.draft m).pos p).toNat) =
      .ok (L', i) := e9
  dsimp only [List.tail_cons]
  rw [e1, Res.ok_bind, guardThrow_true (by simp), Res.ok_bind, guardThrow_true g1, Res.ok_bind, e2, e3, e9]
  rfl

/-- A permutation. -/
theorem permutation (h : Source M m isList) (hL : Loading M m i L) (hi : i < M.rows.length) {x : Arr Rat}
    (hb : (M.rows.row ((M.draft m).at_ i)).built = .permutation x) (files : SymbolFiles) :
    ∃ L', L.loadSymbol .permutation files ((M.draft m).operands ((M.draft m).at_ i)) = .ok L' ∧ Loading M m (i + 1) L' := by
  have hvl := h.at_lt hi
  obtain ⟨h1, h2, h3⟩ := h.operands hi
  have hA := h.python _ hvl
  unfold Row.FromPython at hA
  rw [hb] at hA
  obtain ⟨t, sizes, k1, k2, k3, k4⟩ := h.made _ hvl
  have ht : t = .permutation := by
    have := (realises_of_construct k4).2
    cases t with
    | kind k' => rw [hb] at this; cases this
    | basic _ => obtain ⟨_, _, this⟩ := this; rw [hb] at this; cases this
    | advanced _ => obtain ⟨_, _, _, this, e⟩ := this; rw [hb] at this; cases this
    | permutation => rfl
  subst ht
  obtain ⟨u, v, hx, hc⟩ : ∃ u v, (M.rows.row ((M.draft m).at_ i)).ops = [u, v] ∧ (M.rows.row u).out.const = some x := by
    obtain ⟨_, _, _, _, how⟩ := h.made.how hvl
    cases how with
    | kind e => rw [hb] at e; cases e
    | basic e => rw [hb] at e; cases e
    | advanced e => rw [hb] at e; cases e
    | permutation e _ e1 e2 => rw [hb] at e; cases e; exact ⟨_, _, e1, e2⟩
  obtain ⟨a, b, hq⟩ : ∃ a b, (M.draft m).operands ((M.draft m).at_ i) = [a, b] := by rw [h3, hx]; exact ⟨_, _, rfl⟩
  have hab : (M.draft m).at_ a = u ∧ (M.draft m).at_ b = v := by rw [hq, hx] at h2; simpa using h2
  rw [hx] at hA
  have hA : M.rows.isFullList v = true := hA
  have hai := (h1 a (by rw [hq]; simp)).1
  have hbi := (h1 b (by rw [hq]; simp)).1
  rw [k2, hb, ← h2] at k4
  obtain ⟨out', e7, e8⟩ := permutation_like (sizes' := L.sizes) (g' := fun p => (L.row p).out) (g := fun p => (M.rows.row p).out) (hL.ins h hi) k4
  have hrow : M.rows.row ((M.draft m).at_ i) = ⟨.permutation x, (M.rows.row ((M.draft m).at_ i)).ops,
      (M.rows.row ((M.draft m).at_ i)).ins, (M.rows.row ((M.draft m).at_ i)).out⟩ := by rw [← hb]
  obtain ⟨L', e9, e10⟩ := hL.extend h hi e7 (by
    rw [hrow]
    exact loads_same (by simp) h2 e8)
  refine ⟨L', ?_, e10⟩
  rw [hq] at e9 ⊢
  have hfull : L.isFullList b = true := by
    have hal := (hL.loads b hbi).kind
    rw [hab.2] at hal
    unfold Script.isFullList at hA ⊢
    generalize (M.rows.row v).built.asKind = k at hal hA
    generalize (L.row b).built.asKind = k' at hal ⊢
    cases hal with
    | same _ => exact hA
    | integer _ _ _ => cases hA
    | quadratic _ _ _ _ => cases hA
  unfold Script.loadSymbol
  have g1 : (L.row ([a, b].headD 0)).out.const.isSome = true := by
    show (L.row a).out.const.isSome = true
    rw [(hL.loads a hai).same.const, hab.1, hc]; rfl
  have g2 : L.isFullList ([a, b].getD 1 0) = true := hfull
  dsimp only
  rw [guardThrow_true (by rfl), Res.ok_bind, guardThrow_true g1, Res.ok_bind, guardThrow_true g2, Res.ok_bind, e9]
  rfl

end Loading

end Script

end Verif
