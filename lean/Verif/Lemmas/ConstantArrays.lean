import Verif.Model.ConstantArrays
import Verif.Props.Constants

/-!
# Memory of constants
-/

namespace Verif
namespace ArrayWorld

/-- Everything that a name or a constant refers to is there. -/
structure Inv (w : ArrayWorld) : Prop where
  named : ∀ e ∈ w.names, e.2.buffer < w.fresh ∧ ∃ l, w.memory e.2.buffer = some l ∧ (l.length : Int) = shapeToSize e.2.shape
  const : ∀ k ∈ w.constants, k.buffer ∈ w.sources ∧ ∃ l, w.memory k.buffer = some l ∧ (l.length : Int) = shapeToSize k.shape
  source : ∀ b ∈ w.sources, b < w.fresh

theorem inv_start : start.Inv := ⟨by simp [start], by simp [start], by simp [start]⟩

/-- What an operation keeps of the constants. -/
structure Kept (w w' : ArrayWorld) (op : NpOp) : Prop where
  fresh : w.fresh ≤ w'.fresh
  const : ∀ {c : Nat} {k : ConstantView}, w.constants[c]? = some k → ∃ k', w'.constants[c]? = some k' ∧ k'.shape = k.shape ∧
    k'.buffer = k.buffer ∧ ∀ {l : List Rat}, w.memory k.buffer = some l → CacheCorrect l k.cache → CacheCorrect l k'.cache
  memory : ∀ b ∈ w.sources, ¬ w.Writes op b → w'.memory b = w.memory b
  source : ∀ b ∈ w.sources, b ∈ w'.sources
  names : ∀ e ∈ w'.names, (∃ e' ∈ w.names, e'.2 = e.2) ∨ w.fresh ≤ e.2.buffer

theorem lookup_mem {n : Nat} {a : NpArray} : ∀ {l : List (Nat × NpArray)}, l.lookup n = some a → (n, a) ∈ l
  | [], h => by simp at h
  | (k, b) :: l, h => by
    rw [List.lookup_cons] at h
    cases hk : n == k with
    | true =>
      rw [hk] at h
      simp only [Option.some.injEq] at h
      rw [beq_iff_eq] at hk
      subst hk h
      exact List.mem_cons_self
    | false =>
      rw [hk] at h
      exact List.mem_cons_of_mem _ (lookup_mem h)

theorem Inv.collect {w : ArrayWorld} (h : w.Inv) : w.collect.Inv := by
  refine ⟨fun e he => ?_, fun k hk => ?_, h.source⟩
  · obtain ⟨h1, l, h2, h3⟩ := h.named e he
    refine ⟨h1, l, ?_, h3⟩
    have : w.Used e.2.buffer := .inl (List.mem_map.2 ⟨e, he, rfl⟩)
    simp [ArrayWorld.collect, this, h2]
  · obtain ⟨h1, l, h2, h3⟩ := h.const k hk
    refine ⟨h1, l, ?_, h3⟩
    have : w.Used k.buffer := .inr h1
    simp [ArrayWorld.collect, this, h2]

theorem collect_memory {w : ArrayWorld} {b : Nat} (h : b ∈ w.sources) : w.collect.memory b = w.memory b := by
  have : w.Used b := .inr h
  simp [ArrayWorld.collect, this]

theorem Inv.alloc {w : ArrayWorld} (h : w.Inv) (v : List Rat) :
    ({ w with memory := upd w.memory w.fresh (some v), fresh := w.fresh + 1 } : ArrayWorld).Inv := by
  refine ⟨fun e he => ?_, fun k hk => ?_, fun b hb => Nat.lt_succ_of_lt (h.source b hb)⟩
  · obtain ⟨h1, l, h2, h3⟩ := h.named e he
    exact ⟨Nat.lt_succ_of_lt h1, l, by simp only; rw [upd_ne _ _ (by omega)]; exact h2, h3⟩
  · obtain ⟨h1, l, h2, h3⟩ := h.const k hk
    have := h.source _ h1
    exact ⟨h1, l, by simp only; rw [upd_ne _ _ (by omega)]; exact h2, h3⟩

theorem Inv.bind {w : ArrayWorld} (h : w.Inv) {n : Nat} {a : NpArray} (ha : a.buffer < w.fresh)
    (hm : ∃ l, w.memory a.buffer = some l ∧ (l.length : Int) = shapeToSize a.shape) : (w.bind n a).Inv := by
  refine ⟨fun e he => ?_, h.const, h.source⟩
  rcases List.mem_cons.1 he with rfl | he
  · exact ⟨ha, hm⟩
  · exact h.named e (List.mem_filter.1 he).1

theorem statQuery_total (l : List Rat) (c : StatCache) (q : StatQuery) : ∃ r, statQuery l c q = .ok r := by
  unfold statQuery
  cases hd : directAnswer l q with
  | some a => exact ⟨_, rfl⟩
  | none =>
    cases c with
    | some s => exact ⟨_, rfl⟩
    | none =>
      cases l with
      | nil => simp [directAnswer] at hd
      | cons x xs =>
        obtain ⟨s, hs, _⟩ := BufferStats.make_spec x xs
        exact ⟨_, by simp only [hs, Res.ok_bind]; rfl⟩

theorem Inv.data {w : ArrayWorld} (h : w.Inv) {k : ConstantView} (hk : k ∈ w.constants) :
    ∃ l, w.memory k.buffer = some l ∧ w.data k = .ok l := by
  obtain ⟨_, l, h2, h3⟩ := h.const k hk
  exact ⟨l, h2, by simp only [ArrayWorld.data, h2]; rw [guardUB_true h3]; rfl⟩

theorem Kept.refl (w : ArrayWorld) (op : NpOp) : Kept w w op :=
  ⟨Nat.le_refl _, fun {_ k} h => ⟨k, h, rfl, rfl, fun _ h => h⟩, fun _ _ _ => rfl, fun _ h => h, fun e he => .inl ⟨e, he, rfl⟩⟩

/-- The elements of the array, as `model.constant` takes them. -/
theorem constant_spec {w : ArrayWorld} (h : w.Inv) {a : NpArray} {l : List Rat} (ha : a.buffer < w.fresh)
    (hm : w.memory a.buffer = some l) (hl : (l.length : Int) = shapeToSize a.shape) :
    (w.constant a l).1.collect.Inv ∧ ∀ n, Kept w (w.constant a l).1.collect (.constant n) := by
  have hcon : ∀ {w' : ArrayWorld} {b : Nat}, w'.Inv → b < w'.fresh → w'.memory b = some l →
      ({ w' with constants := w'.constants ++ [⟨a.shape, b, none⟩], sources := w'.sources ++ [b] } : ArrayWorld).Inv := by
    intro w' b h' hb hm'
    refine ⟨h'.named, fun k hk => ?_, fun c hc => ?_⟩
    · rcases List.mem_append.1 hk with hk | hk
      · exact ⟨List.mem_append_left _ (h'.const k hk).1, (h'.const k hk).2⟩
      · rw [List.mem_singleton] at hk
        subst hk
        exact ⟨by simp, l, hm', hl⟩
    · rcases List.mem_append.1 hc with hc | hc
      · exact h'.source c hc
      · rw [List.mem_singleton] at hc
        exact hc ▸ hb
  have hget : ∀ {c : Nat} {k x : ConstantView}, w.constants[c]? = some k → (w.constants ++ [x])[c]? = some k := by
    intro c k x hc
    rw [List.getElem?_append_left (List.getElem?_eq_some_iff.1 hc).1, hc]
  unfold ArrayWorld.constant asarray
  split_ifs with hd
  · simp only
    split_ifs with hw
    · refine ⟨(hcon h ha hm).collect, fun n => ⟨Nat.le_refl _, fun {c k} hc => ⟨k, hget hc, rfl, rfl, fun _ h => h⟩, fun b hb _ => ?_,
        fun b hb => List.mem_append_left _ hb, fun e he => .inl ⟨e, he, rfl⟩⟩⟩
      rw [collect_memory (List.mem_append_left _ hb)]
    · refine ⟨h.collect, fun n => ⟨Nat.le_refl _, fun {c k} hc => ⟨k, hc, rfl, rfl, fun _ h => h⟩, fun b hb _ => collect_memory hb,
        fun b hb => hb, fun e he => .inl ⟨e, he, rfl⟩⟩⟩
  · simp only [if_true]
    refine ⟨(hcon (h.alloc l) (Nat.lt_succ_self _) (by simp)).collect, fun n => ⟨Nat.le_succ _,
      fun {c k} hc => ⟨k, hget hc, rfl, rfl, fun _ h => h⟩, fun b hb _ => ?_,
      fun b hb => List.mem_append_left _ hb, fun e he => .inl ⟨e, he, rfl⟩⟩⟩
    rw [collect_memory (List.mem_append_left _ hb)]
    simp only
    rw [upd_ne _ _ (by have := h.source b hb; omega)]

theorem step_spec {w : ArrayWorld} (h : w.Inv) (op : NpOp) : ∃ r, w.step op = .ok r ∧ r.1.Inv ∧ Kept w r.1 op := by
  cases op with
  | create n shape values double contiguous writeable =>
    simp only [step]
    split_ifs with hc
    · refine ⟨_, rfl, Inv.collect (Inv.bind (h.alloc values) (Nat.lt_succ_self _) ⟨values, by simp, hc.2⟩), ⟨Nat.le_succ _,
        fun {c k} hc => ⟨k, hc, rfl, rfl, fun _ h => h⟩, fun b hb _ => ?_, fun b hb => hb, fun e he => ?_⟩⟩
      · simp only
        rw [collect_memory (by exact hb)]
        simp only [ArrayWorld.bind]
        rw [upd_ne _ _ (by have := h.source b hb; omega)]
      · rcases List.mem_cons.1 he with rfl | he
        · exact .inr (Nat.le_refl _)
        · exact .inl ⟨e, (List.mem_filter.1 he).1, rfl⟩
    · exact ⟨_, rfl, h, Kept.refl _ _⟩
  | «alias» n k =>
    simp only [step]
    cases hk : w.names.lookup k with
    | none => exact ⟨_, rfl, h, Kept.refl _ _⟩
    | some a =>
      obtain ⟨h1, h2⟩ := h.named _ (lookup_mem hk)
      refine ⟨_, rfl, (h.bind h1 h2).collect, ⟨Nat.le_refl _, fun {c k} hc => ⟨k, hc, rfl, rfl, fun _ h => h⟩,
        fun b hb _ => collect_memory (w := w.bind n a) hb, fun b hb => hb, fun e he => ?_⟩⟩
      rcases List.mem_cons.1 he with rfl | he
      · exact .inl ⟨_, lookup_mem hk, rfl⟩
      · exact .inl ⟨e, (List.mem_filter.1 he).1, rfl⟩
  | write n i v =>
    simp only [step]
    cases hk : w.names.lookup n with
    | none => exact ⟨_, rfl, h, Kept.refl _ _⟩
    | some a =>
      obtain ⟨h1, l, h2, h3⟩ := h.named _ (lookup_mem hk)
      simp only [h2]
      split_ifs with hc
      · have hmem : ∀ b l', w.memory b = some l' → ∃ l'', upd w.memory a.buffer (some (l.set i v)) b = some l'' ∧
            l''.length = l'.length := by
          intro b l' hb
          by_cases e : b = a.buffer
          · subst e
            simp only at h2
            rw [h2, Option.some.injEq] at hb
            exact ⟨_, upd_same _ _ _, by rw [List.length_set, hb]⟩
          · exact ⟨l', by rw [upd_ne _ _ e]; exact hb, rfl⟩
        refine ⟨_, rfl, ⟨fun e he => ?_, fun k hk => ?_, h.source⟩, ⟨Nat.le_refl _, fun {c k} hc => ⟨k, hc, rfl, rfl, fun _ h => h⟩,
          fun b hb hw => ?_, fun b hb => hb, fun e he => .inl ⟨e, he, rfl⟩⟩⟩
        · obtain ⟨e1, l', e2, e3⟩ := h.named e he
          obtain ⟨l'', e4, e5⟩ := hmem _ _ e2
          exact ⟨e1, l'', e4, by rw [e5]; exact e3⟩
        · obtain ⟨e1, l', e2, e3⟩ := h.const k hk
          obtain ⟨l'', e4, e5⟩ := hmem _ _ e2
          exact ⟨e1, l'', e4, by rw [e5]; exact e3⟩
        · exact upd_ne _ _ fun e => hw ⟨n, i, v, a, rfl, hk, e.symm⟩
      · exact ⟨_, rfl, h, Kept.refl _ _⟩
  | del n =>
    refine ⟨_, rfl, Inv.collect ⟨fun e he => h.named e (List.mem_filter.1 he).1, h.const, h.source⟩, ⟨Nat.le_refl _,
      fun {c k} hc => ⟨k, hc, rfl, rfl, fun _ h => h⟩, fun b hb _ => collect_memory (by exact hb), fun b hb => hb,
      fun e he => .inl ⟨e, (List.mem_filter.1 he).1, rfl⟩⟩⟩
  | constant n =>
    simp only [step]
    cases hk : w.names.lookup n with
    | none => exact ⟨_, rfl, h, Kept.refl _ _⟩
    | some a =>
      obtain ⟨h1, l, h2, h3⟩ := h.named _ (lookup_mem hk)
      simp only [h2]
      obtain ⟨e1, e2⟩ := constant_spec h h1 h2 h3
      exact ⟨_, rfl, e1, e2 n⟩
  | read c =>
    simp only [step]
    cases hc : w.constants[c]? with
    | none => exact ⟨_, rfl, h, Kept.refl _ _⟩
    | some k =>
      obtain ⟨l, _, h2⟩ := h.data (List.mem_of_getElem? hc)
      simp only [h2, Res.ok_bind]
      exact ⟨_, rfl, h, Kept.refl _ _⟩
  | query c q =>
    simp only [step]
    cases hc : w.constants[c]? with
    | none => exact ⟨_, rfl, h, Kept.refl _ _⟩
    | some k =>
      have hkm := List.mem_of_getElem? hc
      obtain ⟨l, h1, h2⟩ := h.data hkm
      obtain ⟨r, hr⟩ := statQuery_total l k.cache q
      simp only [h2, Res.ok_bind, hr]
      refine ⟨_, rfl, ⟨h.named, fun k' hk' => ?_, h.source⟩, ⟨Nat.le_refl _, fun {c' k'} hc' => ?_, fun _ _ _ => rfl, fun b hb => hb,
        fun e he => .inl ⟨e, he, rfl⟩⟩⟩
      · rcases List.mem_or_eq_of_mem_set hk' with hk' | rfl
        · exact h.const k' hk'
        · exact h.const k hkm
      · by_cases e : c' = c
        · subst e
          rw [hc, Option.some.injEq] at hc'
          subst hc'
          refine ⟨{ k with cache := r.2 }, by simp only; rw [List.getElem?_set_self (List.getElem?_eq_some_iff.1 hc).1], rfl, rfl, ?_⟩
          intro l' hl' hcc
          rw [h1, Option.some.injEq] at hl'
          subst hl'
          obtain ⟨x, c'', e1, _, e2⟩ := statQuery_spec hcc q
          rw [hr, Res.ok.injEq] at e1
          rw [e1]
          exact e2
        · exact ⟨k', by simp only; rw [List.getElem?_set_ne (Ne.symm e)]; exact hc', rfl, rfl, fun _ h => h⟩

end ArrayWorld
end Verif
