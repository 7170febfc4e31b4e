import Verif.Lemmas.ConstantArrays
import Verif.Model.Nodes.AdvancedIndexing
import Verif.Model.Nodes.Binary

/-!
# C78: constants and the arrays they come from

`model.constant(a)` keeps the memory of `a` when `a` is an array of doubles in C order (symbols.pyx 864-885), and copies it otherwise.
-/

namespace Verif

open ArrayWorld

namespace ArrayWorld

theorem run_spec : ∀ (ops : List NpOp) {w : ArrayWorld}, w.Inv → ∃ r, w.run ops = .ok r ∧ r.1.Inv
  | [], w, h => ⟨_, rfl, h⟩
  | op :: ops, w, h => by
    obtain ⟨r, h1, h2, _⟩ := step_spec h op
    obtain ⟨q, h3, h4⟩ := run_spec ops h2
    exact ⟨(q.1, r.2 :: q.2), by simp only [run, h1, Res.ok_bind, h3], h4⟩

/-- A constant keeps its place, shape and memory. -/
theorem run_const : ∀ (ops : List NpOp) {w : ArrayWorld} {r : ArrayWorld × List NpOut}, w.Inv → w.run ops = .ok r →
    ∀ {c : Nat} {k : ConstantView}, w.constants[c]? = some k →
      ∃ k', r.1.constants[c]? = some k' ∧ k'.shape = k.shape ∧ k'.buffer = k.buffer
  | [], w, r, _, hr, c, k, hc => by
    cases hr
    exact ⟨k, hc, rfl, rfl⟩
  | op :: ops, w, r, h, hr, c, k, hc => by
    obtain ⟨p, h1, h2, h3⟩ := step_spec h op
    obtain ⟨q, h4, _⟩ := run_spec ops h2
    simp only [run, h1, Res.ok_bind, h4] at hr
    cases hr
    obtain ⟨k1, e1, e2, e3, _⟩ := h3.const hc
    obtain ⟨k2, f1, f2, f3⟩ := run_const ops h2 h4 e1
    exact ⟨k2, f1, f2.trans e2, f3.trans e3⟩

/-- Memory that is not written keeps its contents, and what was computed from it stays right. -/
theorem run_untouched : ∀ (ops : List NpOp) {w : ArrayWorld} {r : ArrayWorld × List NpOut}, w.Inv → w.run ops = .ok r →
    ∀ {c : Nat} {k : ConstantView} {l : List Rat}, w.constants[c]? = some k → w.memory k.buffer = some l → CacheCorrect l k.cache →
      Untouched k.buffer w ops →
      ∃ k', r.1.constants[c]? = some k' ∧ k'.buffer = k.buffer ∧ r.1.memory k.buffer = some l ∧ CacheCorrect l k'.cache
  | [], w, r, _, hr, c, k, l, hc, hm, hcc, _ => by
    cases hr
    exact ⟨k, hc, rfl, hm, hcc⟩
  | op :: ops, w, r, h, hr, c, k, l, hc, hm, hcc, hu => by
    obtain ⟨p, h1, h2, h3⟩ := step_spec h op
    obtain ⟨q, h4, _⟩ := run_spec ops h2
    simp only [run, h1, Res.ok_bind, h4] at hr
    cases hr
    obtain ⟨k1, e1, e2, e3, e4⟩ := h3.const hc
    have hmem := h3.memory _ (h.const k (List.mem_of_getElem? hc)).1 hu.1
    obtain ⟨k2, f1, f2, f3, f4⟩ := run_untouched ops h2 h4 e1 (by rw [e3, hmem, hm]) (e4 hm hcc) (by rw [e3]; exact hu.2 p h1)
    exact ⟨k2, f1, f2.trans e3, by rw [← e3]; exact f3, f4⟩

theorem private_untouched : ∀ (ops : List NpOp) {w : ArrayWorld} {b : Nat}, w.Inv → b ∈ w.sources →
    (∀ e ∈ w.names, e.2.buffer ≠ b) → Untouched b w ops
  | [], _, _, _, _, _ => trivial
  | op :: ops, w, b, h, hb, hp => by
    refine ⟨?_, fun r hr => ?_⟩
    · rintro ⟨n, i, v, a, _, hl, he⟩
      exact hp _ (lookup_mem hl) he
    · obtain ⟨p, h1, h2, h3⟩ := step_spec h op
      rw [h1, Res.ok.injEq] at hr
      subst hr
      refine private_untouched ops h2 (h3.source b hb) fun e he => ?_
      rcases h3.names e he with ⟨e', he', hee⟩ | hf
      · rw [← hee]
        exact hp e' he'
      · have := h.source b hb
        omega

/-- What a constant shows, and what it answers. -/
theorem read_spec {w : ArrayWorld} (h : w.Inv) {c : Nat} {k : ConstantView} {l : List Rat} (hc : w.constants[c]? = some k)
    (hm : w.memory k.buffer = some l) : w.step (.read c) = .ok (w, .values l) := by
  obtain ⟨l', h1, h2⟩ := h.data (List.mem_of_getElem? hc)
  rw [hm, Option.some.injEq] at h1
  subst h1
  simp only [step, hc, h2, Res.ok_bind]

theorem query_spec {w : ArrayWorld} (h : w.Inv) {c : Nat} {k : ConstantView} {l : List Rat} (hc : w.constants[c]? = some k)
    (hm : w.memory k.buffer = some l) (hcc : CacheCorrect l k.cache) (q : StatQuery) :
    ∃ w' x, w.step (.query c q) = .ok (w', .answer x) ∧ StatCorrect l q x := by
  obtain ⟨l', h1, h2⟩ := h.data (List.mem_of_getElem? hc)
  rw [hm, Option.some.injEq] at h1
  subst h1
  obtain ⟨x, c', e1, e2, _⟩ := statQuery_spec hcc q
  exact ⟨_, x, by simp only [step, hc, h2, Res.ok_bind, e1]; rfl, e2⟩

theorem reachable {ops : List NpOp} {r : ArrayWorld × List NpOut} (h : start.run ops = .ok r) : r.1.Inv := by
  obtain ⟨q, h1, h2⟩ := run_spec ops inv_start
  rw [h1, Res.ok.injEq] at h
  exact h ▸ h2

end ArrayWorld

/-- What is known of constant number `c` in the state `w`: it shows `l`, and its `min()`, `max()` and `integral()` are those of `l`. -/
def ConstantIs (w : ArrayWorld) (c : Nat) (l : List Rat) : Prop :=
  w.step (.read c) = .ok (w, .values l) ∧
    ∀ q, ∃ w' x, w.step (.query c q) = .ok (w', .answer x) ∧ StatCorrect l q x

/-- **C78**, first part: whatever a program does with its arrays and constants, no constant is ever read from memory that has been
given back.  (`run` would be `ub`.) -/
theorem C78_alive (ops : List NpOp) : ∃ r, start.run ops = .ok r :=
  let ⟨r, h, _⟩ := run_spec ops inv_start
  ⟨r, h⟩

/-- The array is dropped at once, and the constant is read afterwards. -/
example : (start.run [.create 0 [2] [0, 1] true true true, .constant 0, .del 0, .create 1 [2] [8, 9] true true true, .read 0]).bind
    (fun r => .ok r.2) = .ok [.done, .done, .done, .done, .values [0, 1]] := by decide +kernel

/-- **C78**, second part: a constant made from an array of another type or order has the values the array had then, for good. -/
theorem C78_copied {before later : List NpOp} {w : ArrayWorld} {outs : List NpOut} {n : Nat} {a : NpArray} {l : List Rat}
    (hw : start.run before = .ok (w, outs)) (ha : w.names.lookup n = some a) (hl : w.memory a.buffer = some l)
    (hcopy : ¬ (a.double = true ∧ a.contiguous = true)) :
    ∃ w' outs', w.run (.constant n :: later) = .ok (w', .done :: outs') ∧ ConstantIs w' w.constants.length l := by
  have h := reachable hw
  obtain ⟨p, h1, h2, _⟩ := step_spec h (.constant n)
  obtain ⟨q, h3, h4⟩ := run_spec later h2
  have hp := h1
  simp only [step, ha, hl, ArrayWorld.constant, asarray, if_neg hcopy, if_true, Res.ok.injEq] at hp
  subst hp
  have hc : (w.constants ++ [⟨a.shape, w.fresh, none⟩])[w.constants.length]? = some ⟨a.shape, w.fresh, none⟩ := by simp
  have hsrc : w.fresh ∈ w.sources ++ [w.fresh] := by simp
  obtain ⟨k, e1, e2, e3, e4⟩ := run_untouched later h2 h3 (l := l) hc
    (by rw [collect_memory hsrc]; simp) (fun s hs => by cases hs)
    (private_untouched later h2 hsrc fun e he => Nat.ne_of_lt (h.named e he).1)
  refine ⟨q.1, q.2, ?_, read_spec h4 e1 (by rw [e2]; exact e3), query_spec h4 e1 (by rw [e2]; exact e3) e4⟩
  rw [run, h1, Res.ok_bind, h3]
  rfl

/-- An array of integers is changed after the constant was made from it. -/
example : (start.run [.create 0 [2] [0, 1] false true true, .constant 0, .write 0 0 7, .read 0, .query 0 .max]).bind
    (fun r => .ok r.2) = .ok [.done, .done, .done, .values [0, 1], .answer (.num 1)] := by decide +kernel

/-- **C78**, third part: a constant made from an array of doubles in C order *is* that array, under each of its names. -/
theorem C78_shared {before later : List NpOp} {w : ArrayWorld} {outs : List NpOut} {n : Nat} {a : NpArray}
    (hw : start.run before = .ok (w, outs)) (ha : w.names.lookup n = some a)
    (hshare : a.double = true ∧ a.contiguous = true) (hwr : a.writeable = true) :
    ∃ w' outs', w.run (.constant n :: later) = .ok (w', .done :: outs') ∧
      ∃ l, w'.memory a.buffer = some l ∧ w'.step (.read w.constants.length) = .ok (w', .values l) := by
  have h := reachable hw
  obtain ⟨_, l, hl, _⟩ := h.named _ (lookup_mem ha)
  obtain ⟨p, h1, h2, _⟩ := step_spec h (.constant n)
  obtain ⟨q, h3, h4⟩ := run_spec later h2
  have hp := h1
  simp only at hl
  simp only [step, ha, hl, ArrayWorld.constant, asarray, if_pos hshare, hwr, if_true, Res.ok.injEq] at hp
  subst hp
  have hc : (w.constants ++ [⟨a.shape, a.buffer, none⟩])[w.constants.length]? = some ⟨a.shape, a.buffer, none⟩ := by simp
  obtain ⟨k, e1, _, e2⟩ := run_const later h2 h3 hc
  obtain ⟨_, l', e3, _⟩ := h4.const k (List.mem_of_getElem? e1)
  simp only at e2
  rw [e2] at e3
  refine ⟨q.1, q.2, ?_, l', e3, read_spec h4 e1 (by rw [e2]; exact e3)⟩
  rw [run, h1, Res.ok_bind, h3]
  rfl

/-- **C78**, fourth part, partial: as long as nothing is written into that array, the constant has the values it was made with.
Missing: programs that write into it (`C78_stats_fails`, `C78_index_fails`, `C78_stale_fails`) and read-only arrays (`C78_readonly_fails`). -/
theorem C78_unwritten_partial {before later : List NpOp} {w : ArrayWorld} {outs : List NpOut} {n : Nat} {a : NpArray} {l : List Rat}
    (hw : start.run before = .ok (w, outs)) (ha : w.names.lookup n = some a) (hl : w.memory a.buffer = some l)
    (hshare : a.double = true ∧ a.contiguous = true) (hwr : a.writeable = true)
    (hu : Untouched a.buffer w (.constant n :: later)) :
    ∃ w' outs', w.run (.constant n :: later) = .ok (w', .done :: outs') ∧ ConstantIs w' w.constants.length l := by
  have h := reachable hw
  obtain ⟨p, h1, h2, _⟩ := step_spec h (.constant n)
  obtain ⟨q, h3, h4⟩ := run_spec later h2
  have hu' := hu.2 p h1
  have hp := h1
  simp only [step, ha, hl, ArrayWorld.constant, asarray, if_pos hshare, hwr, if_true, Res.ok.injEq] at hp
  subst hp
  have hc : (w.constants ++ [⟨a.shape, a.buffer, none⟩])[w.constants.length]? = some ⟨a.shape, a.buffer, none⟩ := by simp
  have hsrc : a.buffer ∈ w.sources ++ [a.buffer] := by simp
  obtain ⟨k, e1, e2, e3, e4⟩ := run_untouched later h2 h3 (l := l) hc
    (by rw [collect_memory hsrc]; exact hl) (fun s hs => by cases hs) hu'
  refine ⟨q.1, q.2, ?_, read_spec h4 e1 (by rw [e2]; exact e3), query_spec h4 e1 (by rw [e2]; exact e3) e4⟩
  rw [run, h1, Res.ok_bind, h3]
  rfl

/-- Another array is written meanwhile. -/
example : ∃ w outs a, start.run [.create 0 [2] [0, 1] true true true, .create 1 [1] [5] true true true] = .ok (w, outs) ∧
    w.names.lookup 0 = some a ∧ w.memory a.buffer = some [0, 1] ∧ (a.double = true ∧ a.contiguous = true) ∧ a.writeable = true ∧
    Untouched a.buffer w [.constant 0, .query 0 .max, .write 1 0 6, .del 0] := by
  refine ⟨_, _, ⟨0, [2], true, true, true⟩, rfl, by decide, by decide, by decide, by decide, ?_, fun r hr => ⟨?_, fun r' hr' => ⟨?_, ?_⟩⟩⟩
  · rintro ⟨n, i, v, a, h, _⟩
    cases h
  · rintro ⟨n, i, v, a, h, _⟩
    cases h
  · cases hr
    cases hr'
    rintro ⟨n, i, v, a, h, h1, h2⟩
    cases h
    cases h1
    cases h2
  · intro r'' _
    refine ⟨?_, fun _ _ => trivial⟩
    rintro ⟨n, i, v, a, h, _⟩
    cases h

/-- **C78**, fifth part: constants with at most one element always answer for the values they show. -/
theorem C78_single {ops : List NpOp} {w : ArrayWorld} {outs : List NpOut} {c : Nat} {l : List Rat}
    (hw : start.run ops = .ok (w, outs)) (hr : w.step (.read c) = .ok (w, .values l)) (hl : l.length ≤ 1) : ConstantIs w c l := by
  refine ⟨hr, fun q => ?_⟩
  have h := reachable hw
  simp only [step] at hr ⊢
  cases hc : w.constants[c]? with
  | none =>
    rw [hc] at hr
    cases hr
  | some k =>
    obtain ⟨l', _, h2⟩ := h.data (List.mem_of_getElem? hc)
    simp only at h2
    simp only [hc, h2, Res.ok_bind] at hr ⊢
    cases hr
    have hd : ∃ x, directAnswer l q = some x := by
      match l, hl with
      | [], _ => cases q <;> exact ⟨_, rfl⟩
      | [x], _ => cases q <;> exact ⟨_, rfl⟩
    obtain ⟨x, hx⟩ := hd
    exact ⟨_, x, by simp only [statQuery, hx, Res.ok_bind]; rfl, directAnswer_spec hx⟩

/-- The single element is changed, and `max()` is the new one. -/
example : (start.run [.create 0 [] [3] true true true, .constant 0, .query 0 .max, .write 0 0 7, .read 0, .query 0 .max]).bind
    (fun r => .ok r.2) = .ok [.done, .done, .answer (.num 3), .done, .values [7], .answer (.num 7)] := by decide +kernel

/-! ## Where C78 is false -/

/-- **C78 fails**: `a = np.array([0., 1.]); c = model.constant(a); c.max(); a[0] = 7`: the constant shows 7, and its `max()` is 1. -/
theorem C78_stats_fails : ∃ w outs, start.run [.create 0 [2] [0, 1] true true true, .constant 0, .query 0 .max, .write 0 0 7] =
      .ok (w, outs) ∧ w.step (.read 0) = .ok (w, .values [7, 1]) ∧ (w.step (.query 0 .max)).bind (fun r => .ok r.2) = .ok (.answer (.num 1)) ∧
      ¬ StatCorrect [7, 1] .max (.num 1) := by
  refine ⟨_, _, rfl, rfl, by decide +kernel, ?_⟩
  intro h
  have := h.2 7 (by simp)
  norm_num at this

/-- **C78 fails**: an array is checked when it is used as an index.  `x[c]` with three elements in `x` is accepted for the indices 0 and 1,
and reads beyond `x` once `a[0] = 7`. -/
theorem C78_index_fails : ∃ P, advParse [3] none [some ⟨[2], true, 0, 1, true⟩] = .ok P ∧
    (∃ s, (advNode [some ⟨[2], true, 0, 1, true⟩] P).init [⟨[3], [10, 11, 12]⟩, ⟨[2], [0, 1]⟩] = .ok s) ∧
    (advNode [some ⟨[2], true, 0, 1, true⟩] P).init [⟨[3], [10, 11, 12]⟩, ⟨[2], [7, 1]⟩] = .ub :=
  ⟨_, rfl, ⟨_, rfl⟩, rfl⟩

/-- **C78 fails**: constants report no changes.  `x + c` with `x = [1, 1]` and `c = [1, 1]`; then `a[1] = 9`, and `x[0] = 4`: the sum is
`[5, 2]`, not `[5, 10]`. -/
theorem C78_stale_fails : ∃ s s', (binaryNode (fun x y : Rat => x + y) [2] [2] [2]).init [⟨[2], [1, 1]⟩, ⟨[2], [1, 1]⟩] = .ok s ∧
    (binaryNode (fun x y : Rat => x + y) [2] [2] [2]).propagate s [(⟨[2], [4, 1]⟩, [Update.change 0 1 4]), (⟨[2], [1, 9]⟩, [])] = .ok s' ∧
    (binaryNode (fun x y : Rat => x + y) [2] [2] [2]).view s' = ⟨[2], [5, 2]⟩ ∧
    (binaryNode (fun x y : Rat => x + y) [2] [2] [2]).f [⟨[2], [4, 1]⟩, ⟨[2], [1, 9]⟩] = ⟨[2], [5, 10]⟩ :=
  ⟨_, _, rfl, rfl, by decide +kernel, by decide +kernel⟩

/-- **C78 fails**: every read-only array of doubles in C order is refused, although the same values as integers are accepted. -/
theorem C78_readonly_fails :
    (∀ {before : List NpOp} {w : ArrayWorld} {outs : List NpOut} {n : Nat} {a : NpArray}, start.run before = .ok (w, outs) →
      w.names.lookup n = some a → a.double = true ∧ a.contiguous = true → a.writeable = false →
      ∃ w', w.step (.constant n) = .ok (w', .raised)) ∧
    (start.run [.create 0 [2] [0, 1] true true false, .constant 0, .create 1 [2] [0, 1] false true false, .constant 1]).bind
      (fun r => .ok r.2) = .ok [.done, .raised, .done, .done] := by
  refine ⟨fun {before w outs n a} hw ha hs hwr => ?_, by decide +kernel⟩
  obtain ⟨_, l, hl, _⟩ := (reachable hw).named _ (lookup_mem ha)
  simp only at hl
  exact ⟨_, by simp only [step, ha, hl, ArrayWorld.constant, asarray, if_pos hs, hwr]; rfl⟩

/-- **C78 fails**: the documentation says that arrays of doubles are not copied.  Those in another order are: `a[0] = 7` is not seen. -/
theorem C78_order_fails :
    (start.run [.create 0 [2, 2] [0, 1, 2, 3] true false true, .constant 0, .write 0 0 7, .read 0]).bind (fun r => .ok r.2) =
      .ok [.done, .done, .done, .values [0, 1, 2, 3]] := by decide +kernel

end Verif
