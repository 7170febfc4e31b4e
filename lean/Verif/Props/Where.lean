import Verif.Model.Nodes.Where
import Verif.Lemmas.NodeBase

set_option linter.unusedSectionVars false
set_option linter.unusedSimpArgs false
set_option linter.unusedVariables false

/-!
# C27: selection by a condition
-/

namespace Verif

open ArrayState

theorem map_shape_three {α : Type} {xs : List (Arr α)} {s t u : List Int}
    (h : xs.map Arr.shape = [s, t, u]) :
    ∃ x y z, xs = [x, y, z] ∧ x.shape = s ∧ y.shape = t ∧ z.shape = u := by
  match xs, h with
  | [x, y, z], h => simp at h; exact ⟨x, y, z, rfl, h.1, h.2.1, h.2.2⟩

theorem Ins.three {V D : Type} {rel : V → D → V → Prop} {x x' x'' : V} {ins : List (V × D)}
    {ys : List V} (h : Ins rel [x, x', x''] ins ys) :
    ∃ d y d' y' d'' y'', ins = [(y, d), (y', d'), (y'', d'')] ∧ ys = [y, y', y''] ∧ rel x d y ∧
      rel x' d' y' ∧ rel x'' d'' y'' := by
  obtain ⟨d, y, _, _, rfl, rfl, hr, h'⟩ := h.cons_inv
  obtain ⟨d', y', d'', y'', rfl, rfl, hr', hr''⟩ := h'.two
  exact ⟨d, y, d', y', d'', y'', rfl, rfl, hr, hr', hr''⟩

theorem Arr.WF.length_fixed {α : Type} {a : Arr α} (h : a.WF) (hd : dynamicShape a.shape = false) :
    (a.data.length : Int) = a.shape.prod := by
  unfold Arr.WF Arr.dynamic at h
  rw [hd] at h
  simpa using h

theorem sizeOne_spec {α : Type} {a : Arr α} (h : sizeOne a.shape = true) (hw : a.WF) :
    ∃ v, a.data = [v] ∧ a.dynamic = false := by
  simp only [sizeOne, Bool.and_eq_true, Bool.not_eq_true', decide_eq_true_eq] at h
  have := hw.length_fixed h.1
  rw [h.2] at this
  have : a.data.length = 1 := by omega
  obtain ⟨v, hv⟩ := List.length_eq_one_iff.1 this
  exact ⟨v, hv, h.1⟩

/-- Parity of the flips tells whether the truth value changed. -/
theorem flipped_spec (d : List (Update Rat)) : ∀ {a b : Rat} (flip : Bool), Replays [a] d [b] →
    (∀ u ∈ d, u.isChange = true) →
    d.foldlM flippedStep flip = .ok (flip ^^ (decide (a ≠ 0) ^^ decide (b ≠ 0))) := by
  induction d with
  | nil => intro a b flip h _; simp at h; subst h; simp
  | cons u d ih =>
    intro a b flip h hc
    obtain ⟨m, hm, h'⟩ := replays_cons.1 h
    obtain ⟨o, v, ho, hu, rfl, hi⟩ := change_eq hm (hc u List.mem_cons_self)
    simp only [List.length_cons, List.length_nil] at hi
    have hi0 : u.index = 0 := by omega
    rw [hi0] at ho h' hu
    simp at ho; subst ho
    have hstep : flippedStep flip u = .ok (flip ^^ (decide (a ≠ 0) ^^ decide (v ≠ 0))) := by
      unfold flippedStep
      rw [hu]
      simp only [change_old, change_value, change_index]
      rw [guardUB_true trivial, Res.ok_bind]
      by_cases h1 : a = 0 <;> by_cases h2 : v = 0 <;> simp [h1, h2]
    rw [List.foldlM_cons, hstep, Res.ok_bind,
      ih _ (by simpa using h') (fun u hu => hc u (List.mem_cons_of_mem _ hu))]
    by_cases h1 : a = 0 <;> by_cases h2 : v = 0 <;> by_cases h3 : b = 0 <;> simp [h1, h2, h3]

theorem RepA.update_id {fixed : Bool} {s : ArrayState Rat} {com a b : List Rat} {d : List (Update Rat)}
    (h : RepA fixed s com a) (hr : Replays a d b) (hf : fixed = true → ∀ u ∈ d, u.isChange = true) :
    ∃ s', s.update d = .ok s' ∧ RepA fixed s' com b := by
  have e : d.map (Update.mapValue id) = d := by
    have : (Update.mapValue id : Update Rat → Update Rat) = id := by
      funext u; simp [Update.mapValue]
    rw [this, List.map_id]
  obtain ⟨s', e', h'⟩ := RepA.updateMap (fixed := fixed) id d (s := s) (com := com) (a := a) (b := b)
    (by simpa using h) hr hf
  rw [e] at e'
  exact ⟨s', e', by simpa using h'⟩

/-- The constructor accepts these shapes. -/
def WhereShapes (cshape shape : List Int) : Prop :=
  sizeOne cshape = true ∨ (cshape = shape ∧ dynamicShape shape = false)

theorem whereShape_ok {c s t : List Int} (h : whereShape c s s = .ok t) : WhereShapes c s := by
  unfold whereShape at h
  rw [guardThrow_true rfl, Res.ok_bind] at h
  by_cases h2 : sizeOne c = true
  · exact .inl h2
  · rw [if_neg h2] at h
    obtain ⟨_, h3, h⟩ := Res.bind_eq_ok.1 h
    obtain ⟨_, h4, h⟩ := Res.bind_eq_ok.1 h
    obtain h3 := guardThrow_eq_ok.1 h3
    obtain h4 := guardThrow_eq_ok.1 h4
    exact .inr ⟨h3, h3 ▸ h4⟩

theorem wherePick_ok {c x y : Arr Rat} {i : Nat} (hc : i < c.data.length) (hx : i < x.data.length)
    (hy : i < y.data.length) :
    wherePick c x y i = .ok (if c.data.getD i 0 ≠ 0 then x.data.getD i 0 else y.data.getD i 0) := by
  unfold wherePick
  rw [Arr.read_getD hc, Arr.read_getD hx, Arr.read_getD hy, Res.ok_bind]
  by_cases h : c.data.getD i default = 0
  · have h' : c.data.getD i 0 = 0 := h
    rw [if_neg (by simpa using h), if_neg (by simpa using h')]; rfl
  · have h' : ¬ c.data.getD i 0 = 0 := h
    rw [if_pos h, if_pos h']; rfl

/-- `WhereNode` keeps the symbol contract. -/
def whereContract (cshape shape : List Int) (hs : WhereShapes cshape shape) :
    Contract ArrRel [] (whereNode cshape shape) :=
  arrayContract (by
    rintro xs ⟨h, hw⟩
    obtain ⟨c, x, y, rfl, hc, hx, hy⟩ := map_shape_three h
    have wc := hw c (by simp)
    have wx := hw x (by simp)
    have wy := hw y (by simp)
    simp only [whereInit, whereValue]
    by_cases h1 : sizeOne cshape = true
    · obtain ⟨v, hv, _⟩ := sizeOne_spec (hc ▸ h1) wc
      simp only [h1, if_true, Arr.front, Arr.read, hv]
      simp only [List.getElem?_cons_zero, Res.ok_bind, List.getD_cons_zero]
      split_ifs <;> rfl
    · obtain ⟨rfl, hd⟩ := hs.resolve_left h1
      have lc := wc.length_fixed (hc ▸ hd)
      have lx := wx.length_fixed (hx ▸ hd)
      have ly := wy.length_fixed (hy ▸ hd)
      rw [hc] at lc; rw [hx] at lx; rw [hy] at ly
      rw [if_neg h1, if_neg h1, mapM_ok _ (fun i => if c.data.getD i 0 ≠ 0 then x.data.getD i 0
        else y.data.getD i 0)]
      · congr 2; rw [show c.data.length = x.data.length by omega]
      · intro i hi
        rw [List.mem_range] at hi
        exact wherePick_ok hi (by omega) (by omega)) (by
    rintro xs ins ys ⟨h, hw⟩ ⟨h', hw'⟩ hi
    obtain ⟨c, x, y, rfl, hc, hx, hy⟩ := map_shape_three h
    obtain ⟨dc, c', dx, x', dy, y', rfl, rfl, rc, rx, ry⟩ := hi.three
    have sc := rc.shape; have sx := rx.shape; have sy := ry.shape
    have wc := hw c (by simp)
    have wx := hw x (by simp)
    have wy := hw y (by simp)
    have wc' := hw' c' (by simp)
    have wx' := hw' x' (by simp)
    have wy' := hw' y' (by simp)
    simp only [wherePropagate, whereValue]
    by_cases h1 : sizeOne cshape = true
    · obtain ⟨v, hv, hcd⟩ := sizeOne_spec (hc ▸ h1) wc
      obtain ⟨v', hv', _⟩ := sizeOne_spec (a := c') (by rw [← sc, hc]; exact h1) wc'
      have hflip := flipped_spec dc false (by have := rc.replays; rw [hv, hv'] at this; exact this) (rc.fixed hcd)
      have hfx : (!dynamicShape shape) = true → ∀ u ∈ dx, u.isChange = true := fun hf =>
        rx.fixed (by simp only [Arr.dynamic, hx]; simpa using hf)
      have hfy : (!dynamicShape shape) = true → ∀ u ∈ dy, u.isChange = true := fun hf =>
        ry.fixed (by simp only [Arr.dynamic, hy]; simpa using hf)
      have hlen : ∀ {z w : Arr Rat}, z.shape = shape → w.shape = shape → z.WF → w.WF →
          (!dynamicShape shape) = true → z.data.length = w.data.length := by
        intro z w hz hw' wz ww hf
        have hf' : dynamicShape shape = false := by simpa using hf
        have l1 := wz.length_fixed (hz ▸ hf')
        have l2 := ww.length_fixed (hw' ▸ hf')
        rw [hz] at l1; rw [hw'] at l2
        omega
      simp only [h1, if_true, hflip, Res.ok_bind, Arr.front, Arr.read, hv, hv',
        List.getElem?_cons_zero, List.getD_cons_zero]
      by_cases h2 : v = 0 <;> by_cases h3 : v' = 0
      · have hb : (false ^^ (decide (v ≠ 0) ^^ decide (v' ≠ 0))) = false := by simp [h2, h3]
        rw [hb, if_neg (by simp), if_neg (by simpa using h3), if_neg (by simpa using h2),
          if_neg (by simpa using h3)]
        exact RepA.update_id (RepA.mk'_ _) ry.replays hfy
      · have hb : (false ^^ (decide (v ≠ 0) ^^ decide (v' ≠ 0))) = true := by simp [h2, h3]
        rw [hb, if_pos rfl, if_pos h3, if_neg (by simpa using h2), if_pos h3]
        exact ⟨_, rfl, (RepA.mk'_ _).assign _ (fun hf => hlen (sx ▸ hx) hy wx' wy hf)⟩
      · have hb : (false ^^ (decide (v ≠ 0) ^^ decide (v' ≠ 0))) = true := by simp [h2, h3]
        rw [hb, if_pos rfl, if_neg (by simpa using h3), if_pos h2, if_neg (by simpa using h3)]
        exact ⟨_, rfl, (RepA.mk'_ _).assign _ (fun hf => hlen (sy ▸ hy) hx wy' wx hf)⟩
      · have hb : (false ^^ (decide (v ≠ 0) ^^ decide (v' ≠ 0))) = false := by simp [h2, h3]
        rw [hb, if_neg (by simp), if_pos h3, if_pos h2, if_pos h3]
        exact RepA.update_id (RepA.mk'_ _) rx.replays hfx
    · obtain ⟨rfl, hd⟩ := hs.resolve_left h1
      have lc := wc.length_fixed (hc ▸ hd)
      have lx := wx.length_fixed (hx ▸ hd)
      have ly := wy.length_fixed (hy ▸ hd)
      rw [hc] at lc; rw [hx] at lx; rw [hy] at ly
      have fc := rc.fixed (by simp only [Arr.dynamic, hc]; exact hd)
      have fx := rx.fixed (by simp only [Arr.dynamic, hx]; exact hd)
      have fy := ry.fixed (by simp only [Arr.dynamic, hy]; exact hd)
      obtain ⟨lc', ic, kc⟩ := replays_changes rc.replays fc
      obtain ⟨lx', ix, kx⟩ := replays_changes rx.replays fx
      obtain ⟨ly', iy, ky⟩ := replays_changes ry.replays fy
      simp only [if_neg h1, whereIndices]
      rw [guardUB_true fc, guardUB_true fx, guardUB_true fy]
      simp only [Res.ok_bind]
      have hmem : ∀ i, i ∈ ((dc.map Update.index ++ dx.map Update.index ++
          dy.map Update.index).insertionSort (· ≤ ·)).dedup ↔
          (∃ u ∈ dc, u.index = i) ∨ (∃ u ∈ dx, u.index = i) ∨ (∃ u ∈ dy, u.index = i) := by
        intro i
        simp only [List.mem_dedup, List.mem_insertionSort, List.mem_append, List.mem_map, or_assoc]
      obtain ⟨s', cur, e, hrep, hl, hcur⟩ := RepA.recompute (fixed := !dynamicShape cshape) id
        (target := (List.range x'.data.length).map fun i =>
          if c'.data.getD i 0 ≠ 0 then x'.data.getD i 0 else y'.data.getD i 0)
        (com := (List.range x.data.length).map fun i =>
          if c.data.getD i 0 ≠ 0 then x.data.getD i 0 else y.data.getD i 0)
        (whereStep c' x' y') ((dc.map Update.index ++ dx.map Update.index ++
          dy.map Update.index).insertionSort (· ≤ ·)).dedup (RepA.mk'_ _) (by simp [lx'])
        (by
          intro i hi
          simp only [List.length_map, List.length_range, id]
          rcases (hmem i).1 hi with ⟨u, hu, rfl⟩ | ⟨u, hu, rfl⟩ | ⟨u, hu, rfl⟩
          · have := ic u hu; omega
          · have := ix u hu; omega
          · have := iy u hu; omega)
        (by
          intro s i cur hi h hl
          have hlt : i < x'.data.length := by
            rcases (hmem i).1 hi with ⟨u, hu, rfl⟩ | ⟨u, hu, rfl⟩ | ⟨u, hu, rfl⟩
            · have := ic u hu; omega
            · have := ix u hu; omega
            · have := iy u hu; omega
          simp only [List.length_map, List.length_range] at hl
          obtain ⟨s', e', h'⟩ := h.set (i := i) (by omega)
            (if c'.data.getD i 0 ≠ 0 then x'.data.getD i 0 else y'.data.getD i 0)
          refine ⟨s', _, ?_, ?_, h'⟩
          · unfold whereStep
            rw [wherePick_ok (by omega) (by omega) (by omega), Res.ok_bind]
            exact e'
          · simp [hlt])
      refine ⟨s', e, ?_⟩
      have : cur = (List.range x'.data.length).map fun i =>
          if c'.data.getD i 0 ≠ 0 then x'.data.getD i 0 else y'.data.getD i 0 := by
        apply List.ext_getElem?
        intro i
        rw [hcur]
        split_ifs with hd'
        · rfl
        · simp only [id, exists_eq_right, hmem, not_or, not_exists, not_and] at hd'
          simp only [List.getElem?_map, List.getD_eq_getElem?_getD]
          by_cases hil : i < x.data.length
          · rw [List.getElem?_range hil, List.getElem?_range (by omega)]
            simp only [Option.map_some]
            rw [kc i hd'.1, kx i hd'.2.1, ky i hd'.2.2]
          · rw [List.getElem?_eq_none (by simpa using hil),
              List.getElem?_eq_none (by simp; omega)]
            rfl
      rw [← this]
      exact hrep)

/-- C27.  For every accepted combination of shapes and after every history of changes: a one-element
condition selects the whole of `x` or `y` (which may then be dynamic and of different sizes), any other
condition selects position by position; the reported changes are exact edit scripts and reverting
restores. -/
theorem C27_where (cshape shape : List Int) (hs : whereShape cshape shape shape = .ok shape) :
    Incremental ArrRel [] (whereNode cshape shape)
      (fun xs => ⟨shape, whereValue cshape xs⟩)
      (fun xs => xs.map Arr.shape = [cshape, shape, shape] ∧ ∀ x ∈ xs, x.WF) :=
  (whereContract cshape shape (whereShape_ok hs)).incremental

/-! A scalar condition and two dynamic arrays of different sizes; the condition flips while both arrays
change. -/

private def wrounds : List (Round (Arr Rat) (List (Update Rat))) :=
  [⟨[(⟨[], [0]⟩, [Update.change 0 1 0]), (⟨[-1], [1]⟩, [Update.removal 1 2]),
      (⟨[-1], [7, 8, 9]⟩, [Update.placement 2 9])], false⟩,
    ⟨[(⟨[], [0]⟩, [Update.change 0 1 5, Update.change 0 5 0]), (⟨[-1], [1, 2]⟩, []),
      (⟨[-1], [7, 8, 4]⟩, [Update.placement 2 4])], true⟩]

example : whereShape [] [-1] [-1] = .ok [-1] := by decide +kernel
example : Legal ArrRel (fun xs => xs.map Arr.shape = [[], [-1], [-1]] ∧ ∀ x ∈ xs, x.WF)
    [⟨[], [1]⟩, ⟨[-1], [1, 2]⟩, ⟨[-1], [7, 8]⟩] wrounds
    [⟨[], [0]⟩, ⟨[-1], [1, 2]⟩, ⟨[-1], [7, 8, 4]⟩] := by decide +kernel
example : (whereNode [] [-1]).after [⟨[], [1]⟩, ⟨[-1], [1, 2]⟩, ⟨[-1], [7, 8]⟩] wrounds =
    .ok (⟨[-1], [7, 8, 4]⟩, []) := by decide +kernel
/-- An array condition. -/
example : (whereNode [3] [3]).after [⟨[3], [1, 0, 1]⟩, ⟨[3], [1, 2, 3]⟩, ⟨[3], [7, 8, 9]⟩]
    [⟨[(⟨[3], [0, 0, 1]⟩, [Update.change 0 1 0]), (⟨[3], [1, 2, 30]⟩, [Update.change 2 3 30]),
      (⟨[3], [7, 8, 9]⟩, [])], true⟩] = .ok (⟨[3], [7, 8, 30]⟩, []) := by decide +kernel

end Verif
