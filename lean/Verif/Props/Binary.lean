import Verif.Model.Nodes.Binary
import Verif.Lemmas.NodeBase

set_option linter.unusedSectionVars false
set_option linter.unusedSimpArgs false
set_option linter.unusedVariables false

/-!
# C23: element-wise binary symbols
-/

namespace Verif

open ArrayState

variable {α : Type} [DecidableEq α] [Inhabited α]

theorem sizeOne_data {a : Arr α} (h : sizeOne a.shape = true) (hw : a.WF) : ∃ v, a.data = [v] := by
  simp only [sizeOne, Bool.and_eq_true, Bool.not_eq_true', decide_eq_true_eq] at h
  simp only [Arr.WF, Arr.dynamic, h.1, Bool.false_eq_true, if_false, h.2] at hw
  exact List.length_eq_one_iff.1 (by omega)

theorem not_sizeOne {s : List Int} (h : sizeOne s = true) : dynamicShape s = false := by
  simp only [sizeOne, Bool.and_eq_true, Bool.not_eq_true'] at h
  exact h.1

/-- The shapes for which the constructor accepts the operands, without the case in which a dynamic
array meets a one-element array of as many dimensions or more. -/
structure BinaryShapes (ls rs shape : List Int) : Prop where
  accepted : binaryShape ls rs = .ok shape
  left : dynamicShape ls = true → rs.length < ls.length
  right : dynamicShape rs = true → ls.length < rs.length

instance (ls rs shape : List Int) : Decidable (BinaryShapes ls rs shape) :=
  decidable_of_iff (binaryShape ls rs = .ok shape ∧ (dynamicShape ls = true → rs.length < ls.length) ∧
    (dynamicShape rs = true → ls.length < rs.length)) ⟨fun h => ⟨h.1, h.2.1, h.2.2⟩,
    fun h => ⟨h.1, h.2, h.3⟩⟩

theorem broadcastRev_last : ∀ {l r s : List Int}, broadcastRev l r = .ok s → l.length < r.length →
    s.getLast? = r.getLast?
  | [], r :: rs, s, h, _ => by simp [broadcastRev] at h; rw [h]
  | l :: ls, r :: rs, s, h, hl => by
    simp only [List.length_cons, Nat.add_lt_add_iff_right] at hl
    have key : ∀ x, (broadcastRev ls rs >>= fun t => Res.ok (x :: t)) = Res.ok s →
        s.getLast? = (r :: rs).getLast? := by
      intro x hx
      obtain ⟨t, ht, he⟩ := Res.bind_eq_ok.1 hx
      simp only [Res.ok.injEq] at he
      subst he
      have := broadcastRev_last ht hl
      have hne : rs ≠ [] := by rintro rfl; simp at hl
      have htne : t ≠ [] := by
        rintro rfl
        simp at this
        exact hne (by simpa using this.symm)
      rw [List.getLast?_cons_of_ne_nil htne, List.getLast?_cons_of_ne_nil hne, this]
    simp only [broadcastRev] at h
    split_ifs at h with h1 h2 h3
    · exact key _ h
    · exact key _ h
    · exact key _ h
  | [], [], s, h, hl => by simp at hl
  | _ :: _, [], s, h, hl => by simp at hl

theorem broadcastRev_last' : ∀ {l r s : List Int}, broadcastRev l r = .ok s → r.length < l.length →
    s.getLast? = l.getLast?
  | l :: ls, [], s, h, _ => by simp [broadcastRev] at h; rw [h]
  | l :: ls, r :: rs, s, h, hl => by
    simp only [List.length_cons, Nat.add_lt_add_iff_right] at hl
    have key : ∀ x, (broadcastRev ls rs >>= fun t => Res.ok (x :: t)) = Res.ok s →
        s.getLast? = (l :: ls).getLast? := by
      intro x hx
      obtain ⟨t, ht, he⟩ := Res.bind_eq_ok.1 hx
      simp only [Res.ok.injEq] at he
      subst he
      have := broadcastRev_last' ht hl
      have hne : ls ≠ [] := by rintro rfl; simp at hl
      have htne : t ≠ [] := by
        rintro rfl
        simp at this
        exact hne (by simpa using this.symm)
      rw [List.getLast?_cons_of_ne_nil htne, List.getLast?_cons_of_ne_nil hne, this]
    simp only [broadcastRev] at h
    split_ifs at h with h1 h2 h3
    · exact key _ h
    · exact key _ h
    · exact key _ h
  | [], [], s, h, hl => by simp at hl
  | [], _ :: _, s, h, hl => by simp at hl

theorem dynamicShape_head (s : List Int) : dynamicShape s = (s.head?.map (fun d => decide (d < 0))).getD false := by
  cases s <;> simp [dynamicShape]

theorem BinaryShapes.dyn {ls rs shape : List Int} (h : BinaryShapes ls rs shape)
    (hf : dynamicShape shape = false) : dynamicShape ls = false ∧ dynamicShape rs = false := by
  obtain ⟨t, ht, hg⟩ := Res.bind_eq_ok.1 h.accepted
  obtain ⟨_, _, he⟩ := Res.bind_eq_ok.1 hg
  simp only [Res.ok.injEq] at he
  subst he
  obtain ⟨u, hu, he⟩ := Res.bind_eq_ok.1 ht
  simp only [Res.ok.injEq] at he
  subst he
  constructor
  · by_contra hd
    simp only [Bool.not_eq_false] at hd
    have := broadcastRev_last' hu (by simpa using h.left hd)
    rw [List.getLast?_reverse] at this
    rw [dynamicShape_head, List.head?_reverse, this, ← dynamicShape_head, hd] at hf
    cases hf
  · by_contra hd
    simp only [Bool.not_eq_false] at hd
    have := broadcastRev_last hu (by simpa using h.right hd)
    rw [List.getLast?_reverse] at this
    rw [dynamicShape_head, List.head?_reverse, this, ← dynamicShape_head, hd] at hf
    cases hf

theorem shapeNow_length (a : Arr α) (h : a.shape ≠ [] ∨ a.dynamic = false) :
    a.shapeNow.length = a.shape.length := by
  unfold Arr.shapeNow
  split_ifs with hd
  · have : a.shape ≠ [] := by
      rcases h with h | h
      · exact h
      · rw [h] at hd; cases hd
    cases hs : a.shape with
    | nil => exact absurd hs this
    | cons d t => simp
  · rfl

theorem shapeNow_eq {ls rs shape : List Int} (h : BinaryShapes ls rs shape) {l r : Arr α}
    (hl : l.shape = ls) (hr : r.shape = rs) (he : l.shapeNow = r.shapeNow) :
    dynamicShape ls = false ∧ dynamicShape rs = false ∧ ls = rs := by
  have hne : ∀ s : List Int, dynamicShape s = true → s ≠ [] := by
    rintro s hs rfl; simp [dynamicShape] at hs
  have ll : ∀ a : Arr α, a.shapeNow.length = a.shape.length := by
    intro a
    apply shapeNow_length
    by_cases hd : a.dynamic = true
    · exact Or.inl (hne _ hd)
    · exact Or.inr (by simpa using hd)
  have hlen : ls.length = rs.length := by rw [← hl, ← hr, ← ll, ← ll, he]
  have h1 : dynamicShape ls = false := by
    by_contra hd; have := h.left (by simpa using hd); omega
  have h2 : dynamicShape rs = false := by
    by_contra hd; have := h.right (by simpa using hd); omega
  refine ⟨h1, h2, ?_⟩
  unfold Arr.shapeNow Arr.dynamic at he
  rw [hl, hr, h1, h2] at he
  simpa using he

theorem shapeNow_ne {l r : Arr α} (h : ¬ l.shapeNow = r.shapeNow) {ls rs shape : List Int}
    (hb : BinaryShapes ls rs shape) (hl : l.shape = ls) (hr : r.shape = rs) :
    sizeOne ls = true ∨ sizeOne rs = true := by
  obtain ⟨t, ht, hg⟩ := Res.bind_eq_ok.1 hb.accepted
  obtain ⟨_, hg, _⟩ := Res.bind_eq_ok.1 hg
  by_contra hn
  simp only [not_or, Bool.not_eq_true] at hn
  unfold guardThrow at hg
  split_ifs at hg with hc
  rcases hc with hc | hc | ⟨hc, he⟩
  · rw [hn.1] at hc; cases hc
  · rw [hn.2] at hc; cases hc
  · simp only [not_or, Bool.not_eq_true] at hc
    apply h
    unfold Arr.shapeNow Arr.dynamic
    rw [hl, hr, hc.1, hc.2]
    simpa using he

/-- In the case of equal shapes the value is the plain element-wise one. -/
theorem binaryValue_zip (func : α → α → α) {l r : Arr α} (hl : l.WF) (hr : r.WF)
    (hs : l.shape = r.shape) (hd : dynamicShape l.shape = false) :
    binaryValue func l r = List.zipWith func l.data r.data ∧ l.data.length = r.data.length := by
  have hlen : l.data.length = r.data.length := by
    simp only [Arr.WF, Arr.dynamic, hd, ← hs, Bool.false_eq_true, if_false] at hl hr
    omega
  refine ⟨?_, hlen⟩
  unfold binaryValue
  split_ifs with h1 h2
  · obtain ⟨a, ha⟩ := sizeOne_data h1 hl
    obtain ⟨b, hb⟩ := sizeOne_data (hs ▸ h1) hr
    simp [ha, hb]
  · exact absurd (hs ▸ h2) h1
  · rfl

theorem binaryInit_ok (func : α → α → α) {ls rs shape : List Int} (h : BinaryShapes ls rs shape)
    {l r : Arr α} (hls : l.shape = ls) (hrs : r.shape = rs) (hl : l.WF) (hr : r.WF) :
    binaryInit func [l, r] = .ok (binaryValue func l r) := by
  unfold binaryInit
  by_cases he : l.shapeNow = r.shapeNow
  · obtain ⟨h1, h2, h3⟩ := shapeNow_eq h hls hrs he
    obtain ⟨hv, hlen⟩ := binaryValue_zip func hl hr (by rw [hls, hrs, h3]) (by rw [hls, h1])
    simp [he, hv, hlen]
  · simp only [he, if_false]
    by_cases h1 : sizeOne l.shape = true
    · obtain ⟨a, ha⟩ := sizeOne_data h1 hl
      simp [h1, binaryValue, ha, Arr.front, Arr.read]
    · have h2 : sizeOne r.shape = true := by
        rcases shapeNow_ne he h hls hrs with h' | h'
        · rw [hls] at h1; exact absurd h' h1
        · rw [hrs]; exact h'
      obtain ⟨b, hb⟩ := sizeOne_data h2 hr
      simp [h1, h2, binaryValue, hb, Arr.front, Arr.read]

theorem zipWith_set_left (func : α → α → α) {a b : List α} {i : Nat} {v w : α} (hb : b[i]? = some w) :
    List.zipWith func (a.set i v) b = (List.zipWith func a b).set i (func v w) := by
  apply List.ext_getElem?
  intro j
  grind

theorem zipWith_set_right (func : α → α → α) {a b : List α} {i : Nat} {v w : α} (ha : a[i]? = some w) :
    List.zipWith func a (b.set i v) = (List.zipWith func a b).set i (func w v) := by
  apply List.ext_getElem?
  intro j
  grind

theorem binaryLeft_loop (func : α → α → α) {fixed : Bool} {r : Arr α} (d : List (Update α)) :
    ∀ {s : ArrayState α} {com a b : List α}, RepA fixed s com (List.zipWith func a r.data) →
      a.length = r.data.length → Replays a d b → (∀ u ∈ d, u.isChange = true) →
      ∃ s', d.foldlM (binaryLeft func r) s = .ok s' ∧ RepA fixed s' com (List.zipWith func b r.data) := by
  induction d with
  | nil => intro s com a b h _ hr _; simp at hr; subst hr; exact ⟨s, rfl, h⟩
  | cons u d ih =>
    intro s com a b h hl hr hc
    obtain ⟨m, hm, hr'⟩ := replays_cons.1 hr
    obtain ⟨o, v, ho, hv, rfl, hi⟩ := change_of hm (hc u List.mem_cons_self)
    have hw : r.data[u.index]? = some r.data[u.index] := by simp [← hl, hi]
    obtain ⟨s1, e1, h1⟩ := h.write' (i := u.index) (by simp [← hl, hi]) (func v r.data[u.index])
    obtain ⟨s2, e2, h2⟩ := ih (a := a.set u.index v) (by rw [zipWith_set_left func hw]; exact h1)
      (by simpa using hl) hr' (fun u hu => hc u (List.mem_cons_of_mem _ hu))
    refine ⟨s2, ?_, h2⟩
    simp only [List.foldlM_cons, binaryLeft, Update.newValue, hv, Arr.read_ok hw, Res.ok_bind, e1]
    exact e2

theorem binaryRight_loop (func : α → α → α) {fixed : Bool} {l : Arr α} (d : List (Update α)) :
    ∀ {s : ArrayState α} {com a b : List α}, RepA fixed s com (List.zipWith func l.data a) →
      a.length = l.data.length → Replays a d b → (∀ u ∈ d, u.isChange = true) →
      ∃ s', d.foldlM (binaryRight func l) s = .ok s' ∧ RepA fixed s' com (List.zipWith func l.data b) := by
  induction d with
  | nil => intro s com a b h _ hr _; simp at hr; subst hr; exact ⟨s, rfl, h⟩
  | cons u d ih =>
    intro s com a b h hl hr hc
    obtain ⟨m, hm, hr'⟩ := replays_cons.1 hr
    obtain ⟨o, v, ho, hv, rfl, hi⟩ := change_of hm (hc u List.mem_cons_self)
    have hw : l.data[u.index]? = some l.data[u.index] := by simp [← hl, hi]
    obtain ⟨s1, e1, h1⟩ := h.write' (i := u.index) (by simp [← hl, hi]) (func l.data[u.index] v)
    obtain ⟨s2, e2, h2⟩ := ih (a := a.set u.index v) (by rw [zipWith_set_right func hw]; exact h1)
      (by simpa using hl) hr' (fun u hu => hc u (List.mem_cons_of_mem _ hu))
    refine ⟨s2, ?_, h2⟩
    simp only [List.foldlM_cons, binaryRight, Update.newValue, hv, Arr.read_ok hw, Res.ok_bind, e1]
    exact e2

theorem binaryBoth_loop (func : α → α → α) {fixed : Bool} {com : List α} {l r : Arr α}
    (hlen : l.data.length = r.data.length) {s : ArrayState α} {cur : List α} (d : List (Update α))
    (h : RepA fixed s com cur) (hc : cur.length = l.data.length)
    (hi : ∀ u ∈ d, u.index < l.data.length) :
    ∃ s' cur', d.foldlM (binaryBoth func l r) s = .ok s' ∧ RepA fixed s' com cur' ∧
      cur'.length = l.data.length ∧ ∀ i, cur'[i]? =
        if ∃ u ∈ d, u.index = i then (List.zipWith func l.data r.data)[i]? else cur[i]? := by
  have hz : (List.zipWith func l.data r.data).length = l.data.length := by simp [← hlen]
  obtain ⟨s', cur', e, h', hl', hc'⟩ := RepA.recompute Update.index (target := List.zipWith func l.data r.data)
    (binaryBoth func l r) d h (by omega) (fun u hu => by rw [hz]; exact hi u hu) (by
      intro s u cur hu hs hcl
      have hiu := hi u hu
      have e1 : l.data[u.index]? = some l.data[u.index] := by simp [hiu]
      have e2 : r.data[u.index]? = some (r.data[u.index]'(by omega)) := by simp [← hlen, hiu]
      obtain ⟨s1, e3, h3⟩ := hs.set (i := u.index) (by omega)
        (func l.data[u.index] (r.data[u.index]'(by omega)))
      refine ⟨s1, _, ?_, ?_, h3⟩
      · simp only [binaryBoth, Arr.read_ok e1, Arr.read_ok e2, Res.ok_bind, e3]
      · simp [List.getElem?_zipWith, e1, e2])
  exact ⟨s', cur', e, h', by omega, hc'⟩

theorem binaryPropagate_ok (func : α → α → α) {ls rs shape : List Int} (h : BinaryShapes ls rs shape)
    {l r l' r' : Arr α} {dl dr : List (Update α)} (hls : l.shape = ls) (hrs : r.shape = rs)
    (hl : l.WF) (hr : r.WF) (hl' : l'.WF) (hr' : r'.WF) (hdl : ArrRel l dl l') (hdr : ArrRel r dr r') :
    ∃ s', binaryPropagate func (ArrayState.mk' (binaryValue func l r)) [(l', dl), (r', dr)] = .ok s' ∧
      RepA (!dynamicShape shape) s' (binaryValue func l r) (binaryValue func l' r') := by
  have hls' : l'.shape = ls := by rw [← hdl.shape, hls]
  have hrs' : r'.shape = rs := by rw [← hdr.shape, hrs]
  have h0 := RepA.mk'_ (fixed := !dynamicShape shape) (binaryValue func l r)
  unfold binaryPropagate
  by_cases he : l'.shapeNow = r'.shapeNow
  · obtain ⟨h1, h2, h3⟩ := shapeNow_eq h hls' hrs' he
    obtain ⟨hv, hlen⟩ := binaryValue_zip func hl hr (by rw [hls, hrs, h3]) (by rw [hls, h1])
    obtain ⟨hv', hlen'⟩ := binaryValue_zip func hl' hr' (by rw [hls', hrs', h3]) (by rw [hls', h1])
    have cl := hdl.fixed (by rw [Arr.dynamic, hls, h1])
    have cr := hdr.fixed (by rw [Arr.dynamic, hrs, h2])
    obtain ⟨ll, il, ul⟩ := replays_changes hdl.replays cl
    obtain ⟨lr, ir, ur⟩ := replays_changes hdr.replays cr
    simp only [he, if_true]
    rw [hv] at h0 ⊢
    rw [hv']
    by_cases hdl0 : dl = []
    · subst hdl0
      have hll : l.data = l'.data := by simpa using hdl.replays
      simp only [ne_eq, not_true_eq_false, false_and, if_false]
      rw [hll] at h0 ⊢
      exact binaryRight_loop func dr h0 (by omega) hdr.replays cr
    · by_cases hdr0 : dr = []
      · subst hdr0
        have hrr : r.data = r'.data := by simpa using hdr.replays
        simp only [ne_eq, not_true_eq_false, and_false, if_false, hdl0, not_false_eq_true, if_true]
        rw [hrr] at h0 ⊢
        exact binaryLeft_loop func dl h0 (by omega) hdl.replays cl
      · simp only [ne_eq, hdl0, hdr0, not_false_eq_true, and_self, if_true]
        obtain ⟨s1, c1, e1, k1, kl1, kc1⟩ := binaryBoth_loop func hlen' dl h0 (by simp [← hlen, ll])
          (fun u hu => by rw [ll]; exact il u hu)
        obtain ⟨s2, c2, e2, k2, kl2, kc2⟩ := binaryBoth_loop func hlen' dr k1 kl1
          (fun u hu => by have := ir u hu; omega)
        refine ⟨s2, by rw [e1, Res.ok_bind, e2], ?_⟩
        have : c2 = List.zipWith func l'.data r'.data := by
          apply List.ext_getElem?
          intro i
          rw [kc2]
          split_ifs with hx
          · rfl
          · rw [kc1]
            split_ifs with hy
            · rfl
            · rw [List.getElem?_zipWith, List.getElem?_zipWith, ul i, ur i]
              · intro u hu e; exact hx ⟨u, hu, e⟩
              · intro u hu e; exact hy ⟨u, hu, e⟩
        rw [← this]; exact k2
  · simp only [he, if_false]
    have hfix : (!dynamicShape shape) = true → dynamicShape ls = false ∧ dynamicShape rs = false :=
      fun hf => h.dyn (by simpa using hf)
    by_cases h1 : sizeOne l'.shape = true
    · obtain ⟨a', ha'⟩ := sizeOne_data h1 hl'
      have h1l : sizeOne l.shape = true := by rw [hls, ← hls']; exact h1
      obtain ⟨a, ha⟩ := sizeOne_data h1l hl
      have hv : binaryValue func l r = r.data.map (func a) := by simp [binaryValue, h1l, ha]
      have hv' : binaryValue func l' r' = r'.data.map (func a') := by simp [binaryValue, h1, ha']
      have hfr : l'.front = .ok a' := by simp [Arr.front, Arr.read, ha']
      simp only [h1, if_true, hfr, Res.ok_bind]
      rw [hv'] at *
      by_cases hdl0 : dl = []
      · subst hdl0
        have haa : a = a' := by
          have := hdl.replays
          simp only [replays_nil, ha, ha'] at this
          simpa using this
        subst haa
        simp only [ne_eq, not_true_eq_false, if_false]
        rw [hv] at h0 ⊢
        exact RepA.updateMap (func a) dr h0 hdr.replays (fun hf => hdr.fixed (by
          rw [Arr.dynamic, hrs]; exact (hfix hf).2))
      · simp only [ne_eq, hdl0, not_false_eq_true, if_true]
        refine ⟨_, rfl, h0.assign _ (fun hf => ?_)⟩
        obtain ⟨lr, _, _⟩ := replays_changes hdr.replays (hdr.fixed (by
          rw [Arr.dynamic, hrs]; exact (hfix hf).2))
        simp [hv, lr]
    · have h2 : sizeOne r'.shape = true := by
        rcases shapeNow_ne he h hls' hrs' with h' | h'
        · rw [hls'] at h1; exact absurd h' h1
        · rw [hrs']; exact h'
      obtain ⟨b', hb'⟩ := sizeOne_data h2 hr'
      have h2r : sizeOne r.shape = true := by rw [hrs, ← hrs']; exact h2
      have h1l : ¬ sizeOne l.shape = true := by rw [hls, ← hls']; exact h1
      obtain ⟨b, hb⟩ := sizeOne_data h2r hr
      have hv : binaryValue func l r = l.data.map (func · b) := by simp [binaryValue, h1l, h2r, hb]
      have hv' : binaryValue func l' r' = l'.data.map (func · b') := by
        simp [binaryValue, h1, h2, hb']
      have hfr : r'.front = .ok b' := by simp [Arr.front, Arr.read, hb']
      simp only [h1, h2, Bool.false_eq_true, if_false, if_true, hfr, Res.ok_bind]
      rw [hv'] at *
      by_cases hdr0 : dr = []
      · subst hdr0
        have hbb : b = b' := by
          have := hdr.replays
          simp only [replays_nil, hb, hb'] at this
          simpa using this
        subst hbb
        simp only [ne_eq, not_true_eq_false, if_false]
        rw [hv] at h0 ⊢
        exact RepA.updateMap (func · b) dl h0 hdl.replays (fun hf => hdl.fixed (by
          rw [Arr.dynamic, hls]; exact (hfix hf).1))
      · simp only [ne_eq, hdr0, not_false_eq_true, if_true]
        refine ⟨_, rfl, h0.assign _ (fun hf => ?_)⟩
        obtain ⟨lr, _, _⟩ := replays_changes hdl.replays (hdl.fixed (by
          rw [Arr.dynamic, hls]; exact (hfix hf).1))
        simp [hv, lr]

/-- A binary symbol keeps the symbol contract. -/
def binaryContract (func : α → α → α) {ls rs shape : List Int} (h : BinaryShapes ls rs shape) :
    Contract ArrRel [] (binaryNode func ls rs shape) :=
  arrayContract (by
    rintro xs ⟨hs, hw⟩
    obtain ⟨l, r, rfl, h1, h2⟩ := map_shape_two hs
    exact binaryInit_ok func h h1 h2 (hw l (by simp)) (hw r (by simp))) (by
    rintro xs ins ys ⟨hs, hw⟩ ⟨_, hw'⟩ hi
    obtain ⟨l, r, rfl, h1, h2⟩ := map_shape_two hs
    obtain ⟨dl, l', dr, r', rfl, rfl, hl, hr⟩ := hi.two
    exact binaryPropagate_ok func h h1 h2 (hw l (by simp)) (hw r (by simp)) (hw' l' (by simp))
      (hw' r' (by simp)) hl hr)

/-- C23, for operands of the same fixed shape, and for a one-element operand broadcast to a fixed-size
operand or to a dynamic operand of more dimensions.  Missing: a one-element operand of as many
dimensions as the dynamic one, see `C23_dynamic_fails`. -/
theorem C23_binary_partial (func : α → α → α) {ls rs shape : List Int}
    (h : BinaryShapes ls rs shape) :
    Incremental ArrRel [] (binaryNode func ls rs shape)
      (fun xs => ⟨shape, match xs with
        | [l, r] => binaryValue func l r
        | _ => []⟩)
      (fun xs => xs.map Arr.shape = [ls, rs] ∧ ∀ x ∈ xs, x.WF) :=
  (binaryContract func h).incremental

/-! The hypotheses hold for two 2x2 arrays, and for a scalar and a dynamic array. -/

example : BinaryShapes [2, 2] [2, 2] [2, 2] := by decide
example : BinaryShapes [] [-1] [-1] := by decide

private def rounds : List (Round (Arr Rat) (List (Update Rat))) :=
  [⟨[(⟨[], [3]⟩, [Update.change 0 1 3]), (⟨[-1], [2]⟩, [Update.removal 1 5])], false⟩,
    ⟨[(⟨[], [1]⟩, []), (⟨[-1], [2, 5, 7]⟩, [Update.placement 2 7])], true⟩]

example : Legal ArrRel (fun xs => xs.map Arr.shape = [[], [-1]] ∧ ∀ x ∈ xs, x.WF)
    [⟨[], [1]⟩, ⟨[-1], [2, 5]⟩] rounds [⟨[], [1]⟩, ⟨[-1], [2, 5, 7]⟩] := by decide +kernel

example : (binaryNode (fun x y : Rat => x - y) [] [-1] [-1]).after [⟨[], [1]⟩, ⟨[-1], [2, 5]⟩] rounds =
    .ok (⟨[-1], [-1, -4, -6]⟩, []) := by decide +kernel

/-- The constructor accepts a one-element array of shape `(1,)` and a dynamic array of shape `(-1,)`.
When the dynamic array shrinks from two elements to one, the run-time shapes are equal, and the code
for equal shapes treats the removal as a change of an element, reading outside of the operands. -/
theorem C23_dynamic_fails : ∃ (ls rs shape : List Int) (x y : List (Arr Rat))
    (ins : List (Arr Rat × List (Update Rat))),
    binaryShape ls rs = .ok shape ∧
    (x.map Arr.shape = [ls, rs] ∧ ∀ a ∈ x, a.WF) ∧ (y.map Arr.shape = [ls, rs] ∧ ∀ a ∈ y, a.WF) ∧
    Ins ArrRel x ins y ∧
    (binaryNode (· + ·) ls rs shape).after x [⟨ins, true⟩] = .ub := by
  refine ⟨[1], [-1], [-1], [⟨[1], [1]⟩, ⟨[-1], [2, 5]⟩], [⟨[1], [1]⟩, ⟨[-1], [2]⟩],
    [(⟨[1], [1]⟩, []), (⟨[-1], [2]⟩, [Update.removal 1 5])], by decide, by decide +kernel,
    by decide +kernel, by decide +kernel, ?_⟩
  decide +kernel

end Verif
