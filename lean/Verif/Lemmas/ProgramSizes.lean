import Verif.Model.Script
import Verif.Props.SizeInfo

set_option linter.unusedSectionVars false
set_option linter.unusedSimpArgs false
set_option linter.unusedVariables false

/-! Helper lemmas: arrays that `array_shape_equal` takes to be of the same size are. -/

namespace Verif
namespace SizeInfo

variable {info : Nat → SizeInfo} {len : Nat → Nat} {good : Nat → Prop}

/-- The number of elements of a slice by step one of an array of `n` elements: at most `max` of the elements, shifted. -/
def cut (n : Nat) (max : Option Int) (offset : Int) : Int :=
  match max with
  | some m => Max.max 0 (Min.min (n : Int) m + offset)
  | none => Max.max 0 ((n : Int) + offset)

/-- A slice of an array that refers to itself. -/
structure Cuts (info : Nat → SizeInfo) (len : Nat → Nat) (good : Nat → Prop) (i a : Nat) (max : Option Int) (offset : Int) : Prop where
  tells : info i = ⟨some a, 1, offset, none, max⟩
  other : a ≠ i
  sound : good a
  root : (info a).array = some a
  low : ∀ m ∈ (info a).min, 0 ≤ m
  size : (len i : Int) = cut (len a) max offset

/-- What an array tells about its size can be compared with what others tell: it has a fixed size, or refers to arrays of the same
size, or is a slice. -/
inductive Comparable (info : Nat → SizeInfo) (len : Nat → Nat) (good : Nat → Prop) (i : Nat) : Prop where
  | fixed : info i = .fixed (len i) → Comparable info len good i
  | refers : good i → Comparable info len good i
  | slice {a : Nat} {max : Option Int} {offset : Int} : Cuts info len good i a max offset → Comparable info len good i

/-- A slice after asking the array that it refers to. -/
structure Asked (info : Nat → SizeInfo) (len : Nat → Nat) (good : Nat → Prop) (n : Nat) (a : Nat) (max : Option Int) (offset : Int)
    (s : SizeInfo) : Prop where
  array : s.array = some a
  multiplier : s.multiplier = 1
  shift : s.offset = offset
  most : s.max = (capMax max (info a).max).map (fun m => Max.max 0 (m + offset))
  sound : good a
  size : (n : Int) = cut (len a) max offset

/-- What is compared in the loops of `array_shape_equal`. -/
inductive Compared (info : Nat → SizeInfo) (len : Nat → Nat) (good : Nat → Prop) (n : Nat) (p : Nat) (s : SizeInfo) : Prop where
  | sound : Sound s info len good n → Compared info len good n p s
  | known : s.array = some p → s.multiplier = 0 → s.offset = n → Compared info len good n p s
  | asked {max : Option Int} {offset : Int} : Asked info len good n p max offset s → Compared info len good n p s

theorem beq_zero {s t : SizeInfo} (h : s.beq t = true) : s.multiplier = 0 ↔ t.multiplier = 0 := by
  unfold beq at h
  split_ifs at h with h1 h2
  · simp at h; simp [h1, h.1]
  · simp at h; exact absurd h.1 h1
  · simp [h1, h2]

theorem beq_offset {s t : SizeInfo} (h : s.beq t = true) : s.offset = t.offset := by
  unfold beq at h
  split_ifs at h with h1 h2
  · simp at h; exact h.2
  · simp at h; exact absurd h.1 h1
  · simp at h; exact h.2.2.1

theorem beq_rest {s t : SizeInfo} (h : s.beq t = true) (h0 : s.multiplier ≠ 0) :
    s.array = t.array ∧ s.max = t.max := by
  have h1 : ¬ t.multiplier = 0 := fun h' => h0 ((beq_zero h).2 h')
  unfold beq at h
  rw [if_neg h1, if_neg h0] at h
  simp at h
  exact ⟨h.1, h.2.2.2.2⟩

theorem Compared.exact {n p : Nat} {s : SizeInfo} (h : Compared info len good n p s) (h0 : s.multiplier = 0) : s.offset = n := by
  cases h with
  | sound h => exact h.1.exact h0
  | known _ _ h => exact h
  | asked h => rw [h.multiplier] at h0; exact absurd h0 (by decide)

theorem cut_of_asked {L n n' : Nat} {m m' pm : Option Int} {o : Int} (hL : ∀ p ∈ pm, (L : Int) ≤ p)
    (h1 : (n : Int) = cut L m o) (h2 : (n' : Int) = cut L m' o)
    (h : (capMax m pm).map (fun m => Max.max 0 (m + o)) = (capMax m' pm).map (fun m => Max.max 0 (m + o))) : n = n' := by
  cases m <;> cases m' <;> cases pm <;> simp [capMax, cut] at h h1 h2 hL <;> omega

theorem Compared.equal {n n' p p' : Nat} {s t : SizeInfo} (hC : Chain info len good)
    (hs : Compared info len good n p s) (ht : Compared info len good n' p' t) (h : s.beq t = true) : n = n' := by
  have ho := beq_offset h
  by_cases h0 : s.multiplier = 0
  · have e1 := hs.exact h0
    have e2 := ht.exact ((beq_zero h).1 h0)
    omega
  · have h0' : t.multiplier ≠ 0 := fun h' => h0 ((beq_zero h).2 h')
    obtain ⟨ha, hm⟩ := beq_rest h h0
    -- one side refers to an array of its size, the other has been cut
    have key : ∀ {n n' q : Nat} {s t : SizeInfo} {max : Option Int} {offset : Int}, Sound s info len good n → s.multiplier ≠ 0 →
        Asked info len good n' q max offset t → s.array = t.array → s.max = t.max → s.offset = t.offset → n = n' := by
      intro n n' q s t max offset k1 hn k2 ea em eo
      obtain ⟨_, o0, a, hmem, hlen⟩ := k1.1.linked hn
      have : a = q := by
        rw [ea, k2.array] at hmem
        simpa using hmem.symm
      subst this
      have eo : offset = 0 := by rw [← k2.shift, ← eo, o0]
      subst eo
      have hup := k1.1.max
      rw [em, k2.most] at hup
      have hl := k2.size
      have hp := (hC.describes _ k2.sound).max
      cases max with
      | none => simp [cut] at hl; omega
      | some μ =>
        cases hpm : (info a).max with
        | none => simp [hpm, capMax, cut] at hup hl; omega
        | some pm =>
          have := hp pm (by rw [hpm]; rfl)
          simp [hpm, capMax, cut] at hup hl; omega
    cases hs with
    | known _ h1 _ => exact absurd h1 h0
    | sound k1 =>
      cases ht with
      | known _ h1 _ => exact absurd h1 h0'
      | sound k2 =>
        obtain ⟨_, _, a, h1, h2⟩ := k1.1.linked h0
        obtain ⟨_, _, b, h3, h4⟩ := k2.1.linked h0'
        rw [ha] at h1
        have : a = b := by simpa [h3] using (Option.mem_unique h1 h3)
        subst this
        omega
      | asked k2 => exact key k1 h0 k2 ha hm ho
    | asked k1 =>
      cases ht with
      | known _ h1 _ => exact absurd h1 h0'
      | sound k2 => exact (key k2 h0' k1 ha.symm hm.symm ho.symm).symm
      | asked k2 =>
        have : p = p' := by
          have := k1.array.symm.trans (ha.trans k2.array)
          simpa using this
        subst this
        have eo := k1.shift.symm.trans (ho.trans k2.shift)
        have l1 := k1.size
        have l2 := k2.size
        have m1 := k1.most
        have m2 := k2.most
        rw [← eo] at m2 l2
        refine cut_of_asked (hC.describes _ k1.sound).max l1 l2 ?_
        rw [← m1, ← m2]
        exact hm

/-- Going on to the array that is referred to. -/
theorem Compared.step {n p a : Nat} {s t : SizeInfo} (hC : Chain info len good) (hs : Compared info len good n p s)
    (ha : s.array = some a) (hne : a ≠ p) (h : s.substitute info 1 = .ok t) : Compared info len good n a t := by
  cases hs with
  | known h1 _ _ => rw [h1] at ha; exact absurd (by simpa using ha) hne.symm
  | asked h1 => rw [h1.array] at ha; exact absurd (by simpa using ha) hne.symm
  | sound h1 =>
    obtain ⟨t', e, h2⟩ := sound_substitute hC 1 h1
    rw [h] at e
    obtain rfl : t = t' := by simpa using e
    exact .sound h2

/-- A slice asks its array. -/
theorem Cuts.ask {i a : Nat} {max : Option Int} {offset : Int} {t : SizeInfo} (hC : Chain info len good)
    (h : Cuts info len good i a max offset) (ht : (info i).substitute info 1 = .ok t) : Compared info len good (len i) a t := by
  have hda := hC.describes a h.sound
  have hone := hC.plain a h.sound
  obtain ⟨-, hoff, _⟩ := hda.linked (by rw [hone]; decide)
  rw [h.tells] at ht
  have hconv : (⟨some a, 1, offset, none, max⟩ : SizeInfo).converged (info a) = false := by
    unfold converged
    rw [decide_eq_false_iff_not]
    rintro ⟨_, _, _, hmin, _⟩
    cases hm : (info a).min with
    | none => rw [hm] at hmin; simp [ssMax] at hmin
    | some m =>
      have := h.low m (by rw [hm]; rfl)
      rw [hm] at hmin; simp [ssMax] at hmin; omega
  unfold substitute at ht
  simp only [hconv] at ht
  obtain ⟨_, _, ht⟩ := Res.bind_eq_ok.1 ht
  simp only [substitute, Res.ok.injEq] at ht
  have hsc : ∀ x, scale 1 offset x = Max.max 0 (x + offset) := by
    intro x; simp [scale]
  have hmax : (capMax max (info a).max).map (scale 1 offset) = (capMax max (info a).max).map (fun m => Max.max 0 (m + offset)) := by
    congr 1
  have hlen := h.size
  subst ht
  unfold join
  simp only
  split_ifs with hc
  · obtain ⟨c1, c2⟩ := hc
    refine .known h.root rfl ?_
    have hlo := hda.min
    have hhi := hda.max
    cases hmi : (info a).min with
    | none => rw [hmi] at c1; simp [capMin] at c1
    | some mi =>
      rw [hmi] at c1 c2 hlo
      try rw [hmi]
      have hlo := hlo mi rfl
      simp only [capMin, Option.map_some, hsc, Option.getD_some] at c2 ⊢
      cases max with
      | none =>
        cases hma : (info a).max with
        | none => rw [hma] at c2; simp [capMax] at c2
        | some ma =>
          rw [hma] at c2 hhi
          have hhi := hhi ma rfl
          simp [capMax, hsc] at c2
          simp [cut] at hlen
          omega
      | some μ =>
        cases hma : (info a).max with
        | none =>
          rw [hma] at c2; simp [capMax, hsc] at c2
          simp [cut] at hlen
          omega
        | some ma =>
          rw [hma] at c2 hhi
          have hhi := hhi ma rfl
          simp [capMax, hsc] at c2
          simp [cut] at hlen
          omega
  · refine .asked (max := max) (offset := offset) ⟨h.root, by simp [hone], ?_, hmax, h.sound, hlen⟩
    simp [hoff, truncate_zero]

end SizeInfo

variable {info : Nat → SizeInfo} {len : Nat → Nat} {good : Nat → Prop}

open SizeInfo in
theorem shapeEqualLoop_sound (hC : SizeInfo.Chain info len good) {n n' : Nat} : ∀ (fuel l : Nat) (ls : SizeInfo) (r : Nat) (rs : SizeInfo),
    Compared info len good n l ls → Compared info len good n' r rs → shapeEqualLoop info fuel l ls r rs = .ok true → n = n'
  | 0, l, ls, r, rs, _, _, h => by simp [shapeEqualLoop] at h
  | fuel + 1, l, ls, r, rs, hl, hr, h => by
    unfold shapeEqualLoop at h
    split_ifs at h with hb
    · exact hl.equal hC hr hb
    · split at h
      · rename_i la ra ea eb
        split_ifs at h with h1 h2 h3
        · obtain ⟨ls', e1, h⟩ := Res.bind_eq_ok.1 h
          obtain ⟨rs', e2, h⟩ := Res.bind_eq_ok.1 h
          exact shapeEqualLoop_sound hC fuel _ _ _ _ (hl.step hC ea h1.1 e1) (hr.step hC eb h1.2 e2) h
        · obtain ⟨ls', e1, h⟩ := Res.bind_eq_ok.1 h
          exact shapeEqualLoop_sound hC fuel _ _ _ _ (hl.step hC ea h2 e1) hr h
        · obtain ⟨rs', e2, h⟩ := Res.bind_eq_ok.1 h
          exact shapeEqualLoop_sound hC fuel _ _ _ _ hl (hr.step hC eb h3 e2) h
        · simp at h
      · simp at h

open SizeInfo in
theorem SizeInfo.Comparable.stays {i : Nat} (hC : SizeInfo.Chain info len good) (h : Comparable info len good i) (ha : (info i).array = some i) :
    Compared info len good (len i) i (info i) := by
  cases h with
  | fixed e => rw [e] at ha; exact absurd ha (by simp [SizeInfo.fixed])
  | refers g => exact .sound ⟨hC.describes i g, hC.closed i g, fun h => by rw [hC.plain i g] at h; exact absurd h (by decide)⟩
  | slice c => rw [c.tells] at ha; exact absurd (by simpa using ha) c.other

open SizeInfo in
theorem SizeInfo.Comparable.moves {i a : Nat} {t : SizeInfo} (hC : SizeInfo.Chain info len good) (h : Comparable info len good i)
    (ha : (info i).array = some a) (hne : a ≠ i) (ht : (info i).substitute info 1 = .ok t) :
    Compared info len good (len i) a t := by
  cases h with
  | fixed e => rw [e] at ha; exact absurd ha (by simp [SizeInfo.fixed])
  | refers g =>
    have : Compared info len good (len i) i (info i) :=
      .sound ⟨hC.describes i g, hC.closed i g, fun h => by rw [hC.plain i g] at h; exact absurd h (by decide)⟩
    exact this.step hC ha hne ht
  | slice c =>
    rename_i b _ _
    have e : (info i).array = some b := by rw [c.tells]
    obtain rfl := Option.some.inj (e.symm.trans ha)
    exact c.ask hC ht

open SizeInfo in
theorem SizeInfo.Comparable.equal {l r : Nat} (hC : SizeInfo.Chain info len good) (hl : Comparable info len good l)
    (hr : Comparable info len good r) (hb : (info l).beq (info r) = true) : len l = len r := by
  have hz : ∀ i, good i → (info i).multiplier ≠ 0 := fun i hi h => by rw [hC.plain i hi] at h; exact absurd h (by decide)
  have ho := beq_offset hb
  have hzz := beq_zero hb
  -- one refers to an array of its size, the other is a slice
  have key : ∀ {l r a : Nat} {max : Option Int} {offset : Int}, good l → Cuts info len good r a max offset →
      (info l).array = (info r).array → (info l).max = (info r).max → (info l).offset = (info r).offset → len l = len r := by
    intro l r a max offset g c ha hm ho
    obtain ⟨_, o0, b, hmem, hlen⟩ := (hC.describes l g).linked (hz l g)
    rw [c.tells] at ha hm ho
    have ho : (info l).offset = offset := ho
    obtain rfl : b = a := by
      rw [ha] at hmem
      simpa using hmem.symm
    rw [o0] at ho
    have hup := (hC.describes l g).max
    have hl := c.size
    subst ho
    rw [hm] at hup
    cases max with
    | none => simp [cut] at hl; omega
    | some m =>
      have := hup m rfl
      simp [cut] at hl; omega
  cases hl with
  | fixed e =>
    have hr0 : (info r).multiplier = 0 := hzz.1 (by rw [e]; rfl)
    cases hr with
    | fixed e' => rw [e, e'] at ho; simpa [SizeInfo.fixed] using ho
    | refers g => exact absurd hr0 (hz r g)
    | slice c => rw [c.tells] at hr0; exact absurd hr0 (by simp)
  | refers g =>
    obtain ⟨ha, hm⟩ := beq_rest hb (hz l g)
    cases hr with
    | fixed e' => exact absurd (hzz.2 (by rw [e']; rfl)) (hz l g)
    | refers g' =>
      have hself : ∀ i, good i → Compared info len good (len i) i (info i) := fun i hi =>
        .sound ⟨hC.describes i hi, hC.closed i hi, fun h => by rw [hC.plain i hi] at h; exact absurd h (by decide)⟩
      exact (hself l g).equal hC (hself r g') hb
    | slice c => exact key g c ha hm ho
  | slice c =>
    have h0 : (info l).multiplier ≠ 0 := by rw [c.tells]; simp
    obtain ⟨ha, hm⟩ := beq_rest hb h0
    cases hr with
    | fixed e' => exact absurd (hzz.2 (by rw [e']; rfl)) h0
    | refers g' => exact (key g' c ha.symm hm.symm ho.symm).symm
    | slice c' =>
      rw [c.tells, c'.tells] at ha hm ho
      have h1 := c.size
      have h2 := c'.size
      simp only [Option.some.injEq] at ha hm ho
      subst ha hm ho
      omega

open SizeInfo in
/-- The arrays that are taken to have the same size have the same size. -/
theorem shapeEqual_sound (hC : SizeInfo.Chain info len good) {fuel l r : Nat} (hl : Comparable info len good l)
    (hr : Comparable info len good r) (h : shapeEqual info fuel l r = .ok true) : len l = len r := by
  unfold shapeEqual at h
  split_ifs at h with hb hn
  · exact hl.equal hC hr hb
  · simp at h
  · cases fuel with
    | zero => simp [shapeEqualLoop] at h
    | succ fuel =>
      unfold shapeEqualLoop at h
      rw [if_neg hb] at h
      split at h
      · rename_i la ra ea eb
        split_ifs at h with h1 h2 h3
        · obtain ⟨ls', e1, h⟩ := Res.bind_eq_ok.1 h
          obtain ⟨rs', e2, h⟩ := Res.bind_eq_ok.1 h
          exact shapeEqualLoop_sound hC fuel _ _ _ _ (hl.moves hC ea h1.1 e1) (hr.moves hC eb h1.2 e2) h
        · obtain ⟨ls', e1, h⟩ := Res.bind_eq_ok.1 h
          have : ra = r := by tauto
          exact shapeEqualLoop_sound hC fuel _ _ _ _ (hl.moves hC ea h2 e1) (hr.stays hC (this ▸ eb)) h
        · obtain ⟨rs', e2, h⟩ := Res.bind_eq_ok.1 h
          have : la = l := by tauto
          exact shapeEqualLoop_sound hC fuel _ _ _ _ (hl.stays hC (this ▸ ea)) (hr.moves hC eb h3 e2) h
        · simp at h
      · simp at h

end Verif
