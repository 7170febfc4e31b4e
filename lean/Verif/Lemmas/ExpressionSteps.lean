import Verif.Lemmas.Expressions

set_option linter.unusedSimpArgs false
set_option linter.unusedVariables false

/-! Helper lemmas: statements keep names and meanings together. -/

namespace Verif

open Graph PyModel

theorem numpyRun_append (given : Nat → Arr Rat) : ∀ (ps : List PyStmt) (p : PyStmt) (t : Nat) (w : NumPy),
    numpyRun given t w (ps ++ [p]) = (numpyRun given t w ps).bind fun w => p.numpy (given (t + ps.length)) w
  | [], p, t, w => by
    show (p.numpy (given t) w).bind _ = (some w).bind _
    simp only [List.length_nil, Nat.add_zero, Option.bind_some]
    cases p.numpy (given t) w <;> rfl
  | q :: ps, p, t, w => by
    show (q.numpy (given t) w).bind _ = ((q.numpy (given t) w).bind _).bind _
    cases h : q.numpy (given t) w with
    | none => rfl
    | some w' =>
      simp only [Option.bind_some]
      refine (numpyRun_append given ps p (t + 1) w').trans ?_
      rw [List.length_cons, Nat.add_right_comm, Nat.add_assoc]

theorem Py.run_append (decl : Symbols → Graph → Nat → Claim) : ∀ (ps : List PyStmt) (p : PyStmt) (t : Nat) (s : Py),
    Py.run decl t s (ps ++ [p]) = (Py.run decl t s ps >>= fun s => s.step decl (t + ps.length) p)
  | [], p, t, s => by
    show (s.step decl t p >>= fun s => Res.ok s) = _
    simp only [List.length_nil, Nat.add_zero, Py.run, Res.ok_bind]
    cases s.step decl t p <;> rfl
  | q :: ps, p, t, s => by
    show (s.step decl t q >>= fun s => Py.run decl (t + 1) s (ps ++ [p])) = ((s.step decl t q >>= fun s => Py.run decl (t + 1) s ps) >>= _)
    cases h : s.step decl t q with
    | throw => rfl
    | ub => rfl
    | ok s' =>
      simp only [Res.ok_bind]
      rw [Py.run_append decl ps p (t + 1) s', List.length_cons, Nat.add_right_comm, Nat.add_assoc]

/-- The names, the objective and the constraints show what the code has computed. -/
structure Py.Shows (s : Py) (vals : Nat → Val) (w : NumPy) : Prop where
  env : ∀ v, w.env v = (s.names v).map fun a => (single (vals a)).present
  objective : w.objective = s.d.m.g.objective.map fun a => (single (vals a)).present
  constraints : w.constraints = s.d.m.g.constraints.map fun a => (single (vals a)).present

/-- The decisions have the given values. -/
def Draft.Given (d : Draft) (vals : Nat → Val) (choice : Nat → Arr Rat) : Prop :=
  ∀ v ∈ d.m.g.nodes, (d.S.kind v).isDecision = true → choice v = (single (vals v)).present

/-- What holds after the statements `ps`. -/
structure Py.Follows (s : Py) (N : Names) (ps : List PyStmt) : Prop where
  made : s.d.Made
  below : ∀ v ∈ s.d.m.g.nodes, v < ps.length
  named : ∀ x a, s.names x = some a → a ∈ s.d.m.g.nodes
  arrays : ∀ v ∈ s.d.m.g.nodes, (s.d.S.kind v).isArray = true
  fresh : ∀ v a, N.fresh v = true → s.names v = some a → (∀ u ∈ s.d.m.g.nodes, a ∉ (s.d.m.g.mem u).preds) ∧
    (∀ u, s.names u = some a → u = v) ∧ a ∉ s.d.m.g.objective ∧ a ∉ s.d.m.g.constraints
  sums : ∀ v a, s.names v = some a → (s.d.S.kind a = .nary .add ↔ N.sum v = true)
  products : ∀ v a, s.names v = some a → (s.d.S.kind a = .nary .multiply ↔ N.product v = true)
  value : ∀ vals choice, s.d.Holds vals → s.d.Given vals choice →
    ∃ w, numpyRun choice 0 .start ps = some w ∧ s.Shows vals w

theorem follows_start : Py.start.Follows .start [] := by
  refine ⟨Draft.made_new, ?_, ?_, ?_, ?_, ?_, ?_, ?_⟩
  · intro v hv; exact absurd hv (List.not_mem_nil)
  · intro x a h; cases h
  · intro v hv; exact absurd hv (List.not_mem_nil)
  · intro v a h; cases h
  · intro v a h; cases h
  · intro v a h; cases h
  · exact fun vals choice _ _ => ⟨.start, rfl, fun _ => rfl, rfl, rfl⟩

namespace Py.Follows

variable {s : Py} {N : Names} {ps : List PyStmt}

theorem shown (h : s.Follows N ps) {vals : Nat → Val} (hv : s.d.Holds vals) {p : Nat} (hp : p ∈ s.d.m.g.nodes) :
    s.d.Shown vals p (single (vals p)) := Draft.oneOutput_old h.made h.arrays hv hp

/-- A statement that makes a new symbol. -/
theorem grow (h : s.Follows N ps) {d' : Draft} {k : Kind} {ops : List Nat} (hg : s.d.Grown d' ps.length k ops)
    {p : PyStmt} {v : Nat} {used : List Nat} {fs fp : Bool} (hu : ∀ b ∈ ops, ∃ x ∈ used, s.names x = some b)
    (hs : k = .nary .add ↔ fs = true) (hp : k = .nary .multiply ↔ fp = true)
    (hn : ∀ vals given w, d'.Holds vals → s.d.Holds vals → s.Shows vals w →
      (k.isDecision = true → given = (single (vals ps.length)).present) →
      p.numpy given w = some { w with env := fun u => if u = v then some (single (vals ps.length)).present else w.env u }) :
    (s.bind v (d', ps.length)).Follows ((N.use used).bind v true fs fp) (ps ++ [p]) := by
  have hlen : (ps ++ [p]).length = ps.length + 1 := by simp
  refine ⟨hg.made, ?_, ?_, ?_, ?_, ?_, ?_, ?_⟩
  · intro u hu
    rw [hlen]
    have : u ∈ s.d.m.g.nodes ++ [ps.length] := hg.nodes ▸ hu
    rcases List.mem_append.1 this with hu | hu
    · have := h.below u hu; omega
    · rw [List.mem_singleton.1 hu]; omega
  · intro x a hx
    simp only [Py.bind] at hx ⊢
    split_ifs at hx
    · injection hx with hx
      rw [← hx]
      exact hg.mem_new
    · exact hg.mem_old (h.named x a hx)
  · intro u hu
    have : u ∈ s.d.m.g.nodes ++ [ps.length] := hg.nodes ▸ hu
    rcases List.mem_append.1 this with hu | hu
    · show (d'.S.kind u).isArray = true
      rw [hg.kind_old hu]
      exact h.arrays u hu
    · rw [List.mem_singleton.1 hu]
      show (d'.S.kind _).isArray = true
      rw [hg.kind_new]
      exact hg.array
  · intro u a hf hx
    have hsplit : ∀ u' ∈ d'.m.g.nodes, u' ∈ s.d.m.g.nodes ∨ u' = ps.length := by
      intro u' hu'
      rw [hg.nodes] at hu'
      simpa using hu'
    simp only [Py.bind] at hx ⊢
    rw [hg.objective, hg.constraints]
    by_cases e : u = v
    · subst e
      rw [if_pos rfl] at hx
      injection hx with hx
      subst hx
      have wf := h.made.inv.wf
      refine ⟨?_, ?_, ?_, ?_⟩
      · intro u' hu' hc
        rcases hsplit u' hu' with hu' | rfl
        · rw [hg.old u' hu'] at hc
          exact hg.absent (wf.predMem u' hu' _ hc)
        · rw [hg.new] at hc
          exact hg.absent (hg.operands _ hc)
      · intro u' hu'
        split_ifs at hu' with e'
        · exact e'
        · exact absurd (h.named u' _ hu') hg.absent
      · exact fun hc => hg.absent (wf.objMem _ hc)
      · exact fun hc => hg.absent (wf.conMem _ hc)
    · rw [if_neg e] at hx
      simp only [Names.bind, Names.use, if_neg e, Bool.and_eq_true, Bool.not_eq_true', decide_eq_false_iff_not] at hf
      obtain ⟨h1, h2, h3, h4⟩ := h.fresh u a hf.1 hx
      refine ⟨?_, ?_, h3, h4⟩
      · intro u' hu' hc
        rcases hsplit u' hu' with hu' | rfl
        · rw [hg.old u' hu'] at hc
          exact h1 u' hu' hc
        · rw [hg.new] at hc
          obtain ⟨x, hxu, hxn⟩ := hu a hc
          exact hf.2 (h2 x hxn ▸ hxu)
      · intro u' hu'
        split_ifs at hu' with e'
        · injection hu' with hu'
          exact absurd (hu' ▸ h.named u a hx) hg.absent
        · exact h2 u' hu'
  · intro u a hx
    simp only [Py.bind, Names.bind, Names.use] at hx ⊢
    by_cases e : u = v
    · rw [if_pos e] at hx ⊢
      injection hx with hx
      subst hx
      rw [hg.kind_new]
      exact hs
    · rw [if_neg e] at hx ⊢
      rw [hg.kind_old (h.named u a hx)]
      exact h.sums u a hx
  · intro u a hx
    simp only [Py.bind, Names.bind, Names.use] at hx ⊢
    by_cases e : u = v
    · rw [if_pos e] at hx ⊢
      injection hx with hx
      subst hx
      rw [hg.kind_new]
      exact hp
    · rw [if_neg e] at hx ⊢
      rw [hg.kind_old (h.named u a hx)]
      exact h.products u a hx
  · intro vals choice hv hc
    have hv : d'.Holds vals := hv
    have hold := hg.holds h.made hv
    obtain ⟨w, hw, sh⟩ := h.value vals choice hold fun u hu hk => hc u (hg.mem_old hu) (by
      show (d'.S.kind u).isDecision = true
      rw [hg.kind_old hu]
      exact hk)
    refine ⟨{ w with env := fun u => if u = v then some (single (vals ps.length)).present else w.env u }, ?_, ?_, ?_, ?_⟩
    · rw [numpyRun_append, hw, Nat.zero_add]
      refine hn vals _ w hv hold sh fun hk => hc _ hg.mem_new ?_
      show (d'.S.kind _).isDecision = true
      rw [hg.kind_new]
      exact hk
    · intro u
      simp only [Py.bind]
      split_ifs
      · rfl
      · exact sh.env u
    · show w.objective = d'.m.g.objective.map _
      rw [hg.objective]
      exact sh.objective
    · show w.constraints = d'.m.g.constraints.map _
      rw [hg.constraints]
      exact sh.constraints

/-- A statement that gives a symbol another name. -/
theorem aliased (h : s.Follows N ps) {x a v : Nat} (hx : s.names x = some a) {p : PyStmt}
    (hn : ∀ given w b, w.env x = some b → p.numpy given w = some { w with env := fun u => if u = v then some b else w.env u }) :
    (s.bind v (s.d, a)).Follows ((N.use [x]).bind v false (N.sum x) (N.product x)) (ps ++ [p]) := by
  have hlen : (ps ++ [p]).length = ps.length + 1 := by simp
  refine ⟨h.made, ?_, ?_, h.arrays, ?_, ?_, ?_, ?_⟩
  · intro u hu
    rw [hlen]
    have := h.below u hu
    omega
  · intro y b hy
    simp only [Py.bind] at hy ⊢
    split_ifs at hy
    · injection hy with hy
      exact hy ▸ h.named x a hx
    · exact h.named y b hy
  · intro u b hf hu
    by_cases e : u = v
    · simp [Names.bind, e] at hf
    · simp only [Py.bind, if_neg e] at hu ⊢
      simp only [Names.bind, Names.use, if_neg e, Bool.and_eq_true, Bool.not_eq_true', decide_eq_false_iff_not,
        List.mem_singleton] at hf
      obtain ⟨h1, h2, h3, h4⟩ := h.fresh u b hf.1 hu
      refine ⟨h1, ?_, h3, h4⟩
      intro u' hu'
      split_ifs at hu' with e'
      · injection hu' with hu'
        exact absurd (h2 x (hu' ▸ hx)).symm hf.2
      · exact h2 u' hu'
  · intro u b hu
    simp only [Py.bind, Names.bind, Names.use] at hu ⊢
    by_cases e : u = v
    · rw [if_pos e] at hu ⊢
      injection hu with hu
      exact hu ▸ h.sums x a hx
    · rw [if_neg e] at hu ⊢
      exact h.sums u b hu
  · intro u b hu
    simp only [Py.bind, Names.bind, Names.use] at hu ⊢
    by_cases e : u = v
    · rw [if_pos e] at hu ⊢
      injection hu with hu
      exact hu ▸ h.products x a hx
    · rw [if_neg e] at hu ⊢
      exact h.products u b hu
  · intro vals choice hv hc
    obtain ⟨w, hw, sh⟩ := h.value vals choice hv hc
    refine ⟨{ w with env := fun u => if u = v then some (single (vals a)).present else w.env u }, ?_, ?_, sh.objective, sh.constraints⟩
    · rw [numpyRun_append, hw]
      refine hn _ w _ ?_
      rw [sh.env, hx]
      rfl
    · intro u
      simp only [Py.bind]
      split_ifs
      · rfl
      · exact sh.env u

/-- A statement that extends a sum or product in place. -/
theorem extend (h : s.Follows N ps) {v x a b : Nat} (hv : s.names v = some a) (hx : s.names x = some b)
    (hf : N.fresh v = true) (hne : v ≠ x) {op : NaryOp} (hk : s.d.S.kind a = .nary op) {d' : Draft} (he : s.d.Extended d' a b)
    {p : PyStmt}
    (hn : ∀ given w c c' z, w.env v = some c → w.env x = some c' → numpyZip op.numpy c c' = some z →
      p.numpy given w = some { w with env := fun u => if u = v then some z else w.env u }) :
    (s.bind v (d', a)).Follows (N.use [x]) (ps ++ [p]) := by
  have hlen : (ps ++ [p]).length = ps.length + 1 := by simp
  obtain ⟨f1, f2, f3, f4⟩ := h.fresh v a hf hv
  have hba : b ≠ a := fun e => hne (f2 x (e ▸ hx)).symm
  have ha := h.named v a hv
  have hb := h.named x b hx
  have names : (s.bind v (d', a)).names = s.names := by
    funext u
    simp only [Py.bind]
    split_ifs with e
    · rw [e, hv]
    · rfl
  refine ⟨he.made, ?_, ?_, ?_, ?_, ?_, ?_, ?_⟩
  · intro u hu
    rw [hlen]
    have := h.below u (he.nodes ▸ hu)
    omega
  · intro y c hy
    rw [names] at hy
    show c ∈ d'.m.g.nodes
    rw [he.nodes]
    exact h.named y c hy
  · intro u hu
    show (d'.S.kind u).isArray = true
    rw [he.symbols]
    exact h.arrays u (he.nodes ▸ hu)
  · intro u c hfu hu
    simp only [Names.use, Bool.and_eq_true, Bool.not_eq_true', decide_eq_false_iff_not, List.mem_singleton] at hfu
    rw [names] at hu ⊢
    obtain ⟨h1, h2, h3, h4⟩ := h.fresh u c hfu.1 hu
    refine ⟨?_, h2, ?_, ?_⟩
    · intro u' hu' hc
      have hu' : u' ∈ s.d.m.g.nodes := he.nodes ▸ hu'
      change c ∈ (d'.m.g.mem u').preds at hc
      rw [he.preds] at hc
      split_ifs at hc with e
      · rcases List.mem_append.1 hc with hc | hc
        · exact h1 a ha hc
        · exact hfu.2 (h2 x (by rw [hx, List.mem_singleton.1 hc])).symm
      · exact h1 u' hu' hc
    · show c ∉ d'.m.g.objective
      rw [he.objective]
      exact h3
    · show c ∉ d'.m.g.constraints
      rw [he.constraints]
      exact h4
  · intro u c hu
    rw [names] at hu
    show d'.S.kind c = _ ↔ _
    rw [he.symbols]
    exact h.sums u c hu
  · intro u c hu
    rw [names] at hu
    show d'.S.kind c = _ ↔ _
    rw [he.symbols]
    exact h.products u c hu
  · intro vals choice hvals hc
    obtain ⟨z, hz, hzip⟩ := he.holds h.made ha h.arrays hk f1 hba hb hvals
    obtain ⟨w, hw, sh⟩ := h.value (upd vals a [z]) choice hz fun u hu hd => by
      have hua : u ≠ a := fun e => by rw [e, hk] at hd; cases hd
      rw [upd_ne _ _ hua]
      refine hc u (by show u ∈ d'.m.g.nodes; rw [he.nodes]; exact hu) ?_
      show (d'.S.kind u).isDecision = true
      rw [he.symbols]
      exact hd
    refine ⟨{ w with env := fun u => if u = v then some (single (vals a)).present else w.env u }, ?_, ?_, ?_, ?_⟩
    · rw [numpyRun_append, hw]
      refine hn _ w z.present (single (vals b)).present _ ?_ ?_ hzip
      · rw [sh.env, hv]
        simp [single]
      · rw [sh.env, hx]
        simp [upd_ne _ _ hba]
    · intro u
      rw [names]
      show (if u = v then _ else _) = _
      split_ifs with e
      · rw [e, hv]
        rfl
      · rw [sh.env]
        cases hu : s.names u with
        | none => rfl
        | some c =>
          have : c ≠ a := fun e' => e (f2 u (e' ▸ hu))
          simp [upd_ne _ _ this]
    · show w.objective = d'.m.g.objective.map _
      rw [he.objective, sh.objective]
      cases ho : s.d.m.g.objective with
      | none => rfl
      | some c =>
        have : c ≠ a := fun e' => f3 (by rw [ho, e']; rfl)
        simp [upd_ne _ _ this]
    · show w.constraints = d'.m.g.constraints.map _
      rw [he.constraints, sh.constraints]
      refine List.map_congr_left fun c hc' => ?_
      rw [upd_ne _ _ fun e' : c = a => f4 (e' ▸ hc')]

end Py.Follows
end Verif
