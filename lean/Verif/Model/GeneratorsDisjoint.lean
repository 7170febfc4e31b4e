import Verif.Model.Generators

/-!
# Generators of models with disjoint collections

Bin packing and vehicle routing, `dwave/optimization/generators.py`; see `Verif.Model.Generators` for what is simplified.
-/

namespace Verif

/-- `x += y` for symbols (`ArraySymbol.__iadd__`, _model.pyx 1188-1195; `NaryAdd.__iadd__`, symbols.pyx 2162-2167): a sum gets another
operand, from anything else a new sum is made.  The symbol that `x` stands for afterwards. -/
def Script.iadd (s : Script) (x y : Nat) : Res (Script × Nat) :=
  match (s.row x).built with
  | .kind (.nary .add) => do
    let s ← s.addOperand x y
    .ok (s, x)
  | _ => s.add (.kind (.nary .add)) [x, y]

namespace Generators

/-- The next successor of disjoint collections. -/
def output (main : Nat) (p : Script × List Nat) (i : Nat) : Res (Script × List Nat) := do
  let (s, x) ← p.1.add (.kind (.output i)) [main]
  .ok (s, p.2 ++ [x])

/-- The successors that `disjoint_bit_sets` and `disjoint_lists` make, model.py 191-193, 222-224. -/
def outputs (s : Script) (main n : Nat) : Res (Script × List Nat) := (List.range n).foldlM (output main) (s, [])

/-- `model.add_constraint((bin_array * weights).sum() <= capacity)`, generators.py 196-198. -/
def binConstraint (weights capacity : Nat) (M : Generated) (bin : Nat) : Res Generated := do
  let (s, held) ← M.rows.add (.kind (.binary .multiply)) [bin, weights]
  let (s, total) ← s.add (.kind (.reduce .sum 0)) [held]
  let (s, fits) ← s.add (.kind (.binary .lessEqual)) [total, capacity]
  Generated.addConstraint { M with rows := s } fits

/-- `obj_val += (bins[i].sum() >= constant_one)`, generators.py 203-204. -/
def binUsed (one : Nat) (p : Script × Nat) (bin : Nat) : Res (Script × Nat) := do
  let (s, count) ← p.1.add (.kind (.reduce .sum 0)) [bin]
  let (s, used) ← s.add (.kind (.binary .lessEqual)) [one, count]
  s.iadd p.2 used

/-- `bin_packing`, generators.py 152-209. -/
def binPacking (weights : Arr Rat) (capacity : Rat) : Res Generated := do
  let W ← require 1 false true false weights
  guardThrow (W.shape.headD 0 ≠ 0)
  guardThrow (¬ capacity ≤ 0)
  guardThrow (∀ w ∈ W.data, ¬ w > capacity)
  let n := W.shape.headD 0
  let (s, w) ← Script.add [] (.kind (.constant W)) []
  let (s, c) ← s.add (.kind (.constant (scalar capacity))) []
  let (s, main) ← s.add (.kind (.disjointBitSets n n)) []
  let (s, bins) ← outputs s main n.toNat
  let M ← bins.foldlM (binConstraint w c) ⟨s, none, []⟩
  let (s, one) ← M.rows.add (.kind (.constant (scalar 1))) []
  let (s, none_) ← s.add (.kind (.constant (scalar 0))) []
  let (s, total) ← bins.foldlM (binUsed one) (s, none_)
  Generated.minimize { M with rows := s } total

end Generators
end Verif
