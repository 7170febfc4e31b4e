import Verif.Spec.Claim
import Verif.Model.Bounds
import Verif.Model.Constants
import Verif.Model.SizeInfo
import Verif.Model.Program

/-!
# What the symbols of a model declare about themselves

`min()`, `max()`, `integral()` and `sizeinfo()` of a symbol call those of its operands.  Here an assignment of
declarations to all symbols is required to satisfy the equations given by these calls (`Symbols.Declared`).
-/

namespace Verif
namespace Kind

/-- `min()`, `max()` and `integral()` of a symbol, from those of its operands (`ins`), `sizeinfo()` of the
first operand (`info`), what is known about its size after substitution (`known`), and its shape. -/
def claim (k : Kind) (ins : List Claim) (info : SizeInfo) (known : Res SizeKnown) (operand : List Int) :
    Res Claim :=
  match k, ins with
  | integer _ lo? hi?, _ =>                  -- numbers.cpp 76-80, numbers.hpp 125
    .ok ⟨⟨(lo?.getD 0 : Int), (hi?.getD 2000000000 : Int)⟩, true⟩
  | binaryVar _, _ => .ok ⟨⟨0, 1⟩, true⟩     -- numbers.hpp 141-142
  | collection n _ _, _ => .ok ⟨⟨0, n - 1⟩, true⟩    -- collections.hpp 42-45
  | disjointLists P _, _ => .ok ⟨⟨0, P - 1⟩, true⟩   -- of its outputs, collections.hpp 255-258
  | disjointBitSets _ _, _ => .ok ⟨⟨0, 1⟩, true⟩     -- of its outputs, collections.hpp 172-175
  | constant a, _ =>                         -- constants.cpp 36-110
    match statQuery a.data none .min, statQuery a.data none .max, statQuery a.data none .integral with
    | .ok (.num lo, _), .ok (.num hi, _), .ok (.bool b, _) => .ok ⟨⟨lo, hi⟩, b⟩
    | _, _, _ => .ub
  | output _, [c] => .ok c
  | unary op, [c] => do                      -- mathematical.cpp 1754-1871
    let lo ← op.min c.range
    let hi ← op.max c.range
    .ok ⟨⟨lo, hi⟩, op.integral c.integral⟩
  | binary op, [c, d] => do                  -- mathematical.cpp 121-257
    let lo ← op.min c.range d.range
    let hi ← op.max c.range d.range
    .ok ⟨⟨lo, hi⟩, op.integral c.integral d.integral⟩
  | nary op, cs => do                        -- mathematical.cpp 531-649
    let lo ← op.min (cs.map Claim.range)
    let hi ← op.max (cs.map Claim.range)
    .ok ⟨⟨lo, hi⟩, op.integral (cs.map Claim.integral)⟩
  | reduce op init, [c] => do                -- mathematical.cpp 1279-1472
    let n ← known
    .ok ⟨⟨op.min init n c.range, op.max init n c.range⟩, op.integral init c.integral⟩
  | fold op init, [c] =>                     -- mathematical.cpp 1279-1472
    .ok ⟨⟨op.rangeMin init c.range, op.rangeMax init c.range⟩, FoldOp.integral init c.integral⟩
  | partialSum axis init, [c] =>             -- mathematical.cpp 894-978
    .ok ⟨⟨partialSumMin init (operand.getD axis 0) c.range, partialSumMax init (operand.getD axis 0) c.range⟩,
      partialSumIntegral init c.integral⟩
  | reshape _, [_] => .ok ⟨.default, false⟩  -- array.hpp 784-790
  | size, [_] =>                             -- manipulation.cpp 249-265, manipulation.hpp 79
    .ok ⟨⟨((info.min.getD 0 : Int) : Rat), ((info.max.getD (2 ^ 63) : Int) : Rat)⟩, true⟩
  | where_, [_, c, d] =>                     -- flow.cpp 176-180
    .ok ⟨⟨whereMin c.range d.range, whereMax c.range d.range⟩, whereIntegral c.integral d.integral⟩
  | quadratic _ _, [_] => .ok ⟨.default, false⟩   -- array.hpp 784-790
  | _, _ => .ub

/-- The checks of the constructors that concern the operands' declared ranges, mathematical.cpp 44-50,
1714-1718. -/
def rangeChecks (k : Kind) (ins : List Claim) : Prop :=
  match k, ins with
  | unary op, [c] => op.accepts c.range
  | binary op, [_, d] => op.accepts d.range
  | _, _ => True

end Kind

namespace Symbols

/-- `sizeinfo()` of a symbol: `Array::sizeinfo` (array.hpp 779), `BinaryOpNode::sizeinfo` (mathematical.cpp
398-420), `CollectionNode::sizeinfo` (collections.cpp 212-217) and `DisjointListNode::sizeinfo`
(collections.cpp 737-741). -/
def sizeInfo (S : Symbols) (g : Graph) (v : Nat) : SizeInfo :=
  if dynamicShape (Kind.shape1 (S.shapes v)) then
    match S.kind v, (g.mem v).preds with
    | .binary _, [l, r] =>
      if dynamicShape (Kind.shape1 (S.shapes l)) then .of l none none else .of r none none
    | .collection _ lo hi, _ => .of v (some lo) (some hi)
    | .output _, [p] => (match S.kind p with
      | .disjointLists P _ => .of v (some 0) (some P)
      | _ => .of v none none)
    | _, _ => .of v none none
  else .fixed (Kind.shape1 (S.shapes v)).prod

/-- What reductions find out about the size of an operand, mathematical.cpp 1355-1365, 1442-1452.  (They do
not look at the size if the bound of the elements is zero.) -/
def sizeKnown (S : Symbols) (g : Graph) (p : Nat) : Res SizeKnown :=
  if dynamicShape (Kind.shape1 (S.shapes p)) then do
    let t ← (S.sizeInfo g p).substitute (S.sizeInfo g) 100
    .ok t.known
  else .ok (.fixed (Kind.shape1 (S.shapes p)).prod.toNat)

/-- What a symbol declares if its operands declare `claim`. -/
def claimOf (S : Symbols) (g : Graph) (claim : Nat → Claim) (v : Nat) : Res Claim :=
  (S.kind v).claim ((g.mem v).preds.map claim) (S.sizeInfo g ((g.mem v).preds.headD 0))
    (S.sizeKnown g ((g.mem v).preds.headD 0)) (Kind.shape1 (S.shapes ((g.mem v).preds.headD 0)))

/-- All symbols declare what they answer; their constructors' checks of ranges hold for their present
operands. -/
structure Declared (S : Symbols) (g : Graph) (claim : Nat → Claim) : Prop where
  answers : ∀ v ∈ g.nodes, S.claimOf g claim v = .ok (claim v)
  checked : ∀ v ∈ g.nodes, (S.kind v).rangeChecks ((g.mem v).preds.map claim)

end Symbols
end Verif
