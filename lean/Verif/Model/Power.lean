import Verif.Model.Build

/-!
# Model of `ArraySymbol.__pow__` (/repo/dwave/optimization/_model.pyx 1231-1249)
-/

namespace Verif
namespace Draft

/-- The rest of a Python expression once a symbol has been made (or not). -/
def andThen (r : Draft × Res Unit) (s : Nat) : Draft × Res Nat :=
  match r with
  | (d, .ok _) => (d, .ok s)
  | (d, .throw) => (d, .throw)
  | (d, .ub) => (d, .ub)

/-- `out *= x`: `NaryMultiply.__imul__` (symbols.pyx 2318-2323) adds an operand in place, all other array
symbols make a new `NaryMultiply` (_model.pyx 1197-1204), here at the address `a`. -/
def imul (decl : Symbols → Graph → Nat → Claim) (d : Draft) (out x a : Nat) : Draft × Res Nat :=
  match d.S.kind out with
  | .nary .multiply => andThen (d.perform decl (.addOperand out x)) out
  | _ => andThen (d.perform decl (.construct a (.nary .multiply) [out, x])) a

/-- The loop `for symbol in expanded: out *= symbol`, _model.pyx 1246-1247. -/
def powLoop (decl : Symbols → Graph → Nat → Claim) (x a : Nat) : Nat → Draft → Nat → Draft × Res Nat
  | 0, d, out => (d, .ok out)
  | n + 1, d, out =>
    match imul decl d out x a with
    | (d, .ok out) => powLoop decl x a n d out
    | (d, .throw) => (d, .throw)
    | (d, .ub) => (d, .ub)

/-- `x ** n`, _model.pyx 1231-1249, for an integer exponent (in the range of `Py_ssize_t`).  The model
afterwards and the resulting symbol; a new symbol is made at the unused address `a`. -/
def pow (decl : Symbols → Graph → Nat → Claim) (d : Draft) (x a : Nat) (n : Int) : Draft × Res Nat :=
  if n = 2 then andThen (d.perform decl (.construct a (.unary .square) [x])) a
  else if 0 < n then powLoop decl x a (n.toNat - 1) d x
  else (d, .throw)

end Draft
end Verif
