/-
Specification for C19: where a program reads a variable that only the analyzer takes for known.
-/
import Verif.Spec.Analysis

namespace Btrd.Spec

mutual
/-- Somewhere in the statement the variable `x` is read where the analyzer counts it as known although
nothing has assigned it yet: on the right-hand side of an assignment to `x`, in the range of a loop over
`x`, or in the `else` branch of an `if` whose first branch assigns `x`. -/
def Slips (x : Str) : Stmt → Prop
  | .assign l r => l = .ident x ∧ x ∈ r.uses
  | .ite _ t f => x ∈ gainsL t ∧ x ∈ readsL f ∨ SlipsL x t ∨ SlipsL x f
  | .while _ b => SlipsL x b
  | .for y r b => y = .ident x ∧ x ∈ r.uses ∨ SlipsL x b
  | .brk | .cont | .help | .quit | .filesystem _ | .print _ | .expr _ => False
/-- a sequence of statements with such a place -/
def SlipsL (x : Str) : List Stmt → Prop
  | [] => False
  | s :: ss => Slips x s ∨ SlipsL x ss
end

end Btrd.Spec
