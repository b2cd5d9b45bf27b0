/-
Vocabulary for reading a variable where it can only hold one value (C106).
-/
import Verif.Spec.Rewrite
import Verif.Spec.Scopes
import Verif.Spec.Analysis

namespace Btrd.Spec

/-- **an expression of variables, literals and operators**, with fields and indices, without calls and casts -/
def Simple : Expr → Prop
  | .ident _ | .int _ | .bool _ | .str _ => True
  | .paren e => Simple e
  | .field e _ => Simple e
  | .index e i => Simple e ∧ Simple i
  | .call _ _ => False
  | .bin _ l r => Simple l ∧ Simple r
  | .un _ e => Simple e
  | .cast _ _ => False

mutual
/-- **nothing in the statement assigns to the variable**, to a part of it, or loops with it -/
def Untouched (x : Str) : Stmt → Prop
  | .assign l _ => root l ≠ some x
  | .ite _ t f => UntouchedAll x t ∧ UntouchedAll x f
  | .while _ b => UntouchedAll x b
  | .for y _ b => y ≠ .ident x ∧ UntouchedAll x b
  | _ => True
/-- the same for all statements of a program -/
def UntouchedAll (x : Str) : List Stmt → Prop
  | [] => True
  | s :: p => Untouched x s ∧ UntouchedAll x p
end

/-- `x` is read in the first, and what was assigned to it stands in its place in the second -/
def Reading (x : Str) (c : Expr) (e e' : Expr) : Prop := e = .ident x ∧ e' = c

end Btrd.Spec
