/-
Vocabulary for programs entered in pieces (C93).
-/
import Verif.Model.Ast

namespace Btrd.Spec

mutual
/-- no statement, not even in a block, is a bare expression: those show their value at the prompt, but not in a script -/
def ShowsNothing : Stmt → Prop
  | .expr _ => False
  | .ite _ t f => ShowNothing t ∧ ShowNothing f
  | .while _ b => ShowNothing b
  | .for _ _ b => ShowNothing b
  | _ => True
def ShowNothing : List Stmt → Prop
  | [] => True
  | s :: ss => ShowsNothing s ∧ ShowNothing ss
end

end Btrd.Spec
