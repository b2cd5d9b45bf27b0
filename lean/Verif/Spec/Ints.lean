/-
All the integers inside a value, and all the integer literals of a program.
-/
import Verif.Model.Value
import Verif.Model.Ast

namespace Btrd.Spec

mutual
/-- every integer in the value, at any depth, satisfies `P` (disk keys included) -/
def AllInts (P : Int → Prop) : Value → Prop
  | .int i => P i
  | .str _ | .bool _ | .func _ => True
  | .array vs _ => AllIntsL P vs
  | .struct _ k fs => (∀ a b c, k = some (a, b, c) → P a ∧ P b ∧ P c) ∧ AllIntsF P fs
def AllIntsL (P : Int → Prop) : List Value → Prop
  | [] => True
  | v :: vs => AllInts P v ∧ AllIntsL P vs
def AllIntsF (P : Int → Prop) : List (Str × Value) → Prop
  | [] => True
  | (_, v) :: fs => AllInts P v ∧ AllIntsF P fs
end

end Btrd.Spec

namespace Btrd

mutual
/-- the integer literals of an expression -/
def Expr.literals : Expr → List Int
  | .int i => [i]
  | .ident _ | .bool _ | .str _ => []
  | .paren e => e.literals
  | .field e _ => e.literals
  | .index e i => e.literals ++ i.literals
  | .call f args => f.literals ++ literalsL args
  | .bin _ l r => l.literals ++ r.literals
  | .un _ e => e.literals
  | .cast _ e => e.literals
def literalsL : List Expr → List Int
  | [] => []
  | e :: es => e.literals ++ literalsL es
end

end Btrd
