/-
Specification vocabulary for integers and operators (C22-C30). Nothing here mentions the evaluator.
-/
import Verif.Model.Ast
import Batteries.Data.List.Basic

namespace Btrd.Spec

/-- the range of a signed 128-bit integer -/
def Fits (x : Int) : Prop := -(2 ^ 127) ≤ x ∧ x < 2 ^ 127

instance (x : Int) : Decidable (Fits x) := by unfold Fits; infer_instance

/-- the `i`-th two's complement bit of an integer (`/` rounds down) -/
def twosBit (x : Int) (i : Nat) : Bool := decide (x / 2 ^ i % 2 = 1)

/-- `e'` is `e` with any number of subexpressions wrapped in parentheses (any number of times). The name
after `.` and the type of a cast are not subexpressions. -/
inductive Wrapped : Expr → Expr → Prop where
  | refl (e) : Wrapped e e
  | wrap {e e'} : Wrapped e e' → Wrapped e (.paren e')
  | paren {e e'} : Wrapped e e' → Wrapped (.paren e) (.paren e')
  | field {e e'} (f) : Wrapped e e' → Wrapped (.field e f) (.field e' f)
  | index {e e' i i'} : Wrapped e e' → Wrapped i i' → Wrapped (.index e i) (.index e' i')
  | call {f f' as as'} : Wrapped f f' → as.length = as'.length →
      (∀ i (h : i < as.length) (h' : i < as'.length), Wrapped as[i] as'[i]) →
      Wrapped (.call f as) (.call f' as')
  | bin (op) {l l' r r'} : Wrapped l l' → Wrapped r r' → Wrapped (.bin op l r) (.bin op l' r')
  | un (op) {e e'} : Wrapped e e' → Wrapped (.un op e) (.un op e')
  | cast (ty) {e e'} : Wrapped e e' → Wrapped (.cast ty e) (.cast ty e')

end Btrd.Spec
