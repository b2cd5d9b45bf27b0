/-
What `typeof()` calls the values (C77).
-/
import Verif.Model.Value

namespace Btrd.Spec

/-- the name of a value's type -/
inductive TypeName : Value → Str → Prop where
  | int (i) : TypeName (.int i) s!' "integer"
  | bool (b) : TypeName (.bool b) s!' "boolean"
  | str (s) : TypeName (.str s) s!' "string"
  | array (xs h) : TypeName (.array xs h) s!' "array"
  | func (f) : TypeName (.func f) s!' "function"
  | struct (n k fs) : TypeName (.struct n k fs) (s!' "struct " ++ n)

/-- values of the same type: integers, Booleans, strings, arrays, functions, structs of the same name -/
inductive SameType : Value → Value → Prop where
  | int (i j) : SameType (.int i) (.int j)
  | bool (a b) : SameType (.bool a) (.bool b)
  | str (s t) : SameType (.str s) (.str t)
  | array (xs h ys h') : SameType (.array xs h) (.array ys h')
  | func (f g) : SameType (.func f) (.func g)
  | struct (n k fs k' fs') : SameType (.struct n k fs) (.struct n k' fs')

end Btrd.Spec
