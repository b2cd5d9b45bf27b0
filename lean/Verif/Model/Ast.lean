/-
Model of `src/lang/ast.rs`.
-/
import Verif.Model.Base

namespace Btrd

/-- `BinaryExpression` operators (ast.rs:16-53) -/
inductive BinOp where
  | plus | minus | mul | div | mod
  | eq | ne
  | land | lor
  | bor | band | bxor
  | shl | shr
  | lt | le | gt | ge
deriving DecidableEq, Repr

/-- `UnaryExpression` operators other than the cast (ast.rs:4-13) -/
inductive UnOp where
  | bitNot | not | minus
deriving DecidableEq, Repr

/-- `Expression` and the enums it flattens: `PrimaryExpression`, `Constant`, `TypeSpecifier`,
`UnaryExpression`, `BinaryExpression` (ast.rs:4-94). The name of a field and the type of a cast are
full expressions in the Rust AST, and so they are here. -/
inductive Expr where
  | ident (name : Str)
  | int (i : Int)
  | bool (b : Bool)
  | str (s : Str)
  | paren (e : Expr)
  | field (e : Expr) (f : Expr)
  | index (e : Expr) (i : Expr)
  | call (f : Expr) (args : List Expr)
  | bin (op : BinOp) (l r : Expr)
  | un (op : UnOp) (e : Expr)
  | cast (ty : Expr) (e : Expr)
deriving Repr

/-- `Statement`, `BlockStatement`, `JumpStatement`, `BuiltinStatement` (ast.rs:96-138) -/
inductive Stmt where
  | assign (lhs rhs : Expr)
  | ite (cond : Expr) (tbody fbody : List Stmt)
  | while (cond : Expr) (body : List Stmt)
  | for (ident range : Expr) (body : List Stmt)
  | brk
  | cont
  | help
  | quit
  | filesystem (e : Expr)
  | print (e : Expr)
  | expr (e : Expr)
deriving Repr

end Btrd
