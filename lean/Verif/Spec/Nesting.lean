/-
What C105 says of texts: how many brackets they have, and two families of texts that go as deep as one likes.
-/
import Verif.Model.Ast

namespace Btrd.Spec

/-- the brackets behind which the grammar expects expressions -/
def opensExpr (c : Char) : Bool := c == '(' || c == '['

/-- the bracket behind which the grammar expects statements -/
def opensBlock (c : Char) : Bool := c == '{'

/-- how many round and square brackets are opened in the text -/
def bracketsIn (s : Str) : Nat := s.countP opensExpr

/-- how many blocks are opened in the text -/
def blocksIn (s : Str) : Nat := s.countP opensBlock

/-- `n` brackets around the number 1: `((1))` -/
def nestedText (n : Nat) : Str := List.replicate n '(' ++ '1' :: List.replicate n ')'

/-- the expression this is -/
def nestedExpr : Nat → Expr
  | 0 => .int 1
  | n + 1 => .paren (nestedExpr n)

/-- `n` loops inside each other: `while 1{while 1{}}` -/
def nestedLoops : Nat → Str
  | 0 => []
  | n + 1 => s!' "while 1{" ++ nestedLoops n ++ s!' "}"

/-- the program this is -/
def nestedWhile : Nat → List Stmt
  | 0 => []
  | n + 1 => [.while (.int 1) (nestedWhile n)]

/-! ### how deep a tree nests -/

mutual
/-- how many brackets of an expression stand inside each other: around it, around an index, around arguments -/
def exprNest : Expr → Nat
  | .ident _ => 0
  | .int _ => 0
  | .bool _ => 0
  | .str _ => 0
  | .paren e => exprNest e + 1
  | .field e _ => exprNest e
  | .index e i => max (exprNest e) (exprNest i + 1)
  | .call f args => max (exprNest f) (argsNest args)
  | .bin _ l r => max (exprNest l) (exprNest r)
  | .un _ e => exprNest e
  | .cast _ e => exprNest e
/-- the same of arguments -/
def argsNest : List Expr → Nat
  | [] => 0
  | e :: es => max (exprNest e + 1) (argsNest es)
end

mutual
/-- the expressions of a statement -/
def stmtExprs : Stmt → List Expr
  | .assign l r => [l, r]
  | .ite c t f => c :: (progExprs t ++ progExprs f)
  | .while c b => c :: progExprs b
  | .for _ r b => r :: progExprs b
  | .print e => [e]
  | .expr e => [e]
  | .brk => []
  | .cont => []
  | .help => []
  | .quit => []
  | .filesystem _ => []
/-- the expressions of a program -/
def progExprs : List Stmt → List Expr
  | [] => []
  | s :: ss => stmtExprs s ++ progExprs ss
end

mutual
/-- how many blocks of a statement stand inside each other -/
def stmtNest : Stmt → Nat
  | .ite _ t f => max (progNest t) (progNest f) + 1
  | .while _ b => progNest b + 1
  | .for _ _ b => progNest b + 1
  | .assign _ _ => 0
  | .print _ => 0
  | .expr _ => 0
  | .brk => 0
  | .cont => 0
  | .help => 0
  | .quit => 0
  | .filesystem _ => 0
/-- how many blocks of a program stand inside each other -/
def progNest : List Stmt → Nat
  | [] => 0
  | s :: ss => max (stmtNest s) (progNest ss)
end

end Btrd.Spec
