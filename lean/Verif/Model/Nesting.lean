/-
The grammar of `src/lang/parse.rs` with a limit on the nested calls. The rules are those of `Model/Parse`; only the two
places where a rule calls itself (`call(expr)`, parse.rs:145, 154-156, and `call(stmts)`, parse.rs:366-387) are changed:
a call at the limit is handed to a parser `deep` of which nothing is known. In the program such a call takes up stack
(pom's `call` runs the rule in a new frame), so the limit is what the stack has room for and `deep` is what happens
beyond.
-/
import Verif.Model.Parse

namespace Btrd
open P

/-- the parser that reads nothing: a call for which there is no room -/
def noRoom {α : Type} : P α := fun _ => none

/-- `expr` (parse.rs:341-343), of which at most `n` calls are open at the same time: the calls inside of those are
`deep` -/
def exprWith (deep : P Expr) : Nat → P Expr
  | 0 => deep
  | n + 1 => seqR space (orExpr (exprWith deep n))

/-- `assign_stmt` (parse.rs:345-362) with the parser for expressions as a parameter -/
def assignStmtE (e : P Expr) : P Stmt :=
  alt (map (fun p => Stmt.assign p.1 (.bin .plus p.1 p.2)) (seq (seqL (seqL e space) (tag s!' "+=")) e)) <|
  alt (map (fun p => Stmt.assign p.1 (.bin .minus p.1 p.2)) (seq (seqL (seqL e space) (tag s!' "-=")) e))
    (map (fun p => Stmt.assign p.1 p.2) (seq (seqL (seqL e space) (sym '=')) e))

/-- `if_else_stmt` (parse.rs:364-374) with the parser for expressions as a parameter -/
def ifElseStmtE (e : P Expr) (sub : P (List Stmt)) : P Stmt :=
  map (fun p => Stmt.ite p.1.1 p.1.2 (p.2.getD []))
    (seq
      (seqL (seqL (seq (seqL (seqL (seqR (tag s!' "if") e) space) (sym '{')) sub) space) (sym '}'))
      (opt (seqL (seqL (seqR (seqR (seqR (seqR space (tag s!' "else")) space) (sym '{')) sub) space) (sym '}'))))

/-- `while_stmt` (parse.rs:377-379) with the parser for expressions as a parameter -/
def whileStmtE (e : P Expr) (sub : P (List Stmt)) : P Stmt :=
  map (fun p => Stmt.while p.1 p.2)
    (seqL (seqL (seq (seqL (seqL (seqR (tag s!' "while") e) space) (sym '{')) sub) space) (sym '}'))

/-- `for_stmt` (parse.rs:380-387) with the parser for expressions as a parameter -/
def forStmtE (e : P Expr) (sub : P (List Stmt)) : P Stmt :=
  map (fun p => Stmt.for p.1.1 p.1.2 p.2)
    (seqL (seqL
      (seq
        (seqL (seqL
          (seq (seqL (seqL (seqR (seqR (tag s!' "for") space) ident) space) (tag s!' "in")) e)
          space) (sym '{'))
        sub) space) (sym '}'))

/-- `block_stmt` (parse.rs:376-390) with the parser for expressions as a parameter -/
def blockStmtE (e : P Expr) (sub : P (List Stmt)) : P Stmt :=
  alt (ifElseStmtE e sub) (alt (whileStmtE e sub) (forStmtE e sub))

/-- `builtin_stmt` (parse.rs:397-406) with the parser for expressions as a parameter -/
def builtinStmtE (e : P Expr) : P Stmt :=
  alt (map Stmt.filesystem (seqR (seqR (tag s!' "filesystem") space) string)) <|
  alt (seqR (tag s!' "print") (map Stmt.print e)) <|
  alt (map (fun _ => Stmt.help) (tag s!' "help")) (map (fun _ => Stmt.quit) (tag s!' "quit"))

/-- `stmt_semicolon` (parse.rs:417-418) with the parser for expressions as a parameter -/
def stmtSemicolonE (e : P Expr) : P Stmt :=
  seqL (seqL (alt (builtinStmtE e) <| alt jumpStmt <| alt (assignStmtE e) (map Stmt.expr e)) space) (sym ';')

/-- `stmt` (parse.rs:415-421) with the parser for expressions as a parameter -/
def stmtE (e : P Expr) (sub : P (List Stmt)) : P Stmt :=
  seqL (seqR space (alt (stmtSemicolonE e) (blockStmtE e sub))) (many (seqR space (sym ';')))

/-- `stmts` (parse.rs:426-428), of which at most `n` calls are open at the same time -/
def stmtsWith (e : P Expr) (deep : P (List Stmt)) : Nat → P (List Stmt)
  | 0 => deep
  | n + 1 => many (stmtE e (stmtsWith e deep n))

/-- `parse` (parse.rs:430-436) with at most `n` calls of `expr` inside each other, and at most `m` of `stmts` -/
def parseWith (deep : P Expr) (deepS : P (List Stmt)) (n m : Nat) (input : Str) : Option (List Stmt) :=
  match seqL (seqL (stmtsWith (exprWith deep n) deepS m) space) eof input with
  | some (p, _) => some p
  | none => none

end Btrd
