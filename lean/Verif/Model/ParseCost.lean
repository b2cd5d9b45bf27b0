/-
How much work parsing is: the combinators of `Model/Pom` and the rules of `Model/Parse` once more, each with the number
of characters (or ends of the text) it looks at, counted as often as it does so. The results are those of `Model/Parse`
(`Lemmas/ParseCost`).
-/
import Verif.Model.Parse

namespace Btrd.PC
open Btrd (hexVal fromHex decodeUtf16 isDigitChar digitsVal i128FromParts isIdentStart isIdentChar PostfixOp applyPostfix
  PrefixOp applyPrefix isSpaceChar)

/-- a result, and how often a character was looked at -/
abbrev Res (α : Type) := Option (α × Str) × Nat

/-- a parser that counts (`Parser<'a, char, T>`, parse.rs:80) -/
abbrev C (α : Type) := Str → Res α

variable {α β γ : Type}

/-- go on after a success -/
def Res.andThen (r : Res α) (k : α → Str → Res β) : Res β :=
  match r with
  | (some (a, s), n) => ((k a s).1, n + (k a s).2)
  | (none, n) => (none, n)

/-- go on after a failure -/
def Res.orElse (r : Res α) (k : Unit → Res α) : Res α :=
  match r with
  | (some x, n) => (some x, n)
  | (none, n) => ((k ()).1, n + (k ()).2)

/-- pom `sym` / `one_of` / `none_of` / `is_a` (parse.rs:81, 85-94, 115, 128): one look -/
def isA (f : Char → Bool) : C Char
  | [] => (none, 1)
  | c :: cs => if f c then (some (c, cs), 1) else (none, 1)

/-- pom `sym` (e.g. parse.rs:85) -/
def sym (c : Char) : C Char := isA (· == c)

/-- pom `tag` (e.g. parse.rs:121): one look for each character compared -/
def tag : Str → C Unit
  | [], s => (some ((), s), 0)
  | _ :: _, [] => (none, 1)
  | t :: ts, c :: cs => if c = t then ((tag ts cs).1, (tag ts cs).2 + 1) else (none, 1)

/-- pom `p.map(f)` (e.g. parse.rs:120) -/
def map (f : α → β) (p : C α) : C β := fun s => (p s).andThen fun a s' => (some (f a, s'), 0)

/-- pom `p + q` (e.g. parse.rs:116) -/
def seq (p : C α) (q : C β) : C (α × β) := fun s =>
  (p s).andThen fun a s' => (q s').andThen fun b s'' => (some ((a, b), s''), 0)

/-- pom `p * q` (e.g. parse.rs:93) -/
def seqR (p : C α) (q : C β) : C β := fun s => (p s).andThen fun _ s' => q s'

/-- pom `p - q` (e.g. parse.rs:115) -/
def seqL (p : C α) (q : C β) : C α := fun s =>
  (p s).andThen fun a s' => (q s').andThen fun _ s'' => (some (a, s''), 0)

/-- pom `p | q` (e.g. parse.rs:144) -/
def alt (p q : C α) : C α := fun s => (p s).orElse fun _ => q s

/-- pom `p.opt()` (parse.rs:116, 292, 367) -/
def opt (p : C α) : C (Option α) := fun s =>
  ((p s).andThen fun a s' => (some (some a, s'), 0)).orElse fun _ => (some (none, s), 0)

/-- pom `p.convert(f)` (parse.rs:101, 119) -/
def convert (f : α → Option β) (p : C α) : C β := fun s =>
  (p s).andThen fun a s' => match f a with
    | some b => (some (b, s'), 0)
    | none => (none, 0)

/-- pom `p.repeat(0..)` (e.g. parse.rs:81), bounded: at most `n` items; see `P.manyF` -/
def manyF : Nat → C α → C (List α)
  | 0, _, s => (some ([], s), 0)
  | n + 1, p, s =>
    match p s with
    | (some (a, s'), k) => (((manyF n p s').andThen fun as s'' => (some (a :: as, s''), 0)).1,
        k + ((manyF n p s').andThen fun as s'' => (some (a :: as, s''), 0)).2)
    | (none, k) => (some ([], s), k)

/-- pom `p.repeat(0..)`, see `P.many` -/
def many (p : C α) : C (List α) := fun s => manyF (s.length + 1) p s

/-- pom `p.repeat(1..)` (parse.rs:95, 102) -/
def many1 (p : C α) : C (List α) := fun s =>
  (many p s).andThen fun as s' => match as with
    | a :: as => (some (a :: as, s'), 0)
    | [] => (none, 0)

/-- pom `p.repeat(n)` (parse.rs:99) -/
def times : Nat → C α → C (List α)
  | 0, _, s => (some ([], s), 0)
  | n + 1, p, s => (p s).andThen fun a s' => (times n p s').andThen fun as s'' => (some (a :: as, s''), 0)

/-- pom `list(p, sep)` (parse.rs:154), see `P.list` -/
def list (p : C α) (sep : C β) : C (List α) := fun s =>
  match p s with
  | (some (a, s'), k) => (((many (seqR sep p) s').andThen fun as s'' => (some (a :: as, s''), 0)).1,
      k + ((many (seqR sep p) s').andThen fun as s'' => (some (a :: as, s''), 0)).2)
  | (none, k) => (some ([], s), k)

/-- pom `end()` (parse.rs:432) -/
def eof : C Unit
  | [] => (some ((), []), 1)
  | _ :: _ => (none, 1)

/-- `space` (parse.rs:80-82) -/
def space : C Unit := map (fun _ => ()) (many (isA isSpaceChar))

/-- `special_char` (parse.rs:85-92) -/
def specialChar : C Char :=
  alt (sym '\\') <| alt (sym '/') <| alt (sym '"') <|
  alt (map (fun _ => '\x08') (sym 'b')) <| alt (map (fun _ => '\x0C') (sym 'f')) <|
  alt (map (fun _ => '\n') (sym 'n')) <| alt (map (fun _ => '\r') (sym 'r'))
    (map (fun _ => '\t') (sym 't'))

/-- `escape_sequence` (parse.rs:93) -/
def escapeSequence : C Char := seqR (sym '\\') specialChar

/-- `char_string` (parse.rs:94-96) -/
def charString : C Str :=
  many1 (alt (isA (fun c => !(c == '\\' || c == '"'))) escapeSequence)

/-- `utf16_char` (parse.rs:97-101) -/
def utf16Char : C Nat :=
  seqR (tag s!' "\\u") (convert fromHex (times 4 (isA (fun c => (hexVal c).isSome))))

/-- `utf16_string` (parse.rs:102-106) -/
def utf16String : C Str := map decodeUtf16 (many1 utf16Char)

/-- `string` (parse.rs:84-112), before wrapping in an expression -/
def stringLit : C Str :=
  map List.flatten (seqL (seqR (sym '"') (many (alt charString utf16String))) (sym '"'))

/-- `string` (parse.rs:84-112) -/
def string : C Expr := map Expr.str stringLit

/-- `integer` (parse.rs:115), with the matched text as result (the text is what `.collect()` returns at
parse.rs:117) -/
def integer : C Str :=
  alt (map (fun p => p.1 :: p.2) (seq (isA (fun c => isDigitChar c && c != '0')) (many (isA isDigitChar))))
    (map (fun c => [c]) (sym '0'))

/-- `number` (parse.rs:116-119) -/
def number : C Int := convert i128FromParts (seq (opt (sym '-')) integer)

/-- `constant` (parse.rs:114-125) -/
def constant : C Expr :=
  alt (map Expr.int number) <|
  alt (map (fun _ => Expr.bool true) (tag s!' "true")) (map (fun _ => Expr.bool false) (tag s!' "false"))

/-- `ident` (parse.rs:127-134) -/
def ident : C Expr :=
  map (fun p => Expr.ident (p.1 :: p.2)) (seq (isA isIdentStart) (many (isA isIdentChar)))

/-- `type_specifier` (parse.rs:136-138) -/
def typeSpecifier : C Expr := seqR (seqL (tag s!' "struct") space) ident

/-- `primary_expr` (parse.rs:140-145); `sub` is `call(expr)` -/
def primaryExpr (sub : C Expr) : C Expr :=
  alt constant <| alt ident <| alt string <|
    map Expr.paren (seqL (seqL (seqR (sym '(') sub) space) (sym ')'))

/-- one postfix operator (parse.rs:154-157) -/
def postfixOp (sub : C Expr) : C PostfixOp :=
  alt (map PostfixOp.call (seqL (seqL (seqR (sym '(') (list sub (seqR space (sym ',')))) space) (sym ')'))) <|
  alt (map PostfixOp.index (seqL (seqL (seqR (sym '[') sub) space) (sym ']')))
    (map PostfixOp.field (seqR (sym '.') ident))

/-- `postfix_expr` (parse.rs:147-181) -/
def postfixExpr (sub : C Expr) : C Expr :=
  map (fun p => p.2.foldl applyPostfix p.1) (seq (primaryExpr sub) (many (seqR space (postfixOp sub))))

/-- `ops` of `unary_expr` (parse.rs:191-196) -/
def prefixOp : C PrefixOp :=
  alt (map (fun _ => .op .bitNot) (tag s!' "~")) <|
  alt (map (fun _ => .op .not) (tag s!' "!")) <|
  alt (map (fun _ => .op .minus) (tag s!' "-"))
    (map PrefixOp.cast (seqL (seqL (seqR (seqR (tag s!' "(") space) typeSpecifier) space) (tag s!' ")")))

/-- `unary_expr` (parse.rs:183-221) -/
def unaryExpr (sub : C Expr) : C Expr :=
  map (fun p => p.1.foldr applyPrefix p.2)
    (seq (seqL (many (seqL prefixOp space)) space) (postfixExpr sub))

/-- The shape shared by the left-associative levels: `left_fold_binop_multiop` over
`next + (space() * ops - space() + next).repeat(0..)` (parse.rs:40-78 and 223-336). -/
def binLevel (ops : C BinOp) (next : C Expr) : C Expr :=
  map (fun p => p.2.foldl (fun l q => Expr.bin q.1 l q.2) p.1)
    (seq next (many (seq (seqL (seqR space ops) space) next)))

/-- `tag(t)` standing for a binary operator (e.g. parse.rs:224 with 229-231) -/
def opTag (t : Str) (o : BinOp) : C BinOp := map (fun _ => o) (tag t)

/-- `mult_expr` (parse.rs:223-237) -/
def multExpr (sub : C Expr) : C Expr :=
  binLevel (alt (opTag s!' "*" .mul) <| alt (opTag s!' "/" .div) (opTag s!' "%" .mod)) (unaryExpr sub)

/-- `add_expr` (parse.rs:239-252) -/
def addExpr (sub : C Expr) : C Expr :=
  binLevel (alt (opTag s!' "+" .plus) (opTag s!' "-" .minus)) (multExpr sub)

/-- `shift_expr` (parse.rs:254-267) -/
def shiftExpr (sub : C Expr) : C Expr :=
  binLevel (alt (opTag s!' "<<" .shl) (opTag s!' ">>" .shr)) (addExpr sub)

/-- `relation_expr` (parse.rs:269-287) -/
def relationExpr (sub : C Expr) : C Expr :=
  binLevel (alt (opTag s!' "<=" .le) <| alt (opTag s!' "<" .lt) <| alt (opTag s!' ">=" .ge) (opTag s!' ">" .gt))
    (shiftExpr sub)

/-- `eq_expr` (parse.rs:290-311): at most one comparison -/
def eqExpr (sub : C Expr) : C Expr :=
  map (fun p => match p.2 with
      | some q => Expr.bin q.1 p.1 q.2
      | none => p.1)
    (seq (relationExpr sub)
      (opt (seq (seqL (seqR space (alt (opTag s!' "==" .eq) (opTag s!' "!=" .ne))) space) (relationExpr sub))))

/-- `bit_and_expr` (parse.rs:313-316) -/
def bitAndExpr (sub : C Expr) : C Expr := binLevel (map (fun _ => .band) (sym '&')) (eqExpr sub)

/-- `bit_xor_expr` (parse.rs:318-321) -/
def bitXorExpr (sub : C Expr) : C Expr := binLevel (map (fun _ => .bxor) (sym '^')) (bitAndExpr sub)

/-- `bit_or_expr` (parse.rs:323-326) -/
def bitOrExpr (sub : C Expr) : C Expr := binLevel (map (fun _ => .bor) (sym '|')) (bitXorExpr sub)

/-- `and_expr` (parse.rs:328-331) -/
def andExpr (sub : C Expr) : C Expr := binLevel (opTag s!' "&&" .land) (bitOrExpr sub)

/-- `or_expr` (parse.rs:333-336) -/
def orExpr (sub : C Expr) : C Expr := binLevel (opTag s!' "||" .lor) (andExpr sub)

/-- `expr` (parse.rs:341-343), with a bound on the nesting of `call(expr)` -/
def exprF : Nat → C Expr
  | 0 => fun _ => (none, 0)
  | n + 1 => seqR space (orExpr (exprF n))

/-- `expr` (parse.rs:341-343) -/
def expr : C Expr := fun s => exprF (s.length + 1) s

/-- `assign_stmt` (parse.rs:345-362) -/
def assignStmt : C Stmt :=
  alt (map (fun p => Stmt.assign p.1 (.bin .plus p.1 p.2)) (seq (seqL (seqL expr space) (tag s!' "+=")) expr)) <|
  alt (map (fun p => Stmt.assign p.1 (.bin .minus p.1 p.2)) (seq (seqL (seqL expr space) (tag s!' "-=")) expr))
    (map (fun p => Stmt.assign p.1 p.2) (seq (seqL (seqL expr space) (sym '=')) expr))

/-- `if_else_stmt` (parse.rs:364-374); `sub` is `call(stmts)` -/
def ifElseStmt (sub : C (List Stmt)) : C Stmt :=
  map (fun p => Stmt.ite p.1.1 p.1.2 (p.2.getD []))
    (seq
      (seqL (seqL (seq (seqL (seqL (seqR (tag s!' "if") expr) space) (sym '{')) sub) space) (sym '}'))
      (opt (seqL (seqL (seqR (seqR (seqR (seqR space (tag s!' "else")) space) (sym '{')) sub) space) (sym '}'))))

/-- `while_stmt` (parse.rs:377-379) -/
def whileStmt (sub : C (List Stmt)) : C Stmt :=
  map (fun p => Stmt.while p.1 p.2)
    (seqL (seqL (seq (seqL (seqL (seqR (tag s!' "while") expr) space) (sym '{')) sub) space) (sym '}'))

/-- `for_stmt` (parse.rs:380-387) -/
def forStmt (sub : C (List Stmt)) : C Stmt :=
  map (fun p => Stmt.for p.1.1 p.1.2 p.2)
    (seqL (seqL
      (seq
        (seqL (seqL
          (seq (seqL (seqL (seqR (seqR (tag s!' "for") space) ident) space) (tag s!' "in")) expr)
          space) (sym '{'))
        sub) space) (sym '}'))

/-- `block_stmt` (parse.rs:376-390) -/
def blockStmt (sub : C (List Stmt)) : C Stmt := alt (ifElseStmt sub) (alt (whileStmt sub) (forStmt sub))

/-- `jump_stmt` (parse.rs:392-395) -/
def jumpStmt : C Stmt :=
  alt (map (fun _ => Stmt.brk) (tag s!' "break")) (map (fun _ => Stmt.cont) (tag s!' "continue"))

/-- `builtin_stmt` (parse.rs:397-406) -/
def builtinStmt : C Stmt :=
  alt (map Stmt.filesystem (seqR (seqR (tag s!' "filesystem") space) string)) <|
  alt (seqR (tag s!' "print") (map Stmt.print expr)) <|
  alt (map (fun _ => Stmt.help) (tag s!' "help")) (map (fun _ => Stmt.quit) (tag s!' "quit"))

/-- `expr_stmt` (parse.rs:408-410) -/
def exprStmt : C Stmt := map Stmt.expr expr

/-- `stmt_semicolon` (parse.rs:417-418) -/
def stmtSemicolon : C Stmt :=
  seqL (seqL (alt builtinStmt <| alt jumpStmt <| alt assignStmt exprStmt) space) (sym ';')

/-- `stmt` (parse.rs:415-421) -/
def stmt (sub : C (List Stmt)) : C Stmt :=
  seqL (seqR space (alt stmtSemicolon (blockStmt sub))) (many (seqR space (sym ';')))

/-- `stmts` (parse.rs:426-428), with a bound on the nesting of blocks -/
def stmtsF : Nat → C (List Stmt)
  | 0 => fun _ => (none, 0)
  | n + 1 => many (stmt (stmtsF n))

/-- `stmts` (parse.rs:426-428) -/
def stmts : C (List Stmt) := fun s => stmtsF (s.length + 1) s

/-- how often `parse` (parse.rs:430-436) looks at a character of the text -/
def looks (input : Str) : Nat := (seqL (seqL stmts space) eof input).2

end Btrd.PC
