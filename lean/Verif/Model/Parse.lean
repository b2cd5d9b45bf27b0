/-
Model of `src/lang/parse.rs`.

Recursion: the Rust grammar is recursive through `call(expr)` and `call(stmts)`. Here the rules of the
ladder take the parser for nested expressions (statements) as a parameter and the knot is tied with a
nesting bound; `parse` uses a bound one larger than the input, and `Lemmas/ParserFuel` proves that any
larger bound gives the same result, because each nested call reads a strictly shorter input.
-/
import Verif.Model.Pom
import Verif.Model.Ast

namespace Btrd

open P

/-- the characters of `space()` (parse.rs:81) -/
def isSpaceChar (c : Char) : Bool := c == ' ' || c == '\t' || c == '\r' || c == '\n'

/-- `space` (parse.rs:80-82) -/
def space : P Unit := map (fun _ => ()) (many (isA isSpaceChar))

/-- `special_char` (parse.rs:85-92) -/
def specialChar : P Char :=
  alt (sym '\\') <| alt (sym '/') <| alt (sym '"') <|
  alt (map (fun _ => '\x08') (sym 'b')) <| alt (map (fun _ => '\x0C') (sym 'f')) <|
  alt (map (fun _ => '\n') (sym 'n')) <| alt (map (fun _ => '\r') (sym 'r'))
    (map (fun _ => '\t') (sym 't'))

/-- `escape_sequence` (parse.rs:93) -/
def escapeSequence : P Char := seqR (sym '\\') specialChar

/-- `char_string` (parse.rs:94-96) -/
def charString : P Str :=
  many1 (alt (isA (fun c => !(c == '\\' || c == '"'))) escapeSequence)

/-- value of a hexadecimal digit; `c.is_digit(16)` (parse.rs:98) accepts exactly these -/
def hexVal (c : Char) : Option Nat :=
  if '0' ≤ c ∧ c ≤ '9' then some (c.toNat - '0'.toNat)
  else if 'a' ≤ c ∧ c ≤ 'f' then some (c.toNat - 'a'.toNat + 10)
  else if 'A' ≤ c ∧ c ≤ 'F' then some (c.toNat - 'A'.toNat + 10)
  else none

/-- `u16::from_str_radix(&digits, 16)` (parse.rs:101), on a string of hexadecimal digits -/
def fromHex (ds : Str) : Option Nat :=
  let v := ds.foldl (fun acc c => acc * 16 + (hexVal c).getD 0) 0
  if v < 65536 then some v else none

/-- `utf16_char` (parse.rs:97-101) -/
def utf16Char : P Nat :=
  seqR (tag s!' "\\u") (convert fromHex (times 4 (isA (fun c => (hexVal c).isSome))))

/-- `decode_utf16(..).map(|r| r.unwrap_or(REPLACEMENT_CHARACTER))` (parse.rs:102-106): surrogate pairs
are combined, an unpaired surrogate becomes U+FFFD. -/
def decodeUtf16 : List Nat → Str
  | [] => []
  | u :: us =>
    if u < 0xD800 ∨ 0xDFFF < u then Char.ofNat u :: decodeUtf16 us
    else if 0xDC00 ≤ u then Char.ofNat 0xFFFD :: decodeUtf16 us
    else
      match us with
      | [] => [Char.ofNat 0xFFFD]
      | v :: vs =>
        if v < 0xDC00 ∨ 0xDFFF < v then Char.ofNat 0xFFFD :: decodeUtf16 (v :: vs)
        else Char.ofNat ((u - 0xD800) * 1024 + (v - 0xDC00) + 0x10000) :: decodeUtf16 vs

/-- `utf16_string` (parse.rs:102-106) -/
def utf16String : P Str := map decodeUtf16 (many1 utf16Char)

/-- `string` (parse.rs:84-112), before wrapping in an expression -/
def stringLit : P Str :=
  map List.flatten (seqL (seqR (sym '"') (many (alt charString utf16String))) (sym '"'))

/-- `string` (parse.rs:84-112) -/
def string : P Expr := map Expr.str stringLit

/-- `one_of("0123456789")` (parse.rs:115) -/
def isDigitChar (c : Char) : Bool := '0' ≤ c && c ≤ '9'

/-- `integer` (parse.rs:115), with the matched text as result (the text is what `.collect()` returns at
parse.rs:117) -/
def integer : P Str :=
  alt (map (fun p => p.1 :: p.2) (seq (isA (fun c => isDigitChar c && c != '0')) (many (isA isDigitChar))))
    (map (fun c => [c]) (sym '0'))

/-- value of a string of decimal digits (`i128::from_str`, parse.rs:119) -/
def digitsVal (ds : Str) : Nat := ds.foldl (fun acc c => acc * 10 + (c.toNat - '0'.toNat)) 0

/-- `i128::from_str` (parse.rs:119) on an optional sign and digits -/
def i128FromParts (p : Option Char × Str) : Option Int :=
  let v : Int := if p.1.isSome then -(digitsVal p.2 : Int) else (digitsVal p.2 : Int)
  if inI128 v then some v else none

/-- `number` (parse.rs:116-119) -/
def number : P Int := convert i128FromParts (seq (opt (sym '-')) integer)

/-- `constant` (parse.rs:114-125) -/
def constant : P Expr :=
  alt (map Expr.int number) <|
  alt (map (fun _ => Expr.bool true) (tag s!' "true")) (map (fun _ => Expr.bool false) (tag s!' "false"))

/-- first character of an identifier (parse.rs:128): `is_ascii_alphabetic` or `_` -/
def isIdentStart (c : Char) : Bool := ('a' ≤ c && c ≤ 'z') || ('A' ≤ c && c ≤ 'Z') || c == '_'

/-- other characters of an identifier (parse.rs:129): `is_ascii_alphanumeric` or `_` -/
def isIdentChar (c : Char) : Bool := isIdentStart c || isDigitChar c

/-- `ident` (parse.rs:127-134) -/
def ident : P Expr :=
  map (fun p => Expr.ident (p.1 :: p.2)) (seq (isA isIdentStart) (many (isA isIdentChar)))

/-- `type_specifier` (parse.rs:136-138) -/
def typeSpecifier : P Expr := seqR (seqL (tag s!' "struct") space) ident

/-- `primary_expr` (parse.rs:140-145); `sub` is `call(expr)` -/
def primaryExpr (sub : P Expr) : P Expr :=
  alt constant <| alt ident <| alt string <|
    map Expr.paren (seqL (seqL (seqR (sym '(') sub) space) (sym ')'))

/-- `PostfixOp` (parse.rs:148-152) -/
inductive PostfixOp where
  | call (args : List Expr)
  | index (i : Expr)
  | field (f : Expr)

/-- one step of the fold of `postfix_expr` (parse.rs:165-177) -/
def applyPostfix (e : Expr) : PostfixOp → Expr
  | .call args => .call e args
  | .index i => .index e i
  | .field f => .field e f

/-- one postfix operator (parse.rs:154-157) -/
def postfixOp (sub : P Expr) : P PostfixOp :=
  alt (map PostfixOp.call (seqL (seqL (seqR (sym '(') (list sub (seqR space (sym ',')))) space) (sym ')'))) <|
  alt (map PostfixOp.index (seqL (seqL (seqR (sym '[') sub) space) (sym ']')))
    (map PostfixOp.field (seqR (sym '.') ident))

/-- `postfix_expr` (parse.rs:147-181) -/
def postfixExpr (sub : P Expr) : P Expr :=
  map (fun p => p.2.foldl applyPostfix p.1) (seq (primaryExpr sub) (many (seqR space (postfixOp sub))))

/-- `UnaryOp` (parse.rs:184-189) -/
inductive PrefixOp where
  | op (o : UnOp)
  | cast (ty : Expr)

/-- one step of the fold of `unary_expr` (parse.rs:201-217) -/
def applyPrefix (o : PrefixOp) (e : Expr) : Expr :=
  match o with
  | .op o => .un o e
  | .cast ty => .cast ty e

/-- `ops` of `unary_expr` (parse.rs:191-196) -/
def prefixOp : P PrefixOp :=
  alt (map (fun _ => .op .bitNot) (tag s!' "~")) <|
  alt (map (fun _ => .op .not) (tag s!' "!")) <|
  alt (map (fun _ => .op .minus) (tag s!' "-"))
    (map PrefixOp.cast (seqL (seqL (seqR (seqR (tag s!' "(") space) typeSpecifier) space) (tag s!' ")")))

/-- `unary_expr` (parse.rs:183-221) -/
def unaryExpr (sub : P Expr) : P Expr :=
  map (fun p => p.1.foldr applyPrefix p.2)
    (seq (seqL (many (seqL prefixOp space)) space) (postfixExpr sub))

/-- The shape shared by the left-associative levels: `left_fold_binop_multiop` over
`next + (space() * ops - space() + next).repeat(0..)` (parse.rs:40-78 and 223-336). -/
def binLevel (ops : P BinOp) (next : P Expr) : P Expr :=
  map (fun p => p.2.foldl (fun l q => Expr.bin q.1 l q.2) p.1)
    (seq next (many (seq (seqL (seqR space ops) space) next)))

/-- `tag(t)` standing for a binary operator (e.g. parse.rs:224 with 229-231) -/
def opTag (t : Str) (o : BinOp) : P BinOp := map (fun _ => o) (tag t)

/-- `mult_expr` (parse.rs:223-237) -/
def multExpr (sub : P Expr) : P Expr :=
  binLevel (alt (opTag s!' "*" .mul) <| alt (opTag s!' "/" .div) (opTag s!' "%" .mod)) (unaryExpr sub)

/-- `add_expr` (parse.rs:239-252) -/
def addExpr (sub : P Expr) : P Expr :=
  binLevel (alt (opTag s!' "+" .plus) (opTag s!' "-" .minus)) (multExpr sub)

/-- `shift_expr` (parse.rs:254-267) -/
def shiftExpr (sub : P Expr) : P Expr :=
  binLevel (alt (opTag s!' "<<" .shl) (opTag s!' ">>" .shr)) (addExpr sub)

/-- `relation_expr` (parse.rs:269-287) -/
def relationExpr (sub : P Expr) : P Expr :=
  binLevel (alt (opTag s!' "<=" .le) <| alt (opTag s!' "<" .lt) <| alt (opTag s!' ">=" .ge) (opTag s!' ">" .gt))
    (shiftExpr sub)

/-- `eq_expr` (parse.rs:290-311): at most one comparison -/
def eqExpr (sub : P Expr) : P Expr :=
  map (fun p => match p.2 with
      | some q => Expr.bin q.1 p.1 q.2
      | none => p.1)
    (seq (relationExpr sub)
      (opt (seq (seqL (seqR space (alt (opTag s!' "==" .eq) (opTag s!' "!=" .ne))) space) (relationExpr sub))))

/-- `bit_and_expr` (parse.rs:313-316) -/
def bitAndExpr (sub : P Expr) : P Expr := binLevel (map (fun _ => .band) (sym '&')) (eqExpr sub)

/-- `bit_xor_expr` (parse.rs:318-321) -/
def bitXorExpr (sub : P Expr) : P Expr := binLevel (map (fun _ => .bxor) (sym '^')) (bitAndExpr sub)

/-- `bit_or_expr` (parse.rs:323-326) -/
def bitOrExpr (sub : P Expr) : P Expr := binLevel (map (fun _ => .bor) (sym '|')) (bitXorExpr sub)

/-- `and_expr` (parse.rs:328-331) -/
def andExpr (sub : P Expr) : P Expr := binLevel (opTag s!' "&&" .land) (bitOrExpr sub)

/-- `or_expr` (parse.rs:333-336) -/
def orExpr (sub : P Expr) : P Expr := binLevel (opTag s!' "||" .lor) (andExpr sub)

/-- `expr` (parse.rs:341-343), with a bound on the nesting of `call(expr)` -/
def exprF : Nat → P Expr
  | 0 => fun _ => none
  | n + 1 => seqR space (orExpr (exprF n))

/-- `expr` (parse.rs:341-343) -/
def expr : P Expr := fun s => exprF (s.length + 1) s

/-- `assign_stmt` (parse.rs:345-362) -/
def assignStmt : P Stmt :=
  alt (map (fun p => Stmt.assign p.1 (.bin .plus p.1 p.2)) (seq (seqL (seqL expr space) (tag s!' "+=")) expr)) <|
  alt (map (fun p => Stmt.assign p.1 (.bin .minus p.1 p.2)) (seq (seqL (seqL expr space) (tag s!' "-=")) expr))
    (map (fun p => Stmt.assign p.1 p.2) (seq (seqL (seqL expr space) (sym '=')) expr))

/-- `if_else_stmt` (parse.rs:364-374); `sub` is `call(stmts)` -/
def ifElseStmt (sub : P (List Stmt)) : P Stmt :=
  map (fun p => Stmt.ite p.1.1 p.1.2 (p.2.getD []))
    (seq
      (seqL (seqL (seq (seqL (seqL (seqR (tag s!' "if") expr) space) (sym '{')) sub) space) (sym '}'))
      (opt (seqL (seqL (seqR (seqR (seqR (seqR space (tag s!' "else")) space) (sym '{')) sub) space) (sym '}'))))

/-- `while_stmt` (parse.rs:377-379) -/
def whileStmt (sub : P (List Stmt)) : P Stmt :=
  map (fun p => Stmt.while p.1 p.2)
    (seqL (seqL (seq (seqL (seqL (seqR (tag s!' "while") expr) space) (sym '{')) sub) space) (sym '}'))

/-- `for_stmt` (parse.rs:380-387) -/
def forStmt (sub : P (List Stmt)) : P Stmt :=
  map (fun p => Stmt.for p.1.1 p.1.2 p.2)
    (seqL (seqL
      (seq
        (seqL (seqL
          (seq (seqL (seqL (seqR (seqR (tag s!' "for") space) ident) space) (tag s!' "in")) expr)
          space) (sym '{'))
        sub) space) (sym '}'))

/-- `block_stmt` (parse.rs:376-390) -/
def blockStmt (sub : P (List Stmt)) : P Stmt := alt (ifElseStmt sub) (alt (whileStmt sub) (forStmt sub))

/-- `jump_stmt` (parse.rs:392-395) -/
def jumpStmt : P Stmt :=
  alt (map (fun _ => Stmt.brk) (tag s!' "break")) (map (fun _ => Stmt.cont) (tag s!' "continue"))

/-- `builtin_stmt` (parse.rs:397-406) -/
def builtinStmt : P Stmt :=
  alt (map Stmt.filesystem (seqR (seqR (tag s!' "filesystem") space) string)) <|
  alt (seqR (tag s!' "print") (map Stmt.print expr)) <|
  alt (map (fun _ => Stmt.help) (tag s!' "help")) (map (fun _ => Stmt.quit) (tag s!' "quit"))

/-- `expr_stmt` (parse.rs:408-410) -/
def exprStmt : P Stmt := map Stmt.expr expr

/-- `stmt_semicolon` (parse.rs:417-418) -/
def stmtSemicolon : P Stmt :=
  seqL (seqL (alt builtinStmt <| alt jumpStmt <| alt assignStmt exprStmt) space) (sym ';')

/-- `stmt` (parse.rs:415-421) -/
def stmt (sub : P (List Stmt)) : P Stmt :=
  seqL (seqR space (alt stmtSemicolon (blockStmt sub))) (many (seqR space (sym ';')))

/-- `stmts` (parse.rs:426-428), with a bound on the nesting of blocks -/
def stmtsF : Nat → P (List Stmt)
  | 0 => fun _ => none
  | n + 1 => many (stmt (stmtsF n))

/-- `stmts` (parse.rs:426-428) -/
def stmts : P (List Stmt) := fun s => stmtsF (s.length + 1) s

/-- `parse` (parse.rs:430-436) -/
def parse (input : Str) : Option (List Stmt) :=
  match seqL (seqL stmts space) eof input with
  | some (p, _) => some p
  | none => none

/-- The error of `parse` (parse.rs:430-436) for a text that is no program. Repetitions and blanks always succeed, so
it is that of `end()` (pom 3.2.0): the position of the first character that is left and this character. (The last
case does not arise, `C89_breaks_off`.) -/
def parseError (input : Str) : Err :=
  match seqL stmts space input with
  | some (_, c :: rest) => .parse (input.length - (rest.length + 1)) c
  | _ => .parse 0 ' '

end Btrd
