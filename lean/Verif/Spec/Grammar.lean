/-
Specification of the written form of programs (C05-C09, C11, C12), independent of the parser: the tokens
of expressions and statements, the precedence ladder, and how tokens may be spaced.
-/
import Verif.Model.Ast

namespace Btrd.Spec

/-! ### words -/

/-- an ASCII letter or an underscore -/
def Letter (c : Char) : Prop := ('a' ≤ c ∧ c ≤ 'z') ∨ ('A' ≤ c ∧ c ≤ 'Z') ∨ c = '_'

/-- an ASCII letter, an underscore or a decimal digit -/
def WordChar (c : Char) : Prop := Letter c ∨ ('0' ≤ c ∧ c ≤ '9')

/-- an identifier: a letter, then letters and digits -/
def Name (x : Str) : Prop := ∃ c cs, x = c :: cs ∧ Letter c ∧ ∀ d ∈ cs, WordChar d

/-- space, tab, carriage return or line feed -/
def Blank (w : Str) : Prop := ∀ c ∈ w, c = ' ' ∨ c = '\t' ∨ c = '\r' ∨ c = '\n'

/-- how a character is written inside a string literal -/
def quotedChar (c : Char) : Str :=
  if c = '"' then ['\\', '"']
  else if c = '\\' then ['\\', '\\']
  else if c = '\n' then ['\\', 'n']
  else if c = '\r' then ['\\', 'r']
  else if c = '\t' then ['\\', 't']
  else if c.toNat = 8 then ['\\', 'b']
  else if c.toNat = 12 then ['\\', 'f']
  else [c]

/-- a text as a string literal -/
def quoted (s : Str) : Str := ['"'] ++ s.flatMap quotedChar ++ ['"']

/-! ### literals -/

/-- a decimal numeral without leading zeros -/
def Numeral (ds : Str) : Prop := ds ≠ [] ∧ (∀ c ∈ ds, '0' ≤ c ∧ c ≤ '9') ∧ (ds.head? = some '0' → ds = ['0'])

/-- the number a string of decimal digits denotes: every digit counts for its power of ten -/
def decimal : Str → Nat
  | [] => 0
  | c :: cs => (c.toNat - 48) * 10 ^ cs.length + decimal cs

/-- the hexadecimal digit `c` stands for the number `d` -/
def HexDigit (d : Nat) (c : Char) : Prop :=
  (d < 10 ∧ c.toNat = 48 + d) ∨ (10 ≤ d ∧ d < 16 ∧ (c.toNat = 87 + d ∨ c.toNat = 55 + d))

/-- `\u` and four hexadecimal digits -/
def UnitText (u : Nat) (t : Str) : Prop := ∃ d₁ d₂ d₃ d₄ c₁ c₂ c₃ c₄,
  HexDigit d₁ c₁ ∧ HexDigit d₂ c₂ ∧ HexDigit d₃ c₃ ∧ HexDigit d₄ c₄ ∧
  u = d₁ * 4096 + d₂ * 256 + d₃ * 16 + d₄ ∧ t = ['\\', 'u', c₁, c₂, c₃, c₄]

/-- UTF-16: one unit for a code point below 0x10000, a pair of surrogates for any other -/
def utf16 (c : Char) : List Nat :=
  if c.toNat < 0x10000 then [c.toNat]
  else [0xD800 + (c.toNat - 0x10000) / 1024, 0xDC00 + (c.toNat - 0x10000) % 1024]

/-- The ways to write a character in a string literal. -/
inductive Spelling : Char → Str → Prop
  | raw (c : Char) : c ≠ '"' → c ≠ '\\' → Spelling c [c]
  | escape (e c : Char) : (e, c) ∈ [('\\', '\\'), ('/', '/'), ('"', '"'), ('b', Char.ofNat 8), ('f', Char.ofNat 12),
      ('n', '\n'), ('r', '\r'), ('t', '\t')] → Spelling c ['\\', e]
  | unit (c : Char) (u : Nat) (t : Str) : utf16 c = [u] → UnitText u t → Spelling c t
  | pair (c : Char) (u v : Nat) (t t' : Str) : utf16 c = [u, v] → UnitText u t → UnitText v t' → Spelling c (t ++ t')

/-- the ways to write a text, one spelling for each character -/
inductive Spelled : Str → Str → Prop
  | nil : Spelled [] []
  | cons (c : Char) (s sp t : Str) : Spelling c sp → Spelled s t → Spelled (c :: s) (sp ++ t)

/-! ### expressions -/

/-- how an infix operator is written -/
def opText : BinOp → Str
  | .plus => ['+'] | .minus => ['-'] | .mul => ['*'] | .div => ['/'] | .mod => ['%']
  | .eq => ['=', '='] | .ne => ['!', '=']
  | .land => ['&', '&'] | .lor => ['|', '|']
  | .bor => ['|'] | .band => ['&'] | .bxor => ['^']
  | .shl => ['<', '<'] | .shr => ['>', '>']
  | .lt => ['<'] | .le => ['<', '='] | .gt => ['>'] | .ge => ['>', '=']

/-- how a prefix operator is written -/
def unText : UnOp → Str
  | .bitNot => ['~'] | .not => ['!'] | .minus => ['-']

/-- The precedence ladder, tightest first: postfix operators (1) and prefix operators and casts (2) bind
tighter than all infix operators, which are ordered as in C. -/
def opLevel : BinOp → Nat
  | .mul => 3 | .div => 3 | .mod => 3
  | .plus => 4 | .minus => 4
  | .shl => 5 | .shr => 5
  | .lt => 6 | .le => 6 | .gt => 6 | .ge => 6
  | .eq => 7 | .ne => 7
  | .band => 8
  | .bxor => 9
  | .bor => 10
  | .land => 11
  | .lor => 12

/-- the level of the outermost operator of an expression -/
def level : Expr → Nat
  | .ident _ => 0 | .int _ => 0 | .bool _ => 0 | .str _ => 0 | .paren _ => 0
  | .field _ _ => 1 | .index _ _ => 1 | .call _ _ => 1
  | .un _ _ => 2 | .cast _ _ => 2
  | .bin op _ _ => opLevel op

/-- the loosest operand allowed to the left of an operator: infix operators are left associative, except
that comparisons for equality do not chain -/
def leftLevel : BinOp → Nat
  | .eq => 6 | .ne => 6
  | op => opLevel op

mutual
/-- Trees that respect the ladder: an operand binds tighter than its operator or stands in parentheses;
integers are non-negative and fit 128 bits (a leading minus is a prefix operator); identifiers do not
begin with `true` or `false`, and a parenthesis does not hold just an identifier that begins with `struct`
and a letter (it would be read as a cast). -/
def Ladder : Expr → Prop
  | .ident x => Name x ∧ ¬ s!' "true" <+: x ∧ ¬ s!' "false" <+: x
  | .int i => 0 ≤ i ∧ i < 2 ^ 127
  | .bool _ => True
  | .str _ => True
  | .paren e => Ladder e ∧ ∀ c cs, e = .ident (s!' "struct" ++ c :: cs) → ¬ Letter c
  | .field e f => level e ≤ 1 ∧ Ladder e ∧ ∃ x, f = .ident x ∧ Name x
  | .index e i => level e ≤ 1 ∧ Ladder e ∧ Ladder i
  | .call f args => level f ≤ 1 ∧ Ladder f ∧ LadderArgs args
  | .bin op l r => level l ≤ leftLevel op ∧ level r < opLevel op ∧ Ladder l ∧ Ladder r
  | .un _ e => level e ≤ 2 ∧ Ladder e
  | .cast ty e => level e ≤ 2 ∧ Ladder e ∧ ∃ x, ty = .ident x ∧ Name x
def LadderArgs : List Expr → Prop
  | [] => True
  | e :: es => Ladder e ∧ LadderArgs es
end

/-- the name in an identifier -/
def nameOf : Expr → Str
  | .ident x => x
  | _ => []

mutual
/-- the tokens of an expression; `.` and the name of the field are one token -/
def tokens : Expr → List Str
  | .ident x => [x]
  | .int i => [Nat.toDigits 10 i.natAbs]
  | .bool b => [if b then s!' "true" else s!' "false"]
  | .str s => [quoted s]
  | .paren e => ['('] :: (tokens e ++ [[')']])
  | .field e f => tokens e ++ [['.'] ++ nameOf f]
  | .index e i => tokens e ++ ['['] :: (tokens i ++ [[']']])
  | .call f args => tokens f ++ ['('] :: (argTokens args ++ [[')']])
  | .bin op l r => tokens l ++ opText op :: tokens r
  | .un op e => unText op :: tokens e
  | .cast ty e => ['('] :: s!' "struct" :: nameOf ty :: [')'] :: tokens e
/-- arguments separated by commas -/
def argTokens : List Expr → List Str
  | [] => []
  | [e] => tokens e
  | e :: es => tokens e ++ [','] :: argTokens es
end

/-! ### spacing -/

/-- two tokens that would run together -/
def Glue (t t' : Str) : Prop := (∃ c, t.getLast? = some c ∧ WordChar c) ∧ ∃ c, t'.head? = some c ∧ WordChar c

/-- Text made of the tokens in order, with any blanks between two of them, and at least one blank between
two words. -/
inductive Spaced : List Str → Str → Prop
  | nil : Spaced [] []
  | one (t : Str) : Spaced [t] t
  | cons (t w t' : Str) (ts : List Str) (rest : Str) : Blank w → (w = [] → ¬ Glue t t') →
      Spaced (t' :: ts) rest → Spaced (t :: t' :: ts) (t ++ w ++ rest)

/-- the tokens on one line, with one blank between any two -/
def oneLine : List Str → Str
  | [] => []
  | [t] => t
  | t :: ts => t ++ [' '] ++ oneLine ts

/-! ### programs -/

/-- words that the grammar of statements takes from the beginning of a statement, wherever the word ends -/
def StartsReserved (x : Str) : Prop :=
  ∃ k ∈ [s!' "print", s!' "help", s!' "quit", s!' "break", s!' "continue"], k <+: x

/-- the expression does not begin with such a word -/
def PlainStart (e : Expr) : Prop := ∀ t ts, tokens e = t :: ts → ¬ StartsReserved t

mutual
/-- The tokens of a statement: every way it can be written. A statement may be followed by extra
semicolons, an empty `else` may be left out, and `l += e`, `l -= e` stand for `l = l + e`, `l = l - e`. -/
inductive StmtText : Stmt → List Str → Prop
  | assign (l r : Expr) : Ladder l → Ladder r → PlainStart l →
      StmtText (.assign l r) (tokens l ++ s!' "=" :: (tokens r ++ [s!' ";"]))
  | plusEq (l r : Expr) : Ladder l → Ladder r → PlainStart l →
      StmtText (.assign l (.bin .plus l r)) (tokens l ++ s!' "+=" :: (tokens r ++ [s!' ";"]))
  | minusEq (l r : Expr) : Ladder l → Ladder r → PlainStart l →
      StmtText (.assign l (.bin .minus l r)) (tokens l ++ s!' "-=" :: (tokens r ++ [s!' ";"]))
  | ite (c : Expr) (t : List Stmt) (tt : List Str) : Ladder c → ProgText t tt →
      StmtText (.ite c t []) (s!' "if" :: (tokens c ++ s!' "{" :: (tt ++ [s!' "}"])))
  | iteElse (c : Expr) (t f : List Stmt) (tt ft : List Str) : Ladder c → ProgText t tt → ProgText f ft →
      StmtText (.ite c t f) (s!' "if" :: (tokens c ++ s!' "{" :: (tt ++ s!' "}" :: s!' "else" :: s!' "{" ::
        (ft ++ [s!' "}"]))))
  | while (c : Expr) (b : List Stmt) (bt : List Str) : Ladder c → ProgText b bt →
      StmtText (.while c b) (s!' "while" :: (tokens c ++ s!' "{" :: (bt ++ [s!' "}"])))
  | for (x : Str) (r : Expr) (b : List Stmt) (bt : List Str) : Name x → Ladder r → ProgText b bt →
      StmtText (.for (.ident x) r b)
        (s!' "for" :: x :: s!' "in" :: (tokens r ++ s!' "{" :: (bt ++ [s!' "}"])))
  | brk : StmtText .brk [s!' "break", s!' ";"]
  | cont : StmtText .cont [s!' "continue", s!' ";"]
  | help : StmtText .help [s!' "help", s!' ";"]
  | quit : StmtText .quit [s!' "quit", s!' ";"]
  | filesystem (s : Str) : StmtText (.filesystem (.str s)) [s!' "filesystem", quoted s, s!' ";"]
  | print (e : Expr) : Ladder e → StmtText (.print e) (s!' "print" :: (tokens e ++ [s!' ";"]))
  | expr (e : Expr) : Ladder e → PlainStart e → StmtText (.expr e) (tokens e ++ [s!' ";"])
  | semi (s : Stmt) (ts : List Str) : StmtText s ts → StmtText s (ts ++ [s!' ";"])
inductive ProgText : List Stmt → List Str → Prop
  | nil : ProgText [] []
  | cons (s : Stmt) (ss : List Stmt) (a b : List Str) : StmtText s a → ProgText ss b → ProgText (s :: ss) (a ++ b)
end

mutual
/-- the statements that can be written -/
def Writable : Stmt → Prop
  | .assign l r => Ladder l ∧ Ladder r ∧ PlainStart l
  | .ite c t f => Ladder c ∧ WritableAll t ∧ WritableAll f
  | .while c b => Ladder c ∧ WritableAll b
  | .for x r b => (∃ n, x = .ident n ∧ Name n) ∧ Ladder r ∧ WritableAll b
  | .filesystem e => ∃ s, e = .str s
  | .print e => Ladder e
  | .expr e => Ladder e ∧ PlainStart e
  | .brk => True
  | .cont => True
  | .help => True
  | .quit => True
def WritableAll : List Stmt → Prop
  | [] => True
  | s :: ss => Writable s ∧ WritableAll ss
end

mutual
/-- the plain way to write a statement -/
def stmtTokens : Stmt → List Str
  | .assign l r => tokens l ++ s!' "=" :: (tokens r ++ [s!' ";"])
  | .ite c t f => s!' "if" :: (tokens c ++ s!' "{" :: (progTokens t ++ s!' "}" :: s!' "else" :: s!' "{" ::
      (progTokens f ++ [s!' "}"])))
  | .while c b => s!' "while" :: (tokens c ++ s!' "{" :: (progTokens b ++ [s!' "}"]))
  | .for x r b => s!' "for" :: (tokens x ++ s!' "in" :: (tokens r ++ s!' "{" :: (progTokens b ++ [s!' "}"])))
  | .brk => [s!' "break", s!' ";"]
  | .cont => [s!' "continue", s!' ";"]
  | .help => [s!' "help", s!' ";"]
  | .quit => [s!' "quit", s!' ";"]
  | .filesystem e => s!' "filesystem" :: (tokens e ++ [s!' ";"])
  | .print e => s!' "print" :: (tokens e ++ [s!' ";"])
  | .expr e => tokens e ++ [s!' ";"]
def progTokens : List Stmt → List Str
  | [] => []
  | s :: ss => stmtTokens s ++ progTokens ss
end

end Btrd.Spec
