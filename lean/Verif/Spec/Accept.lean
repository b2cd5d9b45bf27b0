/-
Specification of what an accepted text is (C73, C74): the tokens of a program in any literal spelling, set
down in order with nothing but blanks around them.
-/
import Batteries.Data.List.Basic
import Verif.Spec.Grammar

namespace Btrd.Spec

/-- The text is the tokens in order; before, between and after them are only blanks. -/
inductive Loose : List Str → Str → Prop
  | nil (w : Str) : Blank w → Loose [] w
  | cons (w t : Str) (ts : List Str) (r : Str) : Blank w → Loose ts r → Loose (t :: ts) (w ++ (t ++ r))

/-! ### string literals -/

/-- Decoding of UTF-16: the units of a character stand for it, a surrogate without partner for U+FFFD. -/
inductive Decoded : List Nat → Str → Prop
  | nil : Decoded [] []
  | char (c : Char) (us : List Nat) (s : Str) : Decoded us s → Decoded (utf16 c ++ us) (c :: s)
  | low (u : Nat) (us : List Nat) (s : Str) : 0xDC00 ≤ u → u ≤ 0xDFFF → Decoded us s →
      Decoded (u :: us) (Char.ofNat 0xFFFD :: s)
  | high (u : Nat) (us : List Nat) (s : Str) : 0xD800 ≤ u → u ≤ 0xDBFF →
      (∀ v, us.head? = some v → ¬ (0xDC00 ≤ v ∧ v ≤ 0xDFFF)) → Decoded us s →
      Decoded (u :: us) (Char.ofNat 0xFFFD :: s)

/-- What may stand between the quotes of a string literal, and the text it denotes: raw characters other
than the quote and the backslash, the eight escapes, and runs of `\u` units decoded together. -/
inductive Body : Str → Str → Prop
  | nil : Body [] []
  | raw (c : Char) (s t : Str) : c ≠ '"' → c ≠ '\\' → Body s t → Body (c :: s) (c :: t)
  | escape (e c : Char) (s t : Str) : (e, c) ∈ [('\\', '\\'), ('/', '/'), ('"', '"'), ('b', Char.ofNat 8),
      ('f', Char.ofNat 12), ('n', '\n'), ('r', '\r'), ('t', '\t')] → Body s t → Body (c :: s) ('\\' :: e :: t)
  | units (us : List Nat) (xs : List Str) (cs s t : Str) : us ≠ [] → List.Forall₂ UnitText us xs → Decoded us cs →
      (∀ u x r, UnitText u x → t ≠ x ++ r) → Body s t → Body (cs ++ s) (xs.flatten ++ t)

/-- a string literal -/
def Literal (s t : Str) : Prop := ∃ b, Body s b ∧ t = '"' :: (b ++ ['"'])

/-! ### expressions and programs -/

mutual
/-- The tokens of an expression, with literals in any spelling. -/
inductive ExprText : Expr → List Str → Prop
  | ident (x : Str) : Name x → ExprText (.ident x) [x]
  | int (ds : Str) : Numeral ds → decimal ds < 2 ^ 127 → ExprText (.int (decimal ds)) [ds]
  | bool (b : Bool) : ExprText (.bool b) [if b then s!' "true" else s!' "false"]
  | str (s t : Str) : Literal s t → ExprText (.str s) [t]
  | paren (e : Expr) (ts : List Str) : ExprText e ts → ExprText (.paren e) (['('] :: (ts ++ [[')']]))
  | field (e : Expr) (ts : List Str) (x : Str) : ExprText e ts → Name x →
      ExprText (.field e (.ident x)) (ts ++ [['.'] ++ x])
  | index (e i : Expr) (ts us : List Str) : ExprText e ts → ExprText i us →
      ExprText (.index e i) (ts ++ ['['] :: (us ++ [[']']]))
  | call (f : Expr) (args : List Expr) (ts us : List Str) : ExprText f ts → ArgsText args us →
      ExprText (.call f args) (ts ++ ['('] :: (us ++ [[')']]))
  | bin (op : BinOp) (l r : Expr) (ts us : List Str) : ExprText l ts → ExprText r us →
      ExprText (.bin op l r) (ts ++ opText op :: us)
  | un (op : UnOp) (e : Expr) (ts : List Str) : ExprText e ts → ExprText (.un op e) (unText op :: ts)
  | cast (x : Str) (e : Expr) (ts : List Str) : Name x → ExprText e ts →
      ExprText (.cast (.ident x) e) (['('] :: s!' "struct" :: x :: [')'] :: ts)
inductive ArgsText : List Expr → List Str → Prop
  | nil : ArgsText [] []
  | one (e : Expr) (ts : List Str) : ExprText e ts → ArgsText [e] ts
  | cons (e e' : Expr) (es : List Expr) (ts us : List Str) : ExprText e ts → ArgsText (e' :: es) us →
      ArgsText (e :: e' :: es) (ts ++ [','] :: us)
end

/-- an expression that respects the ladder, and its tokens -/
def Written (e : Expr) (ts : List Str) : Prop := ExprText e ts ∧ Ladder e

mutual
/-- The tokens of a statement, with literals in any spelling. `v` says what the token of a loop variable is,
`u` what the tokens of a statement must be that begins with an expression. -/
inductive StmtFormV (v : Str → Str → Prop) (u : List Str → Prop) : Stmt → List Str → Prop
  | assign (l r : Expr) (ts us : List Str) : Written l ts → Written r us →
      u (ts ++ s!' "=" :: (us ++ [s!' ";"])) → StmtFormV v u (.assign l r) (ts ++ s!' "=" :: (us ++ [s!' ";"]))
  | plusEq (l r : Expr) (ts us : List Str) : Written l ts → Written r us →
      u (ts ++ s!' "+=" :: (us ++ [s!' ";"])) → StmtFormV v u (.assign l (.bin .plus l r)) (ts ++ s!' "+=" :: (us ++ [s!' ";"]))
  | minusEq (l r : Expr) (ts us : List Str) : Written l ts → Written r us →
      u (ts ++ s!' "-=" :: (us ++ [s!' ";"])) → StmtFormV v u (.assign l (.bin .minus l r)) (ts ++ s!' "-=" :: (us ++ [s!' ";"]))
  | ite (c : Expr) (t : List Stmt) (ts tt : List Str) : Written c ts → ProgFormV v u t tt →
      StmtFormV v u (.ite c t []) (s!' "if" :: (ts ++ s!' "{" :: (tt ++ [s!' "}"])))
  | iteElse (c : Expr) (t f : List Stmt) (ts tt ft : List Str) : Written c ts → ProgFormV v u t tt → ProgFormV v u f ft →
      StmtFormV v u (.ite c t f) (s!' "if" :: (ts ++ s!' "{" :: (tt ++ s!' "}" :: s!' "else" :: s!' "{" ::
        (ft ++ [s!' "}"]))))
  | while (c : Expr) (b : List Stmt) (ts bt : List Str) : Written c ts → ProgFormV v u b bt →
      StmtFormV v u (.while c b) (s!' "while" :: (ts ++ s!' "{" :: (bt ++ [s!' "}"])))
  | for (x t : Str) (r : Expr) (b : List Stmt) (ts bt : List Str) : Name x → v x t → Written r ts → ProgFormV v u b bt →
      StmtFormV v u (.for (.ident x) r b)
        (s!' "for" :: t :: s!' "in" :: (ts ++ s!' "{" :: (bt ++ [s!' "}"])))
  | brk : StmtFormV v u .brk [s!' "break", s!' ";"]
  | cont : StmtFormV v u .cont [s!' "continue", s!' ";"]
  | help : StmtFormV v u .help [s!' "help", s!' ";"]
  | quit : StmtFormV v u .quit [s!' "quit", s!' ";"]
  | filesystem (s t : Str) : Literal s t → StmtFormV v u (.filesystem (.str s)) [s!' "filesystem", t, s!' ";"]
  | print (e : Expr) (ts : List Str) : Written e ts → StmtFormV v u (.print e) (s!' "print" :: (ts ++ [s!' ";"]))
  | expr (e : Expr) (ts : List Str) : Written e ts → u (ts ++ [s!' ";"]) → StmtFormV v u (.expr e) (ts ++ [s!' ";"])
  | semi (s : Stmt) (ts : List Str) : StmtFormV v u s ts → StmtFormV v u s (ts ++ [s!' ";"])
inductive ProgFormV (v : Str → Str → Prop) (u : List Str → Prop) : List Stmt → List Str → Prop
  | nil : ProgFormV v u [] []
  | cons (s : Stmt) (ss : List Stmt) (a b : List Str) : StmtFormV v u s a → ProgFormV v u ss b → ProgFormV v u (s :: ss) (a ++ b)
end

/-- the loop variable is a token like any other name -/
def Bare (x t : Str) : Prop := t = x

/-- the loop variable and one blank after it are a token: `in` may not follow the name directly -/
def Parted (x t : Str) : Prop := ∃ b, Blank [b] ∧ t = x ++ [b]

/-- no demands -/
def Anything (_ : List Str) : Prop := True

/-- the tokens of a statement -/
abbrev StmtForm := StmtFormV Bare Anything
/-- the tokens of a program -/
abbrev ProgForm := ProgFormV Bare Anything

/-! ### statements that are taken for others -/

/-- The tokens, which do not begin with a word, begin with an expression: a minus sign comes first, or an
expression in parentheses, or a cast, written as the name of a variable `struct…` in parentheses, of what follows. -/
inductive Opening : List Str → Prop
  | minus (ts : List Str) : Opening (s!' "-" :: ts)
  | paren (e : Expr) (us ts : List Str) : Written (.paren e) us → Opening (us ++ ts)
  | cast (c : Char) (cs : Str) (ts : List Str) : Letter c → (∀ d ∈ cs, WordChar d) → Opening ts →
      Opening (s!' "(" :: (s!' "struct" ++ c :: cs) :: s!' ")" :: ts)

/-- the word begins with a number that is no integer of the language -/
def Oversized (z : Str) : Prop := ∃ ds r, z = ds ++ r ∧ Numeral ds ∧ 2 ^ 127 ≤ decimal ds ∧
  ∀ c, r.head? = some c → ¬ ('0' ≤ c ∧ c ≤ '9')

/-- A statement with these tokens is taken for another one, whatever they are meant for: the first one begins
with `help`, `quit`, `break` or `continue`, or with `print` and then something that can be printed. -/
def Taken : List Str → Prop
  | [] => False
  | t :: ts => (∃ k ∈ [s!' "help", s!' "quit", s!' "break", s!' "continue"], k <+: t) ∨
      ∃ z, t = s!' "print" ++ z ∧ ((z = [] ∧ Opening ts) ∨ (z ≠ [] ∧ ¬ Oversized z))

/-- a statement that begins with an expression can be written so -/
def Free (ts : List Str) : Prop := ¬ Taken ts

mutual
/-- no statement begins with a word that the grammar of statements takes for something else -/
def PlainStmt : Stmt → Prop
  | .assign l _ => PlainStart l
  | .expr e => PlainStart e
  | .ite _ t f => PlainProg t ∧ PlainProg f
  | .while _ b => PlainProg b
  | .for _ _ b => PlainProg b
  | _ => True
def PlainProg : List Stmt → Prop
  | [] => True
  | s :: ss => PlainStmt s ∧ PlainProg ss
end

end Btrd.Spec
