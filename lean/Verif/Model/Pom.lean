/-
The pom 3.x parser combinators that `src/lang/parse.rs` uses. pom parsers read a slice of characters
from a position; here a parser reads the remaining characters. `none` is any `Err`: pom's `|` tries its
right side on every error the rules of parse.rs can produce, so the error value is irrelevant to which
inputs are accepted.
-/
import Verif.Model.Base

namespace Btrd

/-- A parser: consumes a prefix of the input and returns the rest (`Parser<'a, char, T>`, parse.rs:80). -/
abbrev P (α : Type) := Str → Option (α × Str)

namespace P

variable {α β γ : Type}

/-- pom `sym` / `one_of` / `none_of` / `is_a`: one character satisfying `f` (parse.rs:81, 85-94, 115, 128) -/
def isA (f : Char → Bool) : P Char
  | [] => none
  | c :: cs => if f c then some (c, cs) else none

/-- pom `sym` (e.g. parse.rs:85) -/
def sym (c : Char) : P Char := isA (· == c)

/-- pom `tag`: a fixed sequence of characters (e.g. parse.rs:121) -/
def tag : Str → P Unit
  | [], s => some ((), s)
  | _ :: _, [] => none
  | t :: ts, c :: cs => if c = t then tag ts cs else none

/-- pom `p.map(f)` (e.g. parse.rs:120) -/
def map (f : α → β) (p : P α) : P β := fun s =>
  match p s with
  | some (a, s') => some (f a, s')
  | none => none

/-- pom `p + q` (e.g. parse.rs:116) -/
def seq (p : P α) (q : P β) : P (α × β) := fun s =>
  match p s with
  | some (a, s') =>
    match q s' with
    | some (b, s'') => some ((a, b), s'')
    | none => none
  | none => none

/-- pom `p * q`: keep the right result (e.g. parse.rs:93) -/
def seqR (p : P α) (q : P β) : P β := fun s =>
  match p s with
  | some (_, s') => q s'
  | none => none

/-- pom `p - q`: keep the left result (e.g. parse.rs:115) -/
def seqL (p : P α) (q : P β) : P α := fun s =>
  match p s with
  | some (a, s') =>
    match q s' with
    | some (_, s'') => some (a, s'')
    | none => none
  | none => none

/-- pom `p | q` (e.g. parse.rs:144) -/
def alt (p q : P α) : P α := fun s =>
  match p s with
  | some r => some r
  | none => q s

/-- pom `p.opt()` (parse.rs:116, 292, 367) -/
def opt (p : P α) : P (Option α) := fun s =>
  match p s with
  | some (a, s') => some (some a, s')
  | none => some (none, s)

/-- pom `p.convert(f)` (parse.rs:101, 119) -/
def convert (f : α → Option β) (p : P α) : P β := fun s =>
  match p s with
  | some (a, s') =>
    match f a with
    | some b => some (b, s')
    | none => none
  | none => none

/-- pom `p.repeat(0..)` (e.g. parse.rs:81), bounded: at most `n` items. -/
def manyF : Nat → P α → P (List α)
  | 0, _, s => some ([], s)
  | n + 1, p, s =>
    match p s with
    | some (a, s') =>
      match manyF n p s' with
      | some (as, s'') => some (a :: as, s'')
      | none => none
    | none => some ([], s)

/-- pom `p.repeat(0..)`. pom loops for as long as `p` succeeds; the bound `length + 1` is never reached
when every success of `p` consumes a character, which `Props/Parser` proves of every rule repeated in
parse.rs (a rule that did not consume would make pom loop forever). -/
def many (p : P α) : P (List α) := fun s => manyF (s.length + 1) p s

/-- pom `p.repeat(1..)` (parse.rs:95, 102) -/
def many1 (p : P α) : P (List α) := fun s =>
  match many p s with
  | some (a :: as, s') => some (a :: as, s')
  | _ => none

/-- pom `p.repeat(n)` (parse.rs:99) -/
def times : Nat → P α → P (List α)
  | 0, _, s => some ([], s)
  | n + 1, p, s =>
    match p s with
    | some (a, s') =>
      match times n p s' with
      | some (as, s'') => some (a :: as, s'')
      | none => none
    | none => none

/-- pom `list(p, sep)` (parse.rs:154): items separated by `sep`; a separator not followed by an item is left
unread. -/
def list (p : P α) (sep : P β) : P (List α) := fun s =>
  match p s with
  | some (a, s') =>
    match many (seqR sep p) s' with
    | some (as, s'') => some (a :: as, s'')
    | none => none
  | none => some ([], s)

/-- pom `end()` (parse.rs:432) -/
def eof : P Unit
  | [] => some ((), [])
  | _ :: _ => none

end P

end Btrd
