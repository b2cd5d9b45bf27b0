/-
Model of `src/input.rs`.
-/
import Verif.Model.Base

namespace Btrd

/-- `str::lines` (Rust std; used at input.rs:29 and value.rs:192, 440): split after each `\n`, the
terminator (`\n`, or `\r\n`) is not part of the line, a final empty line is not reported. -/
def lines : Str → List Str
  | [] => []
  | c :: cs =>
    if c = '\n' then [] :: lines cs
    else if c = '\r' ∧ cs.head? = some '\n' then lines cs
    else consHead c (lines cs)
where
  /-- prepend a character to the first line -/
  consHead (c : Char) : List Str → List Str
    | [] => [[c]]
    | l :: ls => (c :: l) :: ls

/-- The inner loop of `strip_comments` (input.rs:30-40): what one line contributes. -/
def stripLine (inString : Bool) : Str → Str
  | [] => []
  | c :: cs =>
    if c = '"' then c :: stripLine (!inString) cs
    else if c = '#' ∧ inString = false then []
    else c :: stripLine inString cs

/-- `strip_comments` (input.rs:27-50): each line is stripped and followed by a space, then the last
character is popped. -/
def stripComments (input : Str) : Str :=
  ((lines input).flatMap (fun l => stripLine false l ++ [' '])).dropLast

/-- `char::is_whitespace` (Unicode `White_Space`), used by `trim_end` (input.rs:59). -/
def isWhitespace (c : Char) : Bool :=
  (0x9 ≤ c.val && c.val ≤ 0xD) || c.val == 0x20 || c.val == 0x85 || c.val == 0xA0 ||
  c.val == 0x1680 || (0x2000 ≤ c.val && c.val ≤ 0x200A) || c.val == 0x2028 || c.val == 0x2029 ||
  c.val == 0x202F || c.val == 0x205F || c.val == 0x3000

/-- `input.replace("\\\n", " ")` (input.rs:58) -/
def replaceContinuation : Str → Str
  | [] => []
  | '\\' :: '\n' :: cs => ' ' :: replaceContinuation cs
  | c :: cs => c :: replaceContinuation cs

/-- `str::trim_end` (input.rs:59) -/
def trimEnd (s : Str) : Str := (s.reverse.dropWhile isWhitespace).reverse

/-- `fixup_input` (input.rs:57-64) -/
def fixupInput (input : Str) : Str :=
  let ret := replaceContinuation input
  if (trimEnd ret).getLast? = some ';' then ret else ret ++ [';']

/-- `ReplHelper::validate` (input.rs:18-24): whether the line editor asks for another line. -/
def needsMoreInput (input : Str) : Bool := input.getLast? == some '\\'

end Btrd
