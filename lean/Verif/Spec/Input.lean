/-
Specification vocabulary for the treatment of source text (C01-C04).
-/
import Verif.Model.Input

namespace Btrd.Spec

/-- Position `i` of the line starts a comment: a `#` with an even number of quotes before it. -/
def CommentAt (l : Str) (i : Nat) : Prop := l[i]? = some '#' ∧ (l.take i).count '"' % 2 = 0

/-- `k` is the line `l` without its comment: the part before the first comment start, or all of it. -/
def Uncommented (l k : Str) : Prop :=
  ∃ n, k = l.take n ∧ n ≤ l.length ∧ (∀ i < n, ¬ CommentAt l i) ∧ (n = l.length ∨ CommentAt l n)

/-- A terminated line: its text and whether the terminator is `\r\n` (rather than `\n`). -/
def termLine (p : Str × Bool) : Str := p.1 ++ (if p.2 then ['\r', '\n'] else ['\n'])

/-- `text` consists of the terminated lines `ls` followed by the unterminated `last` line. A `\r` right
before the `\n` belongs to the terminator. -/
def SplitsInto (text : Str) (ls : List (Str × Bool)) (last : Str) : Prop :=
  text = ls.flatMap termLine ++ last ∧
  (∀ p ∈ ls, '\n' ∉ p.1 ∧ (p.2 = false → p.1.getLast? ≠ some '\r')) ∧ '\n' ∉ last

/-- The lines of such a text: an empty last line is not a line. -/
def textLines (ls : List (Str × Bool)) (last : Str) : List Str :=
  ls.map (·.1) ++ (if last = [] then [] else [last])

/-- the two characters of a line continuation -/
def continuation : Str := ['\\', '\n']

/-- The code points with the Unicode property `White_Space` (PropList.txt). -/
def whiteSpace : List Nat :=
  [0x09, 0x0A, 0x0B, 0x0C, 0x0D, 0x20, 0x85, 0xA0, 0x1680, 0x2000, 0x2001, 0x2002, 0x2003, 0x2004, 0x2005,
   0x2006, 0x2007, 0x2008, 0x2009, 0x200A, 0x2028, 0x2029, 0x202F, 0x205F, 0x3000]

/-- ends in `;`, not counting white space after it -/
def Terminated (t : Str) : Prop := ∃ body ws, t = body ++ [';'] ++ ws ∧ ∀ c ∈ ws, c.toNat ∈ whiteSpace

end Btrd.Spec
