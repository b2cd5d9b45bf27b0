/-
Where the events of a session come from when standard input is a file or a pipe: `readline` of rustyline 12 reads it
line by line (`readline_direct`), asking the validator of `src/input.rs` after each. At a terminal the line editor is
in between, which is not modelled.
-/
import Verif.Model.Live
import Verif.Model.Input

namespace Btrd

/-- `BufRead::read_line`, on bytes: up to and including the first newline, and what is left -/
def takeLine : Bytes → Bytes × Bytes
  | [] => ([], [])
  | b :: bs => if b = 10 then ([b], bs) else (b :: (takeLine bs).1, (takeLine bs).2)

/-- `readline_direct` of rustyline 12 with the validator of input.rs:17-25: `input` is what was read before. One line
more is read in each round; the end of the file is an error, whatever was read before; a line that is not UTF-8 is an
error, too, and is passed over. Otherwise the line end is cut off, and put back if there is more to come. The bound on
the rounds is the number of bytes. -/
def readlineDirect : Nat → Str → Bytes → ReplEvent × Bytes
  | 0, _, stdin => (.eof, stdin)
  | n + 1, input, stdin =>
    match takeLine stdin with
    | ([], rest) => (.eof, rest)
    | (l, rest) =>
      match decodeUtf8 l with
      | none => (.otherError, rest)
      | some t =>
        let input := input ++ t
        let trailingN := input.getLast? == some '\n'
        let input := if trailingN then input.dropLast else input
        let trailingR := trailingN && input.getLast? == some '\r'
        let input := if trailingR then input.dropLast else input
        if needsMoreInput input then
          readlineDirect n (input ++ (if trailingR then ['\r'] else []) ++ (if trailingN then ['\n'] else [])) rest
        else (.line input, rest)

/-- `editor.readline(PROMPT)` (main.rs:86) -/
def readline (stdin : Bytes) : ReplEvent × Bytes := readlineDirect (stdin.length + 1) [] stdin

/-- all that `readline` returns up to the end of the file; each call but the last takes at least a byte -/
def feedN : Nat → Bytes → List ReplEvent
  | 0, _ => []
  | n + 1, stdin =>
    match readline stdin with
    | (.eof, _) => [.eof]
    | (e, rest) => e :: feedN n rest

/-- the events of a session whose standard input is a file or a pipe with these bytes, if it is read to the end -/
def feed (stdin : Bytes) : List ReplEvent := feedN (stdin.length + 1) stdin

/-- what the world is like at the `n`-th event, see `LiveTick` -/
abbrev Times := Nat → (Fs → Fs) × Live

/-- events in time -/
def ticks (w : Times) : Nat → List ReplEvent → List LiveTick
  | _, [] => []
  | n, e :: es => ⟨(w n).1, (w n).2, e⟩ :: ticks w (n + 1) es

/-- `btrd < file` or `… | btrd` (main.rs:78-120, 149) -/
def pipedMain (cfg : Cfg) (room : Option Nat) (editor saved : Bool) (w : Times) (stdin : Bytes) : Ended × List Event :=
  replMainL cfg room editor saved (ticks w 0 (feed stdin))

end Btrd
