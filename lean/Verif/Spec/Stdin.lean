/-
Which entries a file or pipe on standard input holds (C92).
-/
import Verif.Spec.Streams
import Verif.Model.Runtime

namespace Btrd.Spec

/-- a line end -/
inductive LineEnd : Str → Prop
  | lf : LineEnd ['\n']
  | crlf : LineEnd ['\r', '\n']

/-- a line of text and its line end; a carriage return in front of a line feed belongs to the line end -/
def TextLine (body nl : Str) : Prop := '\n' ∉ body ∧ LineEnd nl ∧ (nl = ['\n'] → body.getLast? ≠ some '\r')

/-- a line that is continued on the next: its last character is a backslash -/
def ContinuedLine (l : Str) : Prop := ∃ body nl, TextLine body nl ∧ body.getLast? = some '\\' ∧ l = body ++ nl

/-- **The events of standard input**: the bytes that are left, and what will be read. -/
inductive Fed : Bytes → List ReplEvent → Prop
  /-- Any number of continued lines and one that is not continued are an entry: without the last line end. -/
  | entry {ls : List Str} {body nl : Str} {rest : Bytes} {es : List ReplEvent} :
      (∀ l ∈ ls, ContinuedLine l) → TextLine body nl → body.getLast? ≠ some '\\' → Fed rest es →
      Fed (encoded (ls.flatten ++ body ++ nl) ++ rest) (.line (ls.flatten ++ body) :: es)
  /-- The last line may lack its line end. -/
  | last {ls : List Str} {body : Str} :
      (∀ l ∈ ls, ContinuedLine l) → '\n' ∉ body → body ≠ [] → body.getLast? ≠ some '\\' →
      Fed (encoded (ls.flatten ++ body)) [.line (ls.flatten ++ body), .eof]
  /-- At the end, continued lines that nothing follows are lost. -/
  | over {ls : List Str} {body : Str} :
      (∀ l ∈ ls, ContinuedLine l) → '\n' ∉ body → (body = [] ∨ body.getLast? = some '\\') →
      Fed (encoded (ls.flatten ++ body)) [.eof]
  /-- A line that is not UTF-8 is an error, and the continued lines in front of it are lost. -/
  | garbled {ls : List Str} {line rest : Bytes} {es : List ReplEvent} :
      (∀ l ∈ ls, ContinuedLine l) → (10 ∉ line) → (∀ s, line ++ [10] ≠ encoded s) → Fed rest es →
      Fed (encoded ls.flatten ++ line ++ [10] ++ rest) (.otherError :: es)
  | garbledEnd {ls : List Str} {line : Bytes} :
      (∀ l ∈ ls, ContinuedLine l) → (10 ∉ line) → (∀ s, line ≠ encoded s) →
      Fed (encoded ls.flatten ++ line) [.otherError, .eof]

end Btrd.Spec
