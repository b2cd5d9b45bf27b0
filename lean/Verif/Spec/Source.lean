/-
Specification of source texts as a user lays them out (C80): tokens with blanks, line breaks and comments
between them.
-/
import Verif.Spec.Accept
import Verif.Spec.Input

namespace Btrd.Spec

/-- What may stand between two tokens: blanks, line breaks, and comments up to the end of their line. -/
inductive Gap : Str → Prop
  | nil : Gap []
  | blank (c : Char) (g : Str) : Blank [c] → Gap g → Gap (c :: g)
  | comment (text g : Str) : '\n' ∉ text → Gap g → Gap ('#' :: (text ++ '\n' :: g))

/-- The text consists of the tokens in order, with gaps before, between and after them; two words are kept
apart, and the last line may end in a comment. -/
inductive LaidOut : List Str → Str → Prop
  | done (g : Str) : Gap g → LaidOut [] g
  | trailing (g text : Str) : Gap g → '\n' ∉ text → LaidOut [] (g ++ '#' :: text)
  | token (g t : Str) (ts : List Str) (r : Str) : Gap g →
      (∀ c d, t.getLast? = some c → r.head? = some d → WordChar c → ¬ WordChar d) →
      LaidOut ts r → LaidOut (t :: ts) (g ++ (t ++ r))

/-- A token that lies on one line and in which no comment seems to begin: as C02 shows, btrd itself damages
string literals that are not so. -/
def Quiet (t : Str) : Prop := '\n' ∉ t ∧ t.count '"' % 2 = 0 ∧ ∀ i, ¬ CommentAt t i

/-- all string literals among the tokens are quiet -/
def QuietLiterals (ts : List Str) : Prop := ∀ t ∈ ts, t.head? = some '"' → Quiet t

/-- The tokens of what is typed at the prompt for the program `p`: the semicolon at the end may be missing. -/
def Entry (p : List Stmt) (ts : List Str) : Prop :=
  (ts.getLast? = some s!' ";" ∧ ProgFormV Bare Free p ts) ∨
    (ts.getLast? ≠ some s!' ";" ∧ ProgFormV Bare Free p (ts ++ [s!' ";"]))

end Btrd.Spec
