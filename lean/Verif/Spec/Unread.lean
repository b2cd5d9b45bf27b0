/-
Texts that are no programs: where reading them breaks off, and the message about it (C89).
-/
import Verif.Spec.Accept
import Verif.Spec.Messages

namespace Btrd.Spec

/-- the text is this program in writing (C73) -/
def Spells (text : Str) (p : List Stmt) : Prop := ∃ ts, ProgFormV Parted Free p ts ∧ Loose ts text

/-- **Where the reading of a text breaks off**: behind its longest initial part that is a program (maybe the empty one) -/
structure BreaksOff (text : Str) (pos : Nat) (c : Char) : Prop where
  found : text[pos]? = some c
  before : ∃ p, Spells (text.take pos) p
  longest : ∀ n, pos < n → n ≤ text.length → ∀ p, ¬ Spells (text.take n) p

/-- **the message about a text that is no program** -/
inductive Unread (text : Str) : Str → Prop where
  | at {pos c} : BreaksOff text pos c →
      Unread text (s!' "Mismatch at " ++ numeral pos ++ s!' ": expect end of input, found: " ++ [c])

end Btrd.Spec
