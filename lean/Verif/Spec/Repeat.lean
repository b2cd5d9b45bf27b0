/-
Specification of an unbounded repetition (C10): run the rule until it fails.
-/
import Verif.Model.Base

namespace Btrd.Spec

/-- The loop of `p.repeat(0..)` in pom, with no bound: collect results for as long as the rule succeeds,
then stop where it failed. A loop that never stops is related to nothing. -/
inductive Repeats {α : Type} (p : Str → Option (α × Str)) : Str → List α → Str → Prop
  | stop (s : Str) : p s = none → Repeats p s [] s
  | step (s s' s'' : Str) (a : α) (as : List α) : p s = some (a, s') → Repeats p s' as s'' → Repeats p s (a :: as) s''

/-- the loop can go on for ever from `s` -/
def LoopsForever {α : Type} (p : Str → Option (α × Str)) (s : Str) : Prop :=
  ∃ f : Nat → Str, f 0 = s ∧ ∀ i, ∃ a, p (f i) = some (a, f (i + 1))

/-- every success takes at least one character from the front of the input -/
def Consumes {α : Type} (p : Str → Option (α × Str)) : Prop :=
  ∀ s a s', p s = some (a, s') → ∃ t, t ≠ [] ∧ s = t ++ s'

end Btrd.Spec
