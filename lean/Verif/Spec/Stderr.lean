/-
What is meant by C98: what becomes of a sequence of acts, and of the exit status, if standard error cannot always be
written to.
-/
import Verif.Spec.Trace

namespace Btrd.Spec

/-- a line that may get lost without consequences: the log of a read error, the message of a panic, and the last words
of a process that fails; all others (warnings, errors of entries and scripts, the hint) must be written -/
def Expendable (l : ErrLine) (after : List Act) (exit : Exit) : Prop :=
  l = .logged ∨ l = .panicked ∨ (after = [] ∧ exit = .failure)

/-- **What is seen of a process** that would do certain acts and end in a certain way, if standard error is written to as
`ok` says (for the number of each attempt, the first of them `n`) -/
inductive Survives (ok : Nat → Bool) (exit : Exit) : Nat → List Act → List Act → Exit → Prop where
  /-- everything is done -/
  | all {n} : Survives ok exit n [] [] exit
  /-- what is not about standard error is done -/
  | other {n x l l' e} : (∀ m, x ≠ .err m) → Survives ok exit n l l' e → Survives ok exit n (x :: l) (x :: l') e
  /-- the line is written -/
  | written {n m l l' e} : ok n = true → Survives ok exit (n + 1) l l' e → Survives ok exit n (.err m :: l) (.err m :: l') e
  /-- the line is lost -/
  | lost {n m l l' e} : ok n = false → Expendable m l exit → Survives ok exit (n + 1) l l' e →
      Survives ok exit n (.err m :: l) l' e
  /-- the line should have been written: the process panics and nothing else is done; its last words may be lost, too -/
  | fatal {n m l} : ok n = false → ¬ Expendable m l exit → ok (n + 1) = true →
      Survives ok exit n (.err m :: l) [.err .panicked] .panicked
  | mute {n m l} : ok n = false → ¬ Expendable m l exit → ok (n + 1) = false →
      Survives ok exit n (.err m :: l) [] .panicked

/-- a line that is a warning, a message or a hint, and neither the log of a read error nor the message of a panic -/
def Needed : ErrLine → Bool
  | .logged => false
  | .panicked => false
  | _ => true

end Btrd.Spec
