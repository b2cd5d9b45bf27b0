/-
What is meant by C97: how a sequence of acts is seen, what is seen of it when the process is killed, and when two worlds
have answered alike so far.
-/
import Verif.Model.Trace

namespace Btrd.Spec

/-- standard output -/
def outOf : List Act → Str
  | [] => []
  | .out s :: l => s ++ outOf l
  | _ :: l => outOf l

/-- standard error -/
def errOf : List Act → List ErrLine
  | [] => []
  | .err m :: l => m :: errOf l
  | _ :: l => errOf l

/-- what the operating system said -/
def answersOf : List Act → List Event
  | [] => []
  | .told e :: l => e :: answersOf l
  | _ :: l => answersOf l

/-- what the prompt returned -/
def takenOf : List Act → List ReplEvent
  | [] => []
  | .took e :: l => e :: takenOf l
  | _ :: l => takenOf l

/-- the events among which a process was told of: those other than warnings, and not the search that goes on forever -/
def answered (log : List Event) : List Event :=
  log.filter fun e => match e with
    | .searched _ _ (.error .diverge) => false
    | .warned _ => false
    | _ => true

/-- **What is seen of a process that is killed** at some moment of its life: the acts so far, the last of them
perhaps a text of which only a part was written -/
inductive KilledIn : List Act → List Act → Prop where
  /-- killed here -/
  | here {l} : KilledIn [] l
  /-- killed while it was writing -/
  | writing {s s' l} : KilledIn [.out s] (.out (s ++ s') :: l)
  /-- killed later -/
  | later {x l l'} : KilledIn l l' → KilledIn (x :: l) (x :: l')

/-- **what is done before the request number n** (the first is number 0), or everything if there are not so many -/
inductive BeforeAsk : Nat → List Act → List Act → Prop where
  | never {n} : BeforeAsk n [] []
  | asks {q l} : BeforeAsk 0 (.asks q :: l) []
  | asked {n q l l'} : BeforeAsk n l l' → BeforeAsk (n + 1) (.asks q :: l) (.asks q :: l')
  | other {n x l l'} : (∀ q, x ≠ .asks q) → BeforeAsk n l l' → BeforeAsk n (x :: l) (x :: l')

/-- two worlds that answer the first n requests alike -/
def SameSoFar (n : Nat) (ω ω' : Live) : Prop := ∀ t, t < n → ω.host t = ω'.host t ∧ ω.drift t = ω'.drift t

end Btrd.Spec
