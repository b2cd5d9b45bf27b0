/-
The rules of the process at the prompt (C86): standard output, standard error and how it ends, in a world that may
change between the entries. By the rules of the language, of its static checks, of its messages, and the manual of
the world (`Spec/World`).
-/
import Verif.Spec.World
import Verif.Spec.Unread
import Verif.Spec.Session
import Verif.Model.Main

namespace Btrd.Spec

/-- the state in a changed world: something has become of the filesystem in use -/
def drifted (σ : State) (drift : Fs → Fs) : State := { σ with fs := σ.fs.map drift }

/-- `quit` and a line feed -/
def quitLine : Str := s!' "quit\n"

/-- **What one event does**: from the known variables and the state to the next, with the lines it adds to standard
error. The world is that of the event's moment. -/
inductive Happens (wraps : Prop) (cleaned : Str → Str) (h : Host) :
    Names → State → ReplEvent → Names → State → List ErrLine → ProcStatus → Prop where
  /-- Ctrl-C gives a hint -/
  | interrupted {D σ} : Happens wraps cleaned h D σ .interrupted D σ [.hint] .running
  /-- the end of input prints `quit` and ends the session; so does a read error, but the session goes on; when
  that cannot be printed, the process panics -/
  | eof {D σ σ'} : Outputs quitLine σ σ' .done → Happens wraps cleaned h D σ .eof D σ' [] .over
  | eofFull {D σ σ'} : Outputs quitLine σ σ' .failed → Happens wraps cleaned h D σ .eof D σ' [.panicked] .panicked
  | readError {D σ σ'} : Outputs quitLine σ σ' .done → Happens wraps cleaned h D σ .otherError D σ' [.logged] .running
  | readErrorFull {D σ σ'} : Outputs quitLine σ σ' .failed →
      Happens wraps cleaned h D σ .otherError D σ' [.logged, .panicked] .panicked
  /-- an entry that is no program does nothing but give a message, -/
  | unreadable {D σ s m} : Unread (cleaned s) m → Happens wraps cleaned h D σ (.line s) D σ [.error (some m)] .running
  /-- so does one that is refused (but its variables are known from then on), -/
  | refused {D σ s p D' m} : Spells (cleaned s) p → RefusedAll D False p m → Learns D p D' →
      Happens wraps cleaned h D σ (.line s) D' σ [.error (some m)] .running
  /-- one that is accepted is run; if it fails there is a message, -/
  | runs {D σ s p D' σ'} : Spells (cleaned s) p → AcceptedL D False p → Learns D p D' →
      RunsAll (theWorld h wraps True) p σ σ' .done → Happens wraps cleaned h D σ (.line s) D' σ' [] .running
  | fails {D σ s p D' σ' m} : Spells (cleaned s) p → AcceptedL D False p → Learns D p D' →
      RunsAll (theWorld h wraps True) p σ σ' .failed → FailsAll (theWorld h wraps True) (theComplaints h wraps) p σ m →
      Happens wraps cleaned h D σ (.line s) D' σ' [.error m] .running
  /-- and `quit` ends the session. -/
  | quits {D σ s p D' σ'} : Spells (cleaned s) p → AcceptedL D False p → Learns D p D' →
      RunsAll (theWorld h wraps True) p σ σ' .quit → Happens wraps cleaned h D σ (.line s) D' σ' [] .over

/-- **A session**: its events up to the one that ends it -/
inductive Converses (wraps : Prop) (cleaned : Str → Str) :
    Names → State → List Tick → Names → State → List ErrLine → ProcStatus → Prop where
  | waits {D σ} : Converses wraps cleaned D σ [] D σ [] .running
  | next {D σ t ts D₁ σ₁ l D' σ' ls r} : Happens wraps cleaned t.host D (drifted σ t.drift) t.event D₁ σ₁ l .running →
      Converses wraps cleaned D₁ σ₁ ts D' σ' ls r → Converses wraps cleaned D σ (t :: ts) D' σ' (l ++ ls) r
  | ends {D σ t ts D' σ' l r} : Happens wraps cleaned t.host D (drifted σ t.drift) t.event D' σ' l r → r ≠ .running →
      Converses wraps cleaned D σ (t :: ts) D' σ' l r

/-- what is printed when a session begins -/
def banner : Str := s!' "btrd (the btrfs debugger) v0.5.3\nType 'help' for help\n\n"

/-- **A session seen from outside**, started in state `σ₀` with the built-in names `D`; `saved` says whether the
history can be saved in the end. -/
inductive Seen (wraps : Prop) (cleaned : Str → Str) (D : Names) (σ₀ : State) (saved : Bool) (ts : List Tick) :
    Ended → Prop where
  /-- if the banner cannot be printed, that is the end -/
  | mute {σ} : Outputs banner σ₀ σ .failed → Seen wraps cleaned D σ₀ saved ts ⟨σ.sink.out, [.panicked], .panicked⟩
  /-- otherwise the conversation follows: the session waits for more, -/
  | waits {σ D' σ' l} : Outputs banner σ₀ σ .done → Converses wraps cleaned D σ ts D' σ' l .running →
      Seen wraps cleaned D σ₀ saved ts ⟨σ'.sink.out, l, .running⟩
  /-- or is over, and the history is saved or not, -/
  | over {σ D' σ' l} : Outputs banner σ₀ σ .done → Converses wraps cleaned D σ ts D' σ' l .over → saved = true →
      Seen wraps cleaned D σ₀ saved ts ⟨σ'.sink.out, l, .success⟩
  | unsaved {σ D' σ' l} : Outputs banner σ₀ σ .done → Converses wraps cleaned D σ ts D' σ' l .over → saved = false →
      Seen wraps cleaned D σ₀ saved ts ⟨σ'.sink.out, l ++ [.error none], .failure⟩
  /-- or panics because `quit` cannot be printed. -/
  | panics {σ D' σ' l} : Outputs banner σ₀ σ .done → Converses wraps cleaned D σ ts D' σ' l .panicked →
      Seen wraps cleaned D σ₀ saved ts ⟨σ'.sink.out, l, .panicked⟩

/-- the last line on standard error of a script that does not succeed -/
def inScript : ErrLine := .error (some s!' "Error in script")

/-- **A script run seen from outside**: what is in the file, `none` if it cannot be read -/
inductive Ran (wraps : Prop) (cleaned : Str → Str) (h : Host) (D : Names) (σ₀ : State) : Option Bytes → Ended → Prop where
  | unreadable {file} : (∀ s, file ≠ some (encoded s)) → Ran wraps cleaned h D σ₀ file ⟨[], [.error none], .failure⟩
  | noProgram {s m} : Unread (cleaned s) m →
      Ran wraps cleaned h D σ₀ (some (encoded s)) ⟨σ₀.sink.out, [.error (some m), inScript], .failure⟩
  | refused {s p m} : Spells (cleaned s) p → RefusedAll D False p m →
      Ran wraps cleaned h D σ₀ (some (encoded s)) ⟨σ₀.sink.out, [.error (some m), inScript], .failure⟩
  | ends {s p σ o} : Spells (cleaned s) p → AcceptedL D False p → RunsAll (theWorld h wraps False) p σ₀ σ o →
      (o = .done ∨ o = .quit) → Ran wraps cleaned h D σ₀ (some (encoded s)) ⟨σ.sink.out, [], .success⟩
  | fails {s p σ m} : Spells (cleaned s) p → AcceptedL D False p → RunsAll (theWorld h wraps False) p σ₀ σ .failed →
      FailsAll (theWorld h wraps False) (theComplaints h wraps) p σ₀ m →
      Ran wraps cleaned h D σ₀ (some (encoded s)) ⟨σ.sink.out, [.error m, inScript], .failure⟩

end Btrd.Spec
