/-
Model of `src/lang/runtime.rs` and of `repl`/`script` in `src/main.rs`.
-/
import Verif.Model.Parse
import Verif.Model.Eval

namespace Btrd

/-- `Runtime` (runtime.rs:7-10) -/
structure RState where
  sem : AState
  ev : State

/-- `Runtime::new` (runtime.rs:19-24) -/
def RState.new (cfg : Cfg) (room : Option Nat) : RState := ⟨AState.new, State.new cfg room⟩

/-- `Runtime::eval` (runtime.rs:26-41) -/
def runtimeEval (cfg : Cfg) (rs : RState) (cmd : Str) : RState × EvalResult :=
  match parse cmd with
  | none => (rs, .fail (.err (parseError cmd)))
  | some p =>
    match analyzeStmts p rs.sem with
    | (sem, .error e) => ({ rs with sem := sem }, .fail e)
    | (sem, .ok _) =>
      match evalProgram cfg p rs.ev with
      | (ev, r) => (⟨sem, ev⟩, r)

/-- What `editor.readline` returns (main.rs:86, 103-113) -/
inductive ReplEvent where
  | line (s : Str)
  | interrupted
  | eof
  | otherError
deriving DecidableEq, Repr

/-- Where the REPL is after some events (main.rs:85-119) -/
inductive ReplStatus where
  /-- waiting for the next event -/
  | running
  /-- the loop was left and the history saved -/
  | exited
  /-- the process panicked, or never came back from an evaluation -/
  | crashed (f : Fail)
deriving DecidableEq, Repr

/-- one iteration of the loop of `repl` (main.rs:86-114) -/
def replStep (cfg : Cfg) (rs : RState) : ReplEvent → RState × ReplStatus
  | .line s =>
    match runtimeEval cfg rs (fixupInput (stripComments s)) with
    | (rs', .ok) => (rs', .running)
    | (rs', .quit) => (rs', .exited)
    | (rs', .fail (.err _)) => (rs', .running)
    | (rs', .fail f) => (rs', .crashed f)
  | .interrupted => (rs, .running)
  | .eof => (rs, .exited)
  | .otherError => (rs, .running)

/-- the loop of `repl` (main.rs:85-115) over a list of events; events after the loop has ended are not
read -/
def replRun (cfg : Cfg) : RState → List ReplEvent → RState × ReplStatus
  | rs, [] => (rs, .running)
  | rs, e :: es =>
    match replStep cfg rs e with
    | (rs', .running) => replRun cfg rs' es
    | (rs', s) => (rs', s)

/-- `script` (main.rs:122-137) on the contents of the file: the final state and whether the exit status
is success -/
def scriptRun (cfg : Cfg) (room : Option Nat) (contents : Str) : RState × EvalResult :=
  runtimeEval { cfg with interactive := false } (RState.new cfg room) (stripComments contents)

/-- the process exit of `script` (main.rs:130-136): success iff the result is `Ok` or `Quit` -/
def scriptSucceeded : EvalResult → Bool
  | .ok => true
  | .quit => true
  | .fail _ => false

end Btrd
