/-
Model of `main`, `repl` and `script` in `src/main.rs` as a process: standard output, the lines on standard error
and the exit status, in a world that may change between the entries. Not modelled: the command line parser, the
line editor itself (only what `readline` returns); `Model/Debug` has the messages of `--debug`. The warnings of eval.rs:399-402 on
standard error are left out here; `Model/Live` has them.
-/
import Verif.Model.Runtime
import Verif.Model.Message

namespace Btrd

/-- how the process ends -/
inductive Exit where
  /-- exit status 0 -/
  | success
  /-- `main` returned an error: exit status 1 -/
  | failure
  /-- a panic: exit status 101 -/
  | panicked
  /-- it has not ended: it waits for the next entry -/
  | running
  /-- it has not ended: it is still evaluating -/
  | busy
deriving DecidableEq, Repr

/-- a warning: the key of an item that no on-disk struct matches (eval.rs:399-402) -/
structure Warned where
  objectid : Nat
  ty : Nat
  offset : Nat
deriving DecidableEq, Repr

/-- a line on standard error -/
inductive ErrLine where
  /-- `Error: ` and a message (main.rs:98, 133, and what the runtime prints when `main` returns an error); `none` is
  a message of the operating system -/
  | error (m : Option Str)
  /-- `Warning: failed to find a matching on-disk struct for key [..]` (eval.rs:399-402), only in `Model/Live` -/
  | warning (w : Warned)
  /-- `Press Ctrl-D or type 'quit' to quit` (main.rs:104) -/
  | hint
  /-- the logged read error (main.rs:111) -/
  | logged
  /-- the message of a panic -/
  | panicked
deriving DecidableEq, Repr

/-- what is left of a process, or seen of it so far -/
structure Ended where
  out : Str
  err : List ErrLine
  exit : Exit
deriving DecidableEq, Repr

/-- the check of `read_to_string` (main.rs:125): the contents must be UTF-8 (Rust's and Lean's standard
libraries both define it by the Unicode standard) -/
def decodeUtf8 (b : Bytes) : Option Str := (ByteArray.utf8Decode? ⟨b.toArray⟩).map Array.toList

/-- the end of `script` for the result of the evaluation (main.rs:130-136, 150-151): the message of an error, then
the one that `main` returns -/
def scriptExit : EvalResult → List ErrLine × Exit
  | .ok => ([], .success)
  | .quit => ([], .success)
  | .fail (.err e) => ([.error e.text, .error (some s!' "Error in script")], .failure)
  | .fail .panic => ([.panicked], .panicked)
  | .fail .diverge => ([], .busy)

/-- `script` (main.rs:122-137), given the contents of the file, `none` if it cannot be opened or read -/
def scriptMain (cfg : Cfg) (room : Option Nat) (file : Option Bytes) : Ended :=
  match file with
  | none => ⟨[], [.error none], .failure⟩
  | some b =>
    match decodeUtf8 b with
    | none => ⟨[], [.error none], .failure⟩
    | some s =>
      let r := scriptRun cfg room s
      ⟨r.1.ev.sink.out, (scriptExit r.2).1, (scriptExit r.2).2⟩

/-- `println!`: to the standard output that is also the sink of the evaluator; `false` is the panic when it cannot
be written (a closed pipe, a full disk) -/
def State.println (st : State) (s : Str) : State × Bool :=
  match st.write (s ++ ['\n']) with
  | (st', .ok) => (st', true)
  | (st', _) => (st', false)

/-- `println!`s in a row, up to the first that panics -/
def State.printlns (st : State) : List Str → State × Bool
  | [] => (st, true)
  | s :: ss =>
    match st.println s with
    | (st', true) => st'.printlns ss
    | (st', false) => (st', false)

/-- `welcome` (main.rs:69-76), with the version of Cargo.toml:4 -/
def welcomeLines : List Str :=
  [s!' "btrd (the btrfs debugger) v0.5.3", s!' "Type 'help' for help", []]

/-- an event at the prompt, and the world it meets: what the operating system says from now on, and what has
become of the filesystem in use since the last event -/
structure Tick where
  host : Host
  drift : Fs → Fs
  event : ReplEvent

/-- the process: the interpreter and what has been written to standard error -/
structure Proc where
  rs : RState
  err : List ErrLine

/-- the same process in a changed world -/
def Proc.meets (p : Proc) (drift : Fs → Fs) : Proc :=
  { p with rs := { p.rs with ev := { p.rs.ev with fs := p.rs.ev.fs.map drift } } }

/-- Where the process is after some events -/
inductive ProcStatus where
  /-- waiting for the next event -/
  | running
  /-- the loop of `repl` was left -/
  | over
  | panicked
  /-- it never came back from an evaluation -/
  | hung
deriving DecidableEq, Repr

/-- `println!` by the process -/
def Proc.println (p : Proc) (s : Str) (then_ : ProcStatus) : Proc × ProcStatus :=
  match p.rs.ev.println s with
  | (ev, true) => ({ p with rs := { p.rs with ev := ev } }, then_)
  | (ev, false) => (⟨{ p.rs with ev := ev }, p.err ++ [.panicked]⟩, .panicked)

/-- one iteration of the loop of `repl` (main.rs:86-114) -/
def procStep (cfg : Cfg) (p : Proc) : ReplEvent → Proc × ProcStatus
  | .line s =>
    match runtimeEval cfg p.rs (fixupInput (stripComments s)) with
    | (rs, .ok) => (⟨rs, p.err⟩, .running)
    | (rs, .quit) => (⟨rs, p.err⟩, .over)
    | (rs, .fail (.err e)) => (⟨rs, p.err ++ [.error e.text]⟩, .running)
    | (rs, .fail .panic) => (⟨rs, p.err ++ [.panicked]⟩, .panicked)
    | (rs, .fail .diverge) => (⟨rs, p.err⟩, .hung)
  | .interrupted => (⟨p.rs, p.err ++ [.hint]⟩, .running)
  | .eof => p.println s!' "quit" .over
  | .otherError => Proc.println ⟨p.rs, p.err ++ [.logged]⟩ s!' "quit" .running

/-- the loop of `repl` (main.rs:85-115); events after it has ended are not read -/
def procRun (cfg : Cfg) : Proc → List Tick → Proc × ProcStatus
  | p, [] => (p, .running)
  | p, t :: ts =>
    match procStep { cfg with host := t.host } (p.meets t.drift) t.event with
    | (p', .running) => procRun cfg p' ts
    | (p', s) => (p', s)

/-- `repl` up to the loop (main.rs:78-83), once the line editor is set up -/
def procStart (cfg : Cfg) (room : Option Nat) : Proc × ProcStatus :=
  match (State.new cfg room).printlns welcomeLines with
  | (ev, true) => (⟨⟨AState.new, ev⟩, []⟩, .running)
  | (ev, false) => (⟨⟨AState.new, ev⟩, [.panicked]⟩, .panicked)

/-- `repl` up to the end of the events -/
def procSession (cfg : Cfg) (room : Option Nat) (events : List Tick) : Proc × ProcStatus :=
  match procStart cfg room with
  | (p, .running) => procRun { cfg with interactive := true } p events
  | r => r

/-- the end of `repl` (main.rs:116-120); `saved` says whether the history can be saved -/
def procEnd (saved : Bool) : Proc × ProcStatus → Ended
  | (p, .running) => ⟨p.rs.ev.sink.out, p.err, .running⟩
  | (p, .over) =>
    if saved then ⟨p.rs.ev.sink.out, p.err, .success⟩ else ⟨p.rs.ev.sink.out, p.err ++ [.error none], .failure⟩
  | (p, .panicked) => ⟨p.rs.ev.sink.out, p.err, .panicked⟩
  | (p, .hung) => ⟨p.rs.ev.sink.out, p.err, .busy⟩

/-- `repl` (main.rs:78-120): `editor` says whether the line editor could be set up -/
def replMain (cfg : Cfg) (room : Option Nat) (editor saved : Bool) (events : List Tick) : Ended :=
  if editor then procEnd saved (procSession cfg room events) else ⟨[], [.error none], .failure⟩

end Btrd
