/-
A standard error that cannot always be written to: a pipe nobody reads any more, a full disk (Rust programs ignore
SIGPIPE, so the write fails). `eprintln!` panics if it fails (eval.rs:399-402; main.rs:98, 104, 133); the logger
(main.rs:111, simplelog's `TermLogger::log` drops the result), the panic handler and the message of the error that `main`
returns (the standard library's `Termination`) do not care. `Model/Trace` has the same where every line is written. Simplification: of a line
that fails nothing is seen, although a part of it may have been written. Without `--debug`.
-/
import Verif.Model.Trace

namespace Btrd

/-- whether the `n`-th attempt to write a line to standard error succeeds (the first is number 0) -/
abbrev ErrStream := Nat → Bool

/-- a line whose writer does not care whether it succeeds -/
def ErrStream.offers (ok : ErrStream) (n : Nat) (l : ErrLine) : List Act := if ok n then [.err l] else []

/-- how far a computation got: the time, the number of lines tried, what was done; no result after a panic -/
structure TracedE (α : Type) where
  clock : Nat
  lines : Nat
  acts : List Act
  result : Option α

/-- something was done before -/
def TracedE.after {α : Type} (l : List Act) (x : TracedE α) : TracedE α := { x with acts := l ++ x.acts }

/-- a computation in a live world, see `W.live`; a warning that cannot be written is a panic (eval.rs:399-402) -/
def W.liveE {α : Type} (fuel : Nat) (ω : Live) (ok : ErrStream) : W α → Nat → Nat → TracedE α
  | .ret a, t, n => ⟨t, n, [], some a⟩
  | .wrote s k, t, n => (k.liveE fuel ω ok t n).after [.out s]
  | .warn w k, t, n =>
    if ok n then (k.liveE fuel ω ok t (n + 1)).after [.err (.warning w)]
    else ⟨t, n + 2, ok.offers (n + 1) .panicked, none⟩
  | .search fs a k, t, n =>
    ((k ((ω.drift t fs).search fuel a)).liveE fuel ω ok (t + 1) n).after
      (.asks (.search (ω.drift t fs) a) :: (Event.searched (ω.drift t fs) a ((ω.drift t fs).search fuel a)).answer)
  | .bytes fs i j k, t, n =>
    ((k ((ω.drift t fs).getBytes i j)).liveE fuel ω ok (t + 1) n).after
      (.asks (.read (ω.drift t fs) i j) :: (Event.read (ω.drift t fs) i j ((ω.drift t fs).getBytes i j)).answer)
  | .opens p k, t, n =>
    ((k (Fs.new (ω.host t) p)).liveE fuel ω ok (t + 1) n).after
      (.asks (.opens p) :: (Event.opened p (Fs.new (ω.host t) p)).answer)

/-- what the process does, the number of lines tried, and what becomes of it -/
structure Done (α : Type) where
  acts : List Act
  lines : Nat
  next : α

/-- `eprintln!`: the line, or a panic -/
def ErrStream.eprintln (ok : ErrStream) (n : Nat) (l : ErrLine) (then_ : ProcStatus) : Done ProcStatus :=
  if ok n then ⟨[.err l], n + 1, then_⟩ else ⟨ok.offers (n + 1) .panicked, n + 2, .panicked⟩

/-- what becomes of an entry that was evaluated (main.rs:91-101), see `lineEnd` -/
def lineEndE (ok : ErrStream) (n : Nat) : EvalResult → Done ProcStatus
  | .ok => ⟨[], n, .running⟩
  | .quit => ⟨[], n, .over⟩
  | .fail (.err e) => ok.eprintln n (.error e.text) .running
  | .fail .panic => ⟨ok.offers n .panicked, n + 1, .panicked⟩
  | .fail .diverge => ⟨[], n, .hung⟩

/-- `println!` (main.rs:70-75, 107, 112): if it panics, the message goes to standard error, see `State.printlnActs` -/
def State.printlnE (ok : ErrStream) (n : Nat) (st : State) (s : Str) : Done (State × Bool) :=
  match st.println s with
  | (st', true) => ⟨[.out (st.sink.takes (s ++ ['\n']))], n, (st', true)⟩
  | (st', false) => ⟨.out (st.sink.takes (s ++ ['\n'])) :: ok.offers n .panicked, n + 1, (st', false)⟩

/-- `println!` by the process, see `RState.printlnW` -/
def RState.printlnE (ok : ErrStream) (n : Nat) (rs : RState) (s : Str) (then_ : ProcStatus) : Done (RState × ProcStatus) :=
  let d := rs.ev.printlnE ok n s
  ⟨d.acts, d.lines, ({ rs with ev := d.next.1 }, if d.next.2 then then_ else .panicked)⟩

/-- one iteration of the loop of `repl` (main.rs:86-114) after the prompt has returned, see `stepW`; after a panic the
interpreter is of no interest -/
def stepE (cfg : Cfg) (ω : Live) (ok : ErrStream) (n : Nat) (rs : RState) : ReplEvent → Done (RState × ProcStatus)
  | .line s =>
    let l := (runtimeEvalW cfg rs (fixupInput (stripComments s))).liveE cfg.fuel ω ok 0 n
    match l.result with
    | none => ⟨l.acts, l.lines, (rs, .panicked)⟩
    | some (rs', r) =>
      let d := lineEndE ok l.lines r
      ⟨l.acts ++ d.acts, d.lines, (rs', d.next)⟩
  | .interrupted =>
    let d := ok.eprintln n .hint .running
    ⟨d.acts, d.lines, (rs, d.next)⟩
  | .eof => rs.printlnE ok n s!' "quit" .over
  | .otherError =>
    let d := rs.printlnE ok (n + 1) s!' "quit" .running
    ⟨ok.offers n .logged ++ d.acts, d.lines, d.next⟩

/-- the loop of `repl` (main.rs:85-115), see `runW` -/
def runE (cfg : Cfg) (ok : ErrStream) : Nat → RState → List LiveTick → Done ProcStatus
  | n, _, [] => ⟨[], n, .running⟩
  | n, rs, t :: ts =>
    let d := stepE cfg t.world ok n (rs.meets t.drift) t.event
    match d.next with
    | (rs', .running) =>
      let d' := runE cfg ok d.lines rs' ts
      ⟨.took t.event :: d.acts ++ d'.acts, d'.lines, d'.next⟩
    | (_, s) => ⟨.took t.event :: d.acts, d.lines, s⟩

/-- `println!`s in a row, see `State.printlns` -/
def State.printlnsE (ok : ErrStream) : Nat → State → List Str → Done (State × Bool)
  | n, st, [] => ⟨[], n, (st, true)⟩
  | n, st, s :: ss =>
    let d := st.printlnE ok n s
    match d.next with
    | (st', true) =>
      let d' := State.printlnsE ok d.lines st' ss
      ⟨d.acts ++ d'.acts, d'.lines, d'.next⟩
    | (st', false) => ⟨d.acts, d.lines, (st', false)⟩

/-- the end of `repl` (main.rs:116-120), see `endW`: the error that `main` returns is shown if that is possible -/
def endE (ok : ErrStream) (n : Nat) (saved : Bool) : ProcStatus → List Act × Exit
  | .running => ([], .running)
  | .over => if saved then ([], .success) else (ok.offers n (.error none), .failure)
  | .panicked => ([], .panicked)
  | .hung => ([], .busy)

/-- `repl` (main.rs:78-120), see `replActs` -/
def replActsE (cfg : Cfg) (room : Option Nat) (ok : ErrStream) (editor saved : Bool) (events : List LiveTick) :
    List Act × Exit :=
  if editor then
    let w := State.printlnsE ok 0 (State.new cfg room) welcomeLines
    match w.next with
    | (st, true) =>
      let d := runE { cfg with interactive := true } ok w.lines ⟨AState.new, st⟩ events
      (w.acts ++ d.acts ++ (endE ok d.lines saved d.next).1, (endE ok d.lines saved d.next).2)
    | (_, false) => (w.acts, .panicked)
  else (ok.offers 0 (.error none), .failure)

/-- the end of `script` (main.rs:130-136, 150-151), see `scriptExit` -/
def scriptEndE (ok : ErrStream) (n : Nat) : EvalResult → List Act × Exit
  | .ok => ([], .success)
  | .quit => ([], .success)
  | .fail (.err e) =>
    if ok n then (.err (.error e.text) :: ok.offers (n + 1) (.error (some s!' "Error in script")), .failure)
    else (ok.offers (n + 1) .panicked, .panicked)
  | .fail .panic => (ok.offers n .panicked, .panicked)
  | .fail .diverge => ([], .busy)

/-- `script` (main.rs:122-137), see `scriptActs` -/
def scriptActsE (cfg : Cfg) (room : Option Nat) (ok : ErrStream) (ω : Live) (file : Option Bytes) : List Act × Exit :=
  match file with
  | none => (ok.offers 0 (.error none), .failure)
  | some b =>
    match decodeUtf8 b with
    | none => (ok.offers 0 (.error none), .failure)
    | some s =>
      let cfg := { cfg with interactive := false }
      let l := (runtimeEvalW cfg (RState.new cfg room) (stripComments s)).liveE cfg.fuel ω ok 0 0
      match l.result with
      | none => (l.acts, .panicked)
      | some (_, r) => (l.acts ++ (scriptEndE ok l.lines r).1, (scriptEndE ok l.lines r).2)

end Btrd
