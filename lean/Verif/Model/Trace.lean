/-
Everything a run does, in order: what it writes to standard output and standard error, what it asks the operating
system and what it is told. `Model/Live` has the requests in order, but the output only as a whole. Standard output is
line buffered (Rust's `stdout()`), and every text that is written ends with a newline (main.rs:70-75, 107, 112;
eval.rs:530, 746, 804), so nothing is left in the buffer when a write is over; standard error is not buffered.
-/
import Verif.Model.Live

namespace Btrd

/-- a computation that asks the operating system and writes -/
inductive W (α : Type) where
  | ret (a : α)
  /-- this text goes to standard output -/
  | wrote (s : Str) (k : W α)
  /-- as in `T` -/
  | warn (w : Warned) (k : W α)
  | search (fs : Fs) (a : SearchArgs) (k : R (List Item) → W α)
  | bytes (fs : Fs) (start stop : Nat) (k : R Bytes → W α)
  | opens (path : Str) (k : R Fs → W α)

/-- one computation after the other -/
def W.bind {α β : Type} (f : α → W β) : W α → W β
  | .ret a => f a
  | .wrote s k => .wrote s (k.bind f)
  | .warn w k => .warn w (k.bind f)
  | .search fs a k => .search fs a fun r => (k r).bind f
  | .bytes fs i j k => .bytes fs i j fun r => (k r).bind f
  | .opens p k => .opens p fun r => (k r).bind f

/-- a computation that writes nothing to standard output, such as the evaluation of an expression -/
def T.asW {α : Type} : T α → W α
  | .ret a => .ret a
  | .warn w k => .warn w k.asW
  | .search fs a k => .search fs a fun r => (k r).asW
  | .bytes fs i j k => .bytes fs i j fun r => (k r).asW
  | .opens p k => .opens p fun r => (k r).asW

/-- the part of a text that fits in (see `Sink.write`) -/
def Sink.takes (k : Sink) (s : Str) : Str :=
  match k.room with
  | none => s
  | some n => s.take n

/-- `write!(sink, ..)` (eval.rs:530, 746, 804): what fits is written -/
def State.writeW (st : State) (s : Str) : W (State × IRes) := .wrote (st.sink.takes s) (.ret (st.write s))

/-- what a statement does with the result of an expression, see `E.into` -/
def E.intoW {α : Type} (x : E α) (st : State) (k : α → W (State × IRes)) : W (State × IRes) :=
  W.bind (fun r => match r with
    | .ok a => k a
    | .error e => .ret (st, .fail e)) (T.asW x)

/-- `print` (eval.rs:515-536) -/
def evalPrintW (cfg : Cfg) (st : State) (e : Expr) : W (State × IRes) :=
  (evalExprT cfg st e).intoW st fun v => (E.of (printText cfg v)).intoW st fun t => st.writeW (t ++ ['\n'])

/-- an expression statement (eval.rs:739-753) -/
def evalExprStmtW (cfg : Cfg) (st : State) (e : Expr) : W (State × IRes) :=
  (evalExprT cfg st e).intoW st fun v =>
    if cfg.interactive then (E.of v.display).intoW st fun t => st.writeW (t ++ ['\n'])
    else .ret (st, .ok)

/-- `push_scope(); let ret = body(); pop_scope(); ret` (eval.rs:711-733) -/
def inScopeW (st : State) (body : State → W (State × IRes)) : W (State × IRes) :=
  W.bind (fun r => .ret (match r.1.vars.pop with
    | .ok vs => ({ r.1 with vars := vs }, r.2)
    | .error e => (r.1, .fail e))) (body { st with vars := st.vars.push })

/-- `eval_while` (eval.rs:568-595), see `whileLoopT` -/
def whileLoopW (cond : State → E Bool) (body : State → W (State × IRes)) : Nat → State → W (State × IRes)
  | 0, st => .ret (st, .fail .diverge)
  | fuel + 1, st =>
    (cond st).intoW st fun b =>
      if b then
        W.bind (fun r => match r with
          | (st', .ok) => whileLoopW cond body fuel st'
          | (st', .cont) => whileLoopW cond body fuel st'
          | (st', .brk) => .ret (st', .ok)
          | (st', r) => .ret (st', r)) (body st)
      else .ret (st, .ok)

/-- the loop of `eval_for` (eval.rs:622-635) over the remaining items -/
def forLoopW (name : Str) (body : State → W (State × IRes)) : List Value → State → W (State × IRes)
  | [], st => .ret (st, .ok)
  | v :: vs, st =>
    (E.of (st.vars.insert name v)).intoW st fun vars =>
      W.bind (fun r => match r with
        | (st', .ok) => forLoopW name body vs st'
        | (st', .cont) => forLoopW name body vs st'
        | (st', .brk) => .ret (st', .ok)
        | (st', r) => .ret (st', r)) (body { st with vars := vars })

/-- `eval_for` (eval.rs:597-638) -/
def evalForW (cfg : Cfg) (x range : Expr) (body : State → W (State × IRes)) (st : State) : W (State × IRes) :=
  match x with
  | .ident name =>
    (evalExprT cfg st range).intoW st fun v =>
      (E.of v.asVec).intoW st fun items => forLoopW name body items st
  | _ => .ret (st, .fail (.err (.notIdentifier s!' "Variable in for loop must be an identifier")))

mutual
/-- `eval_statement` (eval.rs:689-755); assignments and `filesystem` write nothing -/
def evalStmtW (cfg : Cfg) : Stmt → State → W (State × IRes)
  | .assign lhs rhs, st => (evalAssignT cfg st lhs rhs).asW
  | .ite c t f, st =>
    inScopeW st fun st =>
      (evalCondT cfg st c).intoW st fun b => if b then evalStmtsW cfg t st else evalStmtsW cfg f st
  | .while c body, st =>
    inScopeW st fun st => whileLoopW (fun st => evalCondT cfg st c) (evalStmtsW cfg body) cfg.fuel st
  | .for x range body, st => inScopeW st (evalForW cfg x range (evalStmtsW cfg body))
  | .brk, st => .ret (st, .brk)
  | .cont, st => .ret (st, .cont)
  | .help, st => st.writeW helpText
  | .quit, st => .ret (st, .quit)
  | .filesystem e, st => (evalFilesystemT cfg st e).asW
  | .print e, st => evalPrintW cfg st e
  | .expr e, st => evalExprStmtW cfg st e
/-- a sequence of statements (eval.rs:555-563, 582-591, 625-634, 831-836) -/
def evalStmtsW (cfg : Cfg) : List Stmt → State → W (State × IRes)
  | [], st => .ret (st, .ok)
  | s :: ss, st =>
    W.bind (fun r => match r with
      | (st', .ok) => evalStmtsW cfg ss st'
      | (st', r) => .ret (st', r)) (evalStmtW cfg s st)
end

/-- `Runtime::eval` (runtime.rs:26-41) -/
def runtimeEvalW (cfg : Cfg) (rs : RState) (cmd : Str) : W (RState × EvalResult) :=
  match parse cmd with
  | none => .ret (rs, .fail (.err (parseError cmd)))
  | some p =>
    match analyzeStmts p rs.sem with
    | (sem, .error e) => .ret ({ rs with sem := sem }, .fail e)
    | (sem, .ok _) => W.bind (fun r => .ret (⟨sem, r.1⟩, r.2.toEvalResult)) (evalStmtsW cfg p rs.ev)

/-! ### what is done, in order -/

/-- a request to the operating system, with the filesystem as it is when it is asked -/
inductive Query where
  | search (fs : Fs) (a : SearchArgs)
  | read (fs : Fs) (start stop : Nat)
  | opens (path : Str)

/-- something a process does -/
inductive Act where
  /-- the prompt returned this -/
  | took (e : ReplEvent)
  /-- a text on standard output -/
  | out (s : Str)
  /-- a line on standard error -/
  | err (l : ErrLine)
  /-- a request -/
  | asks (q : Query)
  /-- the request was answered -/
  | told (e : Event)

/-- a request that is never answered: the search goes on forever -/
def Event.endless : Event → Bool
  | .searched _ _ (.error .diverge) => true
  | _ => false

/-- the answer to a request, if there is one -/
def Event.answer (e : Event) : List Act := if e.endless then [] else [.told e]

/-- how far a computation got: the time, what was done, the result -/
structure Traced (α : Type) where
  clock : Nat
  acts : List Act
  result : α

/-- something was done before -/
def Traced.after {α : Type} (l : List Act) (x : Traced α) : Traced α := { x with acts := l ++ x.acts }

/-- a computation in a live world, see `T.live` -/
def W.live {α : Type} (fuel : Nat) (ω : Live) : W α → Nat → Traced α
  | .ret a, t => ⟨t, [], a⟩
  | .wrote s k, t => (k.live fuel ω t).after [.out s]
  | .warn w k, t => (k.live fuel ω t).after [.err (.warning w)]
  | .search fs a k, t =>
    ((k ((ω.drift t fs).search fuel a)).live fuel ω (t + 1)).after
      (.asks (.search (ω.drift t fs) a) :: (Event.searched (ω.drift t fs) a ((ω.drift t fs).search fuel a)).answer)
  | .bytes fs i j k, t =>
    ((k ((ω.drift t fs).getBytes i j)).live fuel ω (t + 1)).after
      (.asks (.read (ω.drift t fs) i j) :: (Event.read (ω.drift t fs) i j ((ω.drift t fs).getBytes i j)).answer)
  | .opens p k, t =>
    ((k (Fs.new (ω.host t) p)).live fuel ω (t + 1)).after
      (.asks (.opens p) :: (Event.opened p (Fs.new (ω.host t) p)).answer)

/-! ### the process -/

/-- what becomes of an entry that was evaluated (main.rs:91-101), see `procLine` -/
def lineEnd : EvalResult → List Act × ProcStatus
  | .ok => ([], .running)
  | .quit => ([], .over)
  | .fail (.err e) => ([.err (.error e.text)], .running)
  | .fail .panic => ([.err .panicked], .panicked)
  | .fail .diverge => ([], .hung)

/-- `println!`, see `State.println`: what fits is written, the panic if it was not all -/
def State.printlnActs (st : State) (s : Str) : List Act :=
  .out (st.sink.takes (s ++ ['\n'])) :: if (st.println s).2 then [] else [.err .panicked]

/-- `println!` by the process, see `Proc.println` -/
def RState.printlnW (rs : RState) (s : Str) (then_ : ProcStatus) : (RState × ProcStatus) × List Act :=
  (({ rs with ev := (rs.ev.println s).1 }, if (rs.ev.println s).2 then then_ else .panicked), rs.ev.printlnActs s)

/-- one iteration of the loop of `repl` (main.rs:86-114) after the prompt has returned, see `procStepL` -/
def stepW (cfg : Cfg) (ω : Live) (rs : RState) : ReplEvent → (RState × ProcStatus) × List Act
  | .line s =>
    let l := (runtimeEvalW cfg rs (fixupInput (stripComments s))).live cfg.fuel ω 0
    ((l.result.1, (lineEnd l.result.2).2), l.acts ++ (lineEnd l.result.2).1)
  | .interrupted => ((rs, .running), [.err .hint])
  | .eof => rs.printlnW s!' "quit" .over
  | .otherError => ((rs.printlnW s!' "quit" .running).1, .err .logged :: (rs.printlnW s!' "quit" .running).2)

/-- the same interpreter in a changed world, see `Proc.meets` -/
def RState.meets (rs : RState) (drift : Fs → Fs) : RState := { rs with ev := { rs.ev with fs := rs.ev.fs.map drift } }

/-- the loop of `repl` (main.rs:85-115), see `procRunL` -/
def runW (cfg : Cfg) : RState → List LiveTick → (RState × ProcStatus) × List Act
  | rs, [] => ((rs, .running), [])
  | rs, t :: ts =>
    match stepW cfg t.world (rs.meets t.drift) t.event with
    | ((rs', .running), acts) => ((runW cfg rs' ts).1, .took t.event :: acts ++ (runW cfg rs' ts).2)
    | (r, acts) => (r, .took t.event :: acts)

/-- `println!`s in a row, see `State.printlns` -/
def State.printlnsActs (st : State) : List Str → List Act
  | [] => []
  | s :: ss =>
    match st.println s with
    | (st', true) => st.printlnActs s ++ st'.printlnsActs ss
    | (_, false) => st.printlnActs s

/-- the end of `repl` (main.rs:116-120), see `procEnd` -/
def endW (saved : Bool) : ProcStatus → List Act × Exit
  | .running => ([], .running)
  | .over => if saved then ([], .success) else ([.err (.error none)], .failure)
  | .panicked => ([], .panicked)
  | .hung => ([], .busy)

/-- `repl` (main.rs:78-120): everything it does, and how the process ends, see `replMainL` -/
def replActs (cfg : Cfg) (room : Option Nat) (editor saved : Bool) (events : List LiveTick) : List Act × Exit :=
  if editor then
    match procStart cfg room with
    | (p, .running) =>
      let r := runW { cfg with interactive := true } p.rs events
      ((State.new cfg room).printlnsActs welcomeLines ++ r.2 ++ (endW saved r.1.2).1, (endW saved r.1.2).2)
    | (_, s) => ((State.new cfg room).printlnsActs welcomeLines, (endW saved s).2)
  else ([.err (.error none)], .failure)

/-- `script` (main.rs:122-137): everything it does, and how the process ends, see `scriptMainL` -/
def scriptActs (cfg : Cfg) (room : Option Nat) (ω : Live) (file : Option Bytes) : List Act × Exit :=
  match file with
  | none => ([.err (.error none)], .failure)
  | some b =>
    match decodeUtf8 b with
    | none => ([.err (.error none)], .failure)
    | some s =>
      let cfg := { cfg with interactive := false }
      let l := (runtimeEvalW cfg (RState.new cfg room) (stripComments s)).live cfg.fuel ω 0
      (l.acts ++ (scriptExit l.result.2).1.map .err, (scriptExit l.result.2).2)

end Btrd
