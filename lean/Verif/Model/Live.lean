/-
The evaluator as a program that asks the operating system: where `Model/Eval` takes the replies as fixed during one
entry and leaves out the warnings on standard error, here every search, every read of an image and every opening of a
filesystem is a request that is answered at its own moment, and the order in which operands and arguments are evaluated
matters.
-/
import Verif.Model.Main

namespace Btrd

/-- a computation that asks the operating system and writes warnings -/
inductive T (α : Type) where
  | ret (a : α)
  /-- `eprintln!("Warning: failed to find a matching on-disk struct for key [..]")` (eval.rs:399-402) -/
  | warn (w : Warned) (k : T α)
  /-- `Fs::search` (fs.rs:166-286) on this filesystem -/
  | search (fs : Fs) (a : SearchArgs) (k : R (List Item) → T α)
  /-- `Fs::get_bytes` (fs.rs:288-298) on this filesystem -/
  | bytes (fs : Fs) (start stop : Nat) (k : R Bytes → T α)
  /-- `Fs::new` (fs.rs:102-121) of this path -/
  | opens (path : Str) (k : R Fs → T α)

/-- one computation after the other -/
def T.bind {α β : Type} (f : α → T β) : T α → T β
  | .ret a => f a
  | .warn w k => .warn w (k.bind f)
  | .search fs a k => .search fs a fun r => (k r).bind f
  | .bytes fs i j k => .bytes fs i j fun r => (k r).bind f
  | .opens p k => .opens p fun r => (k r).bind f

/-- a computation that may fail: what comes after it is not done then (`?`) -/
def E (α : Type) : Type := T (R α)

instance : Monad E where
  pure a := T.ret (.ok a)
  bind x f := T.bind (fun r => match r with
    | .ok a => f a
    | .error e => T.ret (.error e)) x

/-- a step that neither asks nor warns -/
def E.of {α : Type} (r : R α) : E α := T.ret r

/-- `Fs::search` -/
def E.search (fs : Fs) (a : SearchArgs) : E (List Item) := T.search fs a T.ret

/-- `Fs::get_bytes` -/
def E.bytes (fs : Fs) (start stop : Nat) : E Bytes := T.bytes fs start stop T.ret

/-- `Fs::new` -/
def E.opens (path : Str) : E Fs := T.opens path T.ret

/-- the warning -/
def E.warn (w : Warned) : E Unit := T.warn w (T.ret (.ok ()))

/-- both operands as integers, left first (e.g. eval.rs:102-103) -/
def intOpT (f : Int → Int → R Value) (l r : E Value) : E Value := do
  let lv ← l
  let li ← .of lv.asInteger
  let rv ← r
  let ri ← .of rv.asInteger
  .of (f li ri)

/-- `eval_binop_expr` (eval.rs:74-244) -/
def binopT (op : BinOp) (l r : E Value) : E Value :=
  match op with
  | .plus => do
    let lv ← l
    let rv ← r
    .of (plusOp lv rv)
  | .minus => intOpT (fun i j => checkedI128 (.overflow i s!' "-" j) (i - j)) l r
  | .mul => intOpT (fun i j => checkedI128 (.overflow i s!' "*" j) (i * j)) l r
  | .div => intOpT divI128 l r
  | .mod => intOpT remI128 l r
  | .bor => intOpT (bitI128 (· ||| ·)) l r
  | .band => intOpT (bitI128 (· &&& ·)) l r
  | .bxor => intOpT (bitI128 (· ^^^ ·)) l r
  | .shl => intOpT shlI128 l r
  | .shr => intOpT shrI128 l r
  | .lt => intOpT (fun i j => .ok (.bool (decide (i < j)))) l r
  | .le => intOpT (fun i j => .ok (.bool (decide (i ≤ j)))) l r
  | .gt => intOpT (fun i j => .ok (.bool (decide (i > j)))) l r
  | .ge => intOpT (fun i j => .ok (.bool (decide (i ≥ j)))) l r
  | .eq => do
    let lv ← l
    let rv ← r
    .of (.ok (.bool (Value.beq lv rv)))
  | .ne => do
    let lv ← l
    let rv ← r
    .of (.ok (.bool (!Value.beq lv rv)))
  | .lor => do
    let lv ← l
    let lb ← .of lv.asBoolean
    if lb then .of (.ok (.bool true))
    else do
      let rv ← r
      let rb ← .of rv.asBoolean
      .of (.ok (.bool rb))
  | .land => do
    let lv ← l
    let lb ← .of lv.asBoolean
    if !lb then .of (.ok (.bool false))
    else do
      let rv ← r
      let rb ← .of rv.asBoolean
      .of (.ok (.bool rb))

/-- `~`, `!`, unary `-` of `eval_unary_expr` (eval.rs:246-263) -/
def unopT (b : Build) (op : UnOp) (v : E Value) : E Value := do
  let x ← v
  .of (unop b op (.ok x))

/-- the cast arm of `eval_unary_expr` (eval.rs:264-309) -/
def castOpT (b : Build) (fs : Option Fs) (ty : Expr) (v : E Value) : E Value := do
  let x ← v
  let bytenr ← .of x.asInteger
  if bytenr < 0 then .of (R.err (.negativeBytenr bytenr))
  else
    let start := asUsize bytenr
    match ty with
    | .ident name =>
      match findStruct name with
      | none => .of R.panic
      | some s =>
        let size := if s.size = 0 then 1024 else s.size
        match fs with
        | none => .of (R.err .noFilesystem)
        | some fs => do
          let stop ← .of (usizeAdd b start size)
          let bytes ← .bytes fs start stop
          let sv ← .of (structFromBytes b s none bytes)
          .of (.ok (.struct sv.name sv.key sv.fields))
    | _ => .of R.panic

/-- evaluate arguments in order, requiring integers (eval.rs:318-325) -/
def intArgsT : List (E Value) → E (List Value)
  | [] => .of (.ok [])
  | r :: rs => do
    let v ← r
    let _ ← .of v.asInteger
    let vs ← intArgsT rs
    .of (.ok (v :: vs))

/-- `key()` (eval.rs:315-343) -/
def keyFnT (b : Build) (args : List (E Value)) : E Value := do
  .of (ensure (args.length == 4) (.argCount s!' "'key()' requires 4 arguments"))
  let vals ← intArgsT args
  .of (keyFn b (vals.map .ok))

/-- decode the items of a search, with the warnings about those of unknown type (eval.rs:373-404) -/
def decodeItemsT (b : Build) : List Item → E (List Value)
  | [] => .of (.ok [])
  | (h, bytes) :: its =>
    match structForKey h.objectid h.ty h.offset with
    | some s => do
      let sv ← .of (structFromBytes b s (some (h.objectid, h.ty, h.offset)) bytes)
      let vs ← decodeItemsT b its
      .of (.ok (.struct sv.name sv.key sv.fields :: vs))
    | none => do
      .warn ⟨h.objectid, h.ty, h.offset⟩
      decodeItemsT b its

/-- `search()` (eval.rs:344-410) -/
def searchFnT (b : Build) (fs : Option Fs) (args : List (E Value)) : E Value := do
  .of (ensure (args.length == 2) (.argCount s!' "'search()' requires 2 arguments"))
  match args with
  | [a0, a1] =>
    let v0 ← a0
    let tree ← .of v0.asInteger
    let v1 ← a1
    let key ← .of v1.asStruct
    .of (ensure (key.name == BTRFS_SEARCH_KEY.name) .notSearchKey)
    match fs with
    | none => .of (R.err .noFilesystem)
    | some fs =>
      let sa ← .of (searchArgs tree key)
      let chunks ← .search fs sa
      let vs ← decodeItemsT b chunks
      .of (.ok (.array vs false))
  | _ => .of R.panic

/-- the one argument of a unary function (e.g. eval.rs:412-413) -/
def arg1T (msg : Str) (args : List (E Value)) : E Value := do
  .of (ensure (args.length == 1) (.argCount msg))
  match args with
  | [a] => a
  | _ => .of R.panic

/-- `eval_function` (eval.rs:313-462). What the functions of one argument do with it, and `hist()`, is as in
`Model/Eval`. -/
def callFnT (cfg : Cfg) (fs : Option Fs) (f : E Value) (args : List (E Value)) : E Value := do
  let fv ← f
  let fn ← .of fv.asFunction
  match fn with
  | .key => keyFnT cfg.build args
  | .search => searchFnT cfg.build fs args
  | .typeOf => do
    let v ← arg1T s!' "'typeof()' requires 1 argument" args
    .of (typeofFn [.ok v])
  | .keyOf => do
    let v ← arg1T s!' "'keyof()' requires 1 argument" args
    .of (keyofFn cfg.build [.ok v])
  | .len => do
    let v ← arg1T s!' "'len()' requires 1 argument" args
    .of (lenFn [.ok v])
  | .hist => do
    .of (ensure args.isEmpty (.argCount s!' "'hist()' takes no arguments"))
    .of (histFn [])
  | .str => do
    let v ← arg1T s!' "str() requires 1 argument" args
    .of (strFn [.ok v])

/-- field access (eval.rs:467-479) -/
def fieldOpT (v : E Value) (f : Expr) : E Value := do
  let x ← v
  .of (fieldOp (.ok x) f)

/-- indexing (eval.rs:480-490): the array, then the index -/
def indexOpT (v i : E Value) : E Value := do
  let x ← v
  let vec ← .of x.asVec
  let iv ← i
  let idx ← .of iv.asInteger
  let n ← .of (tryUnsigned 64 idx)
  .of (orErr vec[n]? (.indexRange idx vec.length))

mutual
/-- `eval_expr` (eval.rs:464-495) and `eval_primary_expr` (eval.rs:56-72) -/
def evalExprT (cfg : Cfg) (st : State) : Expr → E Value
  | .ident name => .of (orErr (st.vars.get name) (.unknownVar name))
  | .int i => .of (.ok (.int i))
  | .bool b => .of (.ok (.bool b))
  | .str s => .of (.ok (.str (utf8 s)))
  | .paren e => evalExprT cfg st e
  | .field e f => fieldOpT (evalExprT cfg st e) f
  | .index e i => indexOpT (evalExprT cfg st e) (evalExprT cfg st i)
  | .call f args => callFnT cfg st.fs (evalExprT cfg st f) (evalArgsT cfg st args)
  | .bin op l r => binopT op (evalExprT cfg st l) (evalExprT cfg st r)
  | .un op e => unopT cfg.build op (evalExprT cfg st e)
  | .cast ty e => castOpT cfg.build st.fs ty (evalExprT cfg st e)
/-- the evaluations of the arguments (`eval_expr(&args[i])`, eval.rs:321, 347-348, 413) -/
def evalArgsT (cfg : Cfg) (st : State) : List Expr → List (E Value)
  | [] => []
  | e :: es => evalExprT cfg st e :: evalArgsT cfg st es
end

/-- a condition (eval.rs:546-552, 570-576) -/
def evalCondT (cfg : Cfg) (st : State) (e : Expr) : E Bool := do
  let v ← evalExprT cfg st e
  .of v.asBoolean

/-- `eval_lhs_assign` (eval.rs:641-687), see `modifyLhs` -/
def modifyLhsT (cfg : Cfg) (st : State) : Expr → (Value → R Value) → E (Vars Value)
  | .field e fld, f =>
    match fld with
    | .ident name =>
      modifyLhsT cfg st e fun v =>
        match v with
        | .struct n k fs => do
          let fs' ← modifyField n f fs name
          .ok (.struct n k fs')
        | _ => R.err (.badLhs s!' "Field access must be used on a struct")
    | _ => .of (R.err (.notIdentifier s!' "Field in a field access must be an identifier"))
  | .index e i, f => do
    let iv ← evalExprT cfg st i
    let idx ← .of iv.asInteger
    modifyLhsT cfg st e fun v =>
      match v with
      | .array vec h => do
        let n ← tryUnsigned 64 idx
        let vec' ← modifyNth (.indexRange idx vec.length) f vec n
        .ok (.array vec' h)
      | _ => R.err (.badLhs s!' "Array index must be used on an array")
  -- a variable, or an expression that cannot be assigned to: nothing is evaluated
  | e, f => .of (modifyLhs cfg st e f)

/-- what a statement does with the result of a computation: failing leaves the state as it is -/
def E.into {α : Type} (x : E α) (st : State) (k : α → T (State × IRes)) : T (State × IRes) :=
  T.bind (fun r => match r with
    | .ok a => k a
    | .error e => .ret (st, .fail e)) x

/-- assignment (eval.rs:691-710) -/
def evalAssignT (cfg : Cfg) (st : State) (lhs rhs : Expr) : T (State × IRes) :=
  (evalExprT cfg st rhs).into st fun v =>
    match lhs with
    | .ident name => (E.of (st.vars.insert name v)).into st fun vs => .ret ({ st with vars := vs }, .ok)
    | lhs => (modifyLhsT cfg st lhs (fun _ => .ok v)).into st fun vs => .ret ({ st with vars := vs }, .ok)

/-- `filesystem` (eval.rs:501-514) -/
def evalFilesystemT (cfg : Cfg) (st : State) (e : Expr) : T (State × IRes) :=
  (evalExprT cfg st e).into st fun v =>
    (E.of (v.asString true)).into st fun path =>
      (E.opens path).into st fun fs => .ret ({ st with fs := some fs }, .ok)

/-- `print` (eval.rs:515-536) -/
def evalPrintT (cfg : Cfg) (st : State) (e : Expr) : T (State × IRes) :=
  (evalExprT cfg st e).into st fun v =>
    (E.of (printText cfg v)).into st fun t => .ret (st.write (t ++ ['\n']))

/-- an expression statement (eval.rs:739-753) -/
def evalExprStmtT (cfg : Cfg) (st : State) (e : Expr) : T (State × IRes) :=
  (evalExprT cfg st e).into st fun v =>
    if cfg.interactive then (E.of v.display).into st fun t => .ret (st.write (t ++ ['\n']))
    else .ret (st, .ok)

/-- `push_scope(); let ret = body(); pop_scope(); ret` (eval.rs:711-733) -/
def inScopeT (st : State) (body : State → T (State × IRes)) : T (State × IRes) :=
  T.bind (fun r => .ret (match r.1.vars.pop with
    | .ok vs => ({ r.1 with vars := vs }, r.2)
    | .error e => (r.1, .fail e))) (body { st with vars := st.vars.push })

/-- `eval_while` (eval.rs:568-595), given the condition and the body, at most `fuel` tests of the condition -/
def whileLoopT (cond : State → E Bool) (body : State → T (State × IRes)) : Nat → State → T (State × IRes)
  | 0, st => .ret (st, .fail .diverge)
  | fuel + 1, st =>
    (cond st).into st fun b =>
      if b then
        T.bind (fun r => match r with
          | (st', .ok) => whileLoopT cond body fuel st'
          | (st', .cont) => whileLoopT cond body fuel st'
          | (st', .brk) => .ret (st', .ok)
          | (st', r) => .ret (st', r)) (body st)
      else .ret (st, .ok)

/-- the loop of `eval_for` (eval.rs:622-635) over the remaining items -/
def forLoopT (name : Str) (body : State → T (State × IRes)) : List Value → State → T (State × IRes)
  | [], st => .ret (st, .ok)
  | v :: vs, st =>
    (E.of (st.vars.insert name v)).into st fun vars =>
      T.bind (fun r => match r with
        | (st', .ok) => forLoopT name body vs st'
        | (st', .cont) => forLoopT name body vs st'
        | (st', .brk) => .ret (st', .ok)
        | (st', r) => .ret (st', r)) (body { st with vars := vars })

/-- `eval_for` (eval.rs:597-638): the range is evaluated once -/
def evalForT (cfg : Cfg) (x range : Expr) (body : State → T (State × IRes)) (st : State) : T (State × IRes) :=
  match x with
  | .ident name =>
    (evalExprT cfg st range).into st fun v =>
      (E.of v.asVec).into st fun items => forLoopT name body items st
  | _ => .ret (st, .fail (.err (.notIdentifier s!' "Variable in for loop must be an identifier")))

mutual
/-- `eval_statement` (eval.rs:689-755) -/
def evalStmtT (cfg : Cfg) : Stmt → State → T (State × IRes)
  | .assign lhs rhs, st => evalAssignT cfg st lhs rhs
  | .ite c t f, st =>
    inScopeT st fun st =>
      (evalCondT cfg st c).into st fun b => if b then evalStmtsT cfg t st else evalStmtsT cfg f st
  | .while c body, st =>
    inScopeT st fun st => whileLoopT (fun st => evalCondT cfg st c) (evalStmtsT cfg body) cfg.fuel st
  | .for x range body, st => inScopeT st (evalForT cfg x range (evalStmtsT cfg body))
  | .brk, st => .ret (st, .brk)
  | .cont, st => .ret (st, .cont)
  | .help, st => .ret (st.write helpText)
  | .quit, st => .ret (st, .quit)
  | .filesystem e, st => evalFilesystemT cfg st e
  | .print e, st => evalPrintT cfg st e
  | .expr e, st => evalExprStmtT cfg st e
/-- a sequence of statements (eval.rs:555-563, 582-591, 625-634, 831-836) -/
def evalStmtsT (cfg : Cfg) : List Stmt → State → T (State × IRes)
  | [], st => .ret (st, .ok)
  | s :: ss, st =>
    T.bind (fun r => match r with
      | (st', .ok) => evalStmtsT cfg ss st'
      | (st', r) => .ret (st', r)) (evalStmtT cfg s st)
end

/-- `Runtime::eval` (runtime.rs:26-41) -/
def runtimeEvalT (cfg : Cfg) (rs : RState) (cmd : Str) : T (RState × EvalResult) :=
  match parse cmd with
  | none => .ret (rs, .fail (.err (parseError cmd)))
  | some p =>
    match analyzeStmts p rs.sem with
    | (sem, .error e) => .ret ({ rs with sem := sem }, .fail e)
    | (sem, .ok _) => T.bind (fun r => .ret (⟨sem, r.1⟩, r.2.toEvalResult)) (evalStmtsT cfg p rs.ev)

/-! ### the world that answers -/

/-- the world while an entry is evaluated: what the operating system says, and what has become of a filesystem that
was opened before, at each moment -/
structure Live where
  host : Nat → Host
  drift : Nat → Fs → Fs

/-- what can be seen of a computation from outside, besides its output: the requests to the operating system, with
the filesystem as it was at that moment and the answer, and the warnings on standard error -/
inductive Event where
  | searched (fs : Fs) (a : SearchArgs) (r : R (List Item))
  | read (fs : Fs) (start stop : Nat) (r : R Bytes)
  | opened (path : Str) (r : R Fs)
  | warned (w : Warned)

/-- how far a computation got: the time, what happened, its result -/
structure Lived (α : Type) where
  clock : Nat
  log : List Event
  result : α

/-- something happened before -/
def Lived.after {α : Type} (e : Event) (l : Lived α) : Lived α := { l with log := e :: l.log }

/-- a computation in a live world, from this moment on; time passes with every request -/
def T.live {α : Type} (fuel : Nat) (ω : Live) : T α → Nat → Lived α
  | .ret a, t => ⟨t, [], a⟩
  | .warn w k, t => (k.live fuel ω t).after (.warned w)
  | .search fs a k, t =>
    ((k ((ω.drift t fs).search fuel a)).live fuel ω (t + 1)).after
      (.searched (ω.drift t fs) a ((ω.drift t fs).search fuel a))
  | .bytes fs i j k, t =>
    ((k ((ω.drift t fs).getBytes i j)).live fuel ω (t + 1)).after (.read (ω.drift t fs) i j ((ω.drift t fs).getBytes i j))
  | .opens p k, t =>
    ((k (Fs.new (ω.host t) p)).live fuel ω (t + 1)).after (.opened p (Fs.new (ω.host t) p))

/-- a world that does not change -/
def Live.steady (h : Host) : Live where
  host _ := h
  drift _ fs := fs

/-- the text of a warning (eval.rs:399-402) -/
def Warned.text (w : Warned) : Str :=
  s!' "Warning: failed to find a matching on-disk struct for key [" ++ natDisplay w.objectid ++ s!' ", " ++
    natDisplay w.ty ++ s!' ", " ++ natDisplay w.offset ++ s!' "]"

/-- the warnings among what happened, as lines on standard error -/
def warningLines (log : List Event) : List ErrLine :=
  log.filterMap fun e => match e with
    | .warned w => some (.warning w)
    | _ => none

/-! ### the process -/

/-- an event at the prompt, what has become of the filesystem in use since the last event, and the world from now
until the next event -/
structure LiveTick where
  drift : Fs → Fs
  world : Live
  event : ReplEvent

/-- what becomes of an entry that was evaluated (main.rs:91-101): the warnings come before the message about it -/
def procLine (err : List ErrLine) (l : Lived (RState × EvalResult)) : (Proc × ProcStatus) × List Event :=
  match l.result with
  | (rs, .ok) => ((⟨rs, err ++ warningLines l.log⟩, .running), l.log)
  | (rs, .quit) => ((⟨rs, err ++ warningLines l.log⟩, .over), l.log)
  | (rs, .fail (.err e)) => ((⟨rs, err ++ warningLines l.log ++ [.error e.text]⟩, .running), l.log)
  | (rs, .fail .panic) => ((⟨rs, err ++ warningLines l.log ++ [.panicked]⟩, .panicked), l.log)
  | (rs, .fail .diverge) => ((⟨rs, err ++ warningLines l.log⟩, .hung), l.log)

/-- one iteration of the loop of `repl` (main.rs:86-114), see `procStep` -/
def procStepL (cfg : Cfg) (ω : Live) (p : Proc) : ReplEvent → (Proc × ProcStatus) × List Event
  | .line s => procLine p.err ((runtimeEvalT cfg p.rs (fixupInput (stripComments s))).live cfg.fuel ω 0)
  | e => (procStep cfg p e, [])

/-- the loop of `repl` (main.rs:85-115), with everything that happened -/
def procRunL (cfg : Cfg) : Proc → List LiveTick → (Proc × ProcStatus) × List Event
  | p, [] => ((p, .running), [])
  | p, t :: ts =>
    match procStepL cfg t.world (p.meets t.drift) t.event with
    | ((p', .running), log) => ((procRunL cfg p' ts).1, log ++ (procRunL cfg p' ts).2)
    | r => r

/-- `repl` (main.rs:78-120), see `replMain` -/
def replMainL (cfg : Cfg) (room : Option Nat) (editor saved : Bool) (events : List LiveTick) : Ended × List Event :=
  if editor then
    match procStart cfg room with
    | (p, .running) =>
      let r := procRunL { cfg with interactive := true } p events
      (procEnd saved r.1, r.2)
    | r => (procEnd saved r, [])
  else (⟨[], [.error none], .failure⟩, [])

/-- `script` (main.rs:122-137), see `scriptMain` and `scriptRun` -/
def scriptMainL (cfg : Cfg) (room : Option Nat) (ω : Live) (file : Option Bytes) : Ended × List Event :=
  match file with
  | none => (⟨[], [.error none], .failure⟩, [])
  | some b =>
    match decodeUtf8 b with
    | none => (⟨[], [.error none], .failure⟩, [])
    | some s =>
      let cfg := { cfg with interactive := false }
      let l := (runtimeEvalT cfg (RState.new cfg room) (stripComments s)).live cfg.fuel ω 0
      (⟨l.result.1.ev.sink.out, warningLines l.log ++ (scriptExit l.result.2).1, (scriptExit l.result.2).2⟩, l.log)

end Btrd
