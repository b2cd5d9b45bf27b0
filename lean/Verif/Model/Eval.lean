/-
Model of `src/lang/eval/eval.rs`.
-/
import Verif.Model.Semantics
import Verif.Model.Decode
import Verif.Model.Hist
import Verif.Model.Fs

namespace Btrd

/-- Everything fixed during a run: the build profile, the operating system, whether the evaluator is
interactive (eval.rs:50), and the model's bound on loop iterations. -/
structure Cfg where
  build : Build
  host : Host
  interactive : Bool
  fuel : Nat

/-- The output sink (eval.rs:49): what has been written, and how many more characters it will accept
before writes start to fail (`none`: never). -/
structure Sink where
  out : Str
  room : Option Nat

/-- `write!(sink, ...)` (eval.rs:530, 746, 804): what fits is written; if something did not fit, the write
fails. -/
def Sink.write (k : Sink) (s : Str) : Sink × R Unit :=
  match k.room with
  | none => (⟨k.out ++ s, none⟩, .ok ())
  | some n =>
    if s.length ≤ n then (⟨k.out ++ s, some (n - s.length)⟩, .ok ())
    else (⟨k.out ++ s.take n, some 0⟩, R.err .sink)

/-- `Eval` (eval.rs:48-53) -/
structure State where
  sink : Sink
  vars : Vars Value
  fs : Option Fs

/-- `InternalEvalResult` (eval.rs:24-30); failures include panics and divergence -/
inductive IRes where
  | ok
  | quit
  | brk
  | cont
  | fail (f : Fail)
deriving DecidableEq, Repr

/-- `checked_add`, `checked_sub`, `checked_mul` of i128 (eval.rs:82-84, 105-107, 115-117): the exact result `x`, or
the error -/
def checkedI128 (e : Err) (x : Int) : R Value := if inI128 x then .ok (.int x) else R.err e

/-- `/` (eval.rs:121-134): zero is refused, then `checked_div` (truncating) -/
def divI128 (l r : Int) : R Value :=
  if r = 0 then R.err .divByZero else checkedI128 (.overflow l s!' "/" r) (l.tdiv r)

/-- `%` (eval.rs:135-148): zero is refused, then `checked_rem`, which is `None` exactly when the
quotient overflows -/
def remI128 (l r : Int) : R Value :=
  if r = 0 then R.err .divByZero
  else if inI128 (l.tdiv r) then .ok (.int (l.tmod r)) else R.err (.overflow l s!' "%" r)

/-- an i128 bit operation (eval.rs:153, 159, 165) -/
def bitI128 (f : BitVec 128 → BitVec 128 → BitVec 128) (l r : Int) : R Value :=
  .ok (.int (f (BitVec.ofInt 128 l) (BitVec.ofInt 128 r)).toInt)

/-- `<<` (eval.rs:167-176): the amount must fit a u32 and be below 128; bits shifted out are lost -/
def shlI128 (l r : Int) : R Value := do
  let n ← tryUnsigned 32 r
  if n < 128 then .ok (.int (wrapI128 (l * 2 ^ n))) else R.err (.overflow l s!' "<<" r)

/-- `>>` (eval.rs:177-186): arithmetic shift -/
def shrI128 (l r : Int) : R Value := do
  let n ← tryUnsigned 32 r
  if n < 128 then .ok (.int (l / 2 ^ n)) else R.err (.overflow l s!' ">>" r)

/-- both operands as integers, left first (the common prefix of most arms of
`eval_binop_expr`, e.g. eval.rs:102-103) -/
def intOp (f : Int → Int → R Value) (l r : R Value) : R Value := do
  let lv ← l
  let li ← lv.asInteger
  let rv ← r
  let ri ← rv.asInteger
  f li ri

/-- `+` (eval.rs:76-100) -/
def plusOp (l r : Value) : R Value :=
  match l, r with
  | .int i, .int j => checkedI128 (.overflow i s!' "+" j) (i + j)
  | .array vec h, v => .ok (.array (vec ++ [v]) h)
  | .str s, .str t => .ok (.str (s ++ t))
  | l, r => R.err (.cannotAdd l.typeStr r.typeStr)

/-- `eval_binop_expr` (eval.rs:74-244), given the results of evaluating the two operands. Expression
evaluation takes `&self` and has no effects, so passing a result that a lazy operator does not look at is
the same as not evaluating. -/
def binop (op : BinOp) (l r : R Value) : R Value :=
  match op with
  | .plus => do
    let lv ← l
    let rv ← r
    plusOp lv rv
  | .minus => intOp (fun i j => checkedI128 (.overflow i s!' "-" j) (i - j)) l r
  | .mul => intOp (fun i j => checkedI128 (.overflow i s!' "*" j) (i * j)) l r
  | .div => intOp divI128 l r
  | .mod => intOp remI128 l r
  | .bor => intOp (bitI128 (· ||| ·)) l r
  | .band => intOp (bitI128 (· &&& ·)) l r
  | .bxor => intOp (bitI128 (· ^^^ ·)) l r
  | .shl => intOp shlI128 l r
  | .shr => intOp shrI128 l r
  | .lt => intOp (fun i j => .ok (.bool (decide (i < j)))) l r
  | .le => intOp (fun i j => .ok (.bool (decide (i ≤ j)))) l r
  | .gt => intOp (fun i j => .ok (.bool (decide (i > j)))) l r
  | .ge => intOp (fun i j => .ok (.bool (decide (i ≥ j)))) l r
  | .eq => do
    let lv ← l
    let rv ← r
    .ok (.bool (Value.beq lv rv))
  | .ne => do
    let lv ← l
    let rv ← r
    .ok (.bool (!Value.beq lv rv))
  | .lor => do
    let lv ← l
    let lb ← lv.asBoolean
    if lb then .ok (.bool true)
    else do
      let rv ← r
      let rb ← rv.asBoolean
      .ok (.bool rb)
  | .land => do
    let lv ← l
    let lb ← lv.asBoolean
    if !lb then .ok (.bool false)
    else do
      let rv ← r
      let rb ← rv.asBoolean
      .ok (.bool rb)

/-- `~`, `!`, unary `-` of `eval_unary_expr` (eval.rs:246-263) -/
def unop (b : Build) (op : UnOp) (v : R Value) : R Value :=
  match op with
  | .bitNot => do
    let x ← v
    let i ← x.asInteger
    .ok (.int (~~~(BitVec.ofInt 128 i)).toInt)
  | .not => do
    let x ← v
    match x with
    | .int i => .ok (.bool (decide (i = 0)))
    | .bool b => .ok (.bool (!b))
    | v => v.mismatch s!' "integer or boolean"
  | .minus => do
    let x ← v
    let i ← x.asInteger
    let n ← negI128 b i
    .ok (.int n)

/-- `STRUCTS.iter().find(|s| s.name == s_name)` (eval.rs:286) -/
def findStruct (name : Str) : Option StructDef := structs.find? fun s => s.name == name

/-- the cast arm of `eval_unary_expr` (eval.rs:264-309), given the type and the result of the operand -/
def castOp (b : Build) (fs : Option Fs) (ty : Expr) (v : R Value) : R Value := do
  let x ← v
  let bytenr ← x.asInteger
  if bytenr < 0 then R.err (.negativeBytenr bytenr)
  else
    let start := asUsize bytenr
    match ty with
    | .ident name =>
      match findStruct name with
      | none => R.panic
      | some s =>
        let size := if s.size = 0 then 1024 else s.size
        match fs with
        | none => R.err .noFilesystem
        | some fs => do
          let stop ← usizeAdd b start size
          let bytes ← fs.getBytes start stop
          let sv ← structFromBytes b s none bytes
          .ok (.struct sv.name sv.key sv.fields)
    | _ => R.panic

/-- assignment through `field_mut` (value.rs:412-425): replace the first field with the name; `what` is the name of
the struct -/
def setField (what : Str) : List (Str × Value) → Str → Value → R (List (Str × Value))
  | [], name, _ => R.err (.noField name what)
  | (n, v) :: fs, name, new =>
    if n = name then .ok ((n, new) :: fs)
    else
      match setField what fs name new with
      | .ok fs' => .ok ((n, v) :: fs')
      | .error e => .error e

/-- assign several fields in order (eval.rs:330-340, 426-428) -/
def setFields (what : Str) : List (Str × Value) → List (Str × Value) → R (List (Str × Value))
  | fs, [] => .ok fs
  | fs, (n, v) :: rest => do
    let fs' ← setField what fs n v
    setFields what fs' rest

/-- evaluate arguments in order, requiring integers (eval.rs:318-325) -/
def intArgs : List (R Value) → R (List Value)
  | [] => .ok []
  | r :: rs => do
    let v ← r
    let _ ← v.asInteger
    let vs ← intArgs rs
    .ok (v :: vs)

/-- `key()` (eval.rs:315-343) -/
def keyFn (b : Build) (args : List (R Value)) : R Value := do
  ensure (args.length == 4) (.argCount s!' "'key()' requires 4 arguments")
  let vals ← intArgs args
  let s ← structFromBytes b BTRFS_SEARCH_KEY none (List.replicate BTRFS_SEARCH_KEY.size 0)
  match vals with
  | [oid, ty, off, trans] =>
    let fs ← setFields s.name s.fields
      [(s!' "min_objectid", oid), (s!' "max_objectid", .int u64Max),
       (s!' "min_type", ty), (s!' "max_type", .int u8Max),
       (s!' "min_offset", off), (s!' "max_offset", .int u64Max),
       (s!' "min_transid", trans), (s!' "max_transid", .int u64Max)]
    .ok (.struct s.name s.key fs)
  | _ => R.panic

/-- `key.field(name)?.as_integer()?.try_into()?` (eval.rs:359-366) -/
def keyArg (k : StructVal) (name : Str) (bits : Nat) : R Nat := do
  let v ← k.field name
  let i ← v.asInteger
  tryUnsigned bits i

/-- the arguments of `fs.search` (eval.rs:357-367), converted in order -/
def searchArgs (treeId : Int) (k : StructVal) : R SearchArgs := do
  let treeId ← tryUnsigned 64 treeId
  let minObjectid ← keyArg k s!' "min_objectid" 64
  let maxObjectid ← keyArg k s!' "max_objectid" 64
  let minType ← keyArg k s!' "min_type" 8
  let maxType ← keyArg k s!' "max_type" 8
  let minOffset ← keyArg k s!' "min_offset" 64
  let maxOffset ← keyArg k s!' "max_offset" 64
  let minTransid ← keyArg k s!' "min_transid" 64
  let maxTransid ← keyArg k s!' "max_transid" 64
  .ok ⟨treeId, minObjectid, maxObjectid, minType, maxType, minOffset, maxOffset, minTransid, maxTransid⟩

/-- `STRUCTS.iter().find_map(..)` (eval.rs:375-385): the first struct whose key predicate holds -/
def structForKey (oid ty off : Int) : Option StructDef := structs.find? fun s => s.keyMatch oid ty off

/-- decode the items of a search (eval.rs:373-404); items of unknown type are skipped (with a warning on
stderr, see `decodeItemsT` in `Model/Live`) -/
def decodeItems (b : Build) : List Item → R (List Value)
  | [] => .ok []
  | (h, bytes) :: its =>
    match structForKey h.objectid h.ty h.offset with
    | some s => do
      let sv ← structFromBytes b s (some (h.objectid, h.ty, h.offset)) bytes
      let vs ← decodeItems b its
      .ok (.struct sv.name sv.key sv.fields :: vs)
    | none => decodeItems b its

/-- `search()` (eval.rs:344-410) -/
def searchFn (cfg : Cfg) (fs : Option Fs) (args : List (R Value)) : R Value := do
  ensure (args.length == 2) (.argCount s!' "'search()' requires 2 arguments")
  match args with
  | [a0, a1] =>
    let v0 ← a0
    let tree ← v0.asInteger
    let v1 ← a1
    let key ← v1.asStruct
    ensure (key.name == BTRFS_SEARCH_KEY.name) .notSearchKey
    match fs with
    | none => R.err .noFilesystem
    | some fs =>
      let sa ← searchArgs tree key
      let chunks ← fs.search cfg.fuel sa
      let vs ← decodeItems cfg.build chunks
      .ok (.array vs false)
  | _ => R.panic

/-- the one argument of a unary function: arity check with its message, then evaluation (e.g. eval.rs:412-413) -/
def arg1 (msg : Str) (args : List (R Value)) : R Value := do
  ensure (args.length == 1) (.argCount msg)
  match args with
  | [a] => a
  | _ => R.panic

/-- `typeof()` (eval.rs:411-415) -/
def typeofFn (args : List (R Value)) : R Value := do
  let v ← arg1 s!' "'typeof()' requires 1 argument" args
  .ok (.str (utf8 v.typeStr))

/-- `keyof()` (eval.rs:416-434) -/
def keyofFn (b : Build) (args : List (R Value)) : R Value := do
  let v ← arg1 s!' "'keyof()' requires 1 argument" args
  let s ← v.asStruct
  match s.key with
  | some (oid, ty, off) =>
    let k ← structFromBytes b BTRFS_KEY none (List.replicate BTRFS_KEY.size 0)
    let fs ← setFields k.name k.fields [(s!' "objectid", .int oid), (s!' "type", .int ty), (s!' "offset", .int off)]
    .ok (.struct k.name k.key fs)
  | none => R.err .noKey

/-- `len()` (eval.rs:435-440): `as_vec()?.len().try_into()?` -/
def lenFn (args : List (R Value)) : R Value := do
  let v ← arg1 s!' "'len()' requires 1 argument" args
  let vec ← v.asVec
  if inI128 vec.length then .ok (.int vec.length) else R.err .conversion

/-- `hist()` (eval.rs:441-448) -/
def histFn (args : List (R Value)) : R Value := do
  ensure args.isEmpty (.argCount s!' "'hist()' takes no arguments")
  .ok (.array [] true)

/-- `str()` (eval.rs:449-460) -/
def strFn (args : List (R Value)) : R Value := do
  let v ← arg1 s!' "str() requires 1 argument" args
  match v with
  | .str s => .ok (.str s)
  | v =>
    let t ← v.display
    .ok (.str (utf8 t))

/-- `eval_function` (eval.rs:313-462), given the results of evaluating the callee and the arguments -/
def callFn (cfg : Cfg) (fs : Option Fs) (f : R Value) (args : List (R Value)) : R Value := do
  let fv ← f
  let fn ← fv.asFunction
  match fn with
  | .key => keyFn cfg.build args
  | .search => searchFn cfg fs args
  | .typeOf => typeofFn args
  | .keyOf => keyofFn cfg.build args
  | .len => lenFn args
  | .hist => histFn args
  | .str => strFn args

/-- field access (eval.rs:467-479) -/
def fieldOp (v : R Value) (f : Expr) : R Value := do
  let x ← v
  let s ← x.asStruct
  match f with
  | .ident name => s.field name
  | _ => R.err (.notIdentifier s!' "Field in a field access must be an identifier")

/-- indexing (eval.rs:480-490): the index must fit a `usize` -/
def indexOp (v i : R Value) : R Value := do
  let x ← v
  let vec ← x.asVec
  let iv ← i
  let idx ← iv.asInteger
  let n ← tryUnsigned 64 idx
  orErr vec[n]? (.indexRange idx vec.length)

mutual
/-- `eval_expr` (eval.rs:464-495) and `eval_primary_expr` (eval.rs:56-72) -/
def evalExpr (cfg : Cfg) (st : State) : Expr → R Value
  | .ident name => orErr (st.vars.get name) (.unknownVar name)
  | .int i => .ok (.int i)
  | .bool b => .ok (.bool b)
  | .str s => .ok (.str (utf8 s))
  | .paren e => evalExpr cfg st e
  | .field e f => fieldOp (evalExpr cfg st e) f
  | .index e i => indexOp (evalExpr cfg st e) (evalExpr cfg st i)
  | .call f args => callFn cfg st.fs (evalExpr cfg st f) (evalArgs cfg st args)
  | .bin op l r => binop op (evalExpr cfg st l) (evalExpr cfg st r)
  | .un op e => unop cfg.build op (evalExpr cfg st e)
  | .cast ty e => castOp cfg.build st.fs ty (evalExpr cfg st e)
/-- the result of evaluating each argument (`eval_expr(&args[i])`, eval.rs:321, 347-348, 413) -/
def evalArgs (cfg : Cfg) (st : State) : List Expr → List (R Value)
  | [] => []
  | e :: es => evalExpr cfg st e :: evalArgs cfg st es
end

/-- a condition: `eval_expr(cond)?.as_boolean()?` (eval.rs:546-552, 570-576) -/
def evalCond (cfg : Cfg) (st : State) (e : Expr) : R Bool := do
  let v ← evalExpr cfg st e
  v.asBoolean

/-- Write text to the sink; `fail` if the write fails (eval.rs:530-533, 746-749, 804-807) -/
def State.write (st : State) (s : Str) : State × IRes :=
  match st.sink.write s with
  | (k, .ok _) => ({ st with sink := k }, .ok)
  | (k, .error e) => ({ st with sink := k }, .fail e)

/-- the text `print` writes before the newline (eval.rs:517-528) -/
def printText (cfg : Cfg) (v : Value) : R Str :=
  match v with
  | .array vec true => asHist cfg.build cfg.fuel vec
  | .str s => (Value.str s).asString false
  | v => v.display

/-- the `help` table (eval.rs:758-793) -/
def helpTable : List (Str × Str) :=
  [(s!' "Commands", s!' ""),
   (s!' "--------------------", s!' ""),
   (s!' "help", s!' "Print help"),
   (s!' "quit", s!' "Exit debugger"),
   (s!' "filesystem <string>", s!' "Debug <string> (<string> must be a path to a mounted btrfs filesystem)"),
   (s!' "print <expression>", s!' "Evaluate <expression> and print result"),
   (s!' "", s!' ""),
   (s!' "Functions", s!' ""),
   (s!' "--------------------", s!' ""),
   (s!' "key(objectid, type, offset, transid)", s!' "Returns a key to be used in `search()`"),
   (s!' "search(treeid, key)", s!' "Returns an array of search results based on `treeid` and `key`"),
   (s!' "keyof(expr)", s!' "Returns the corresponding disk key (if any) of the expression"),
   (s!' "typeof(expr)", s!' "Returns the type of `expr` as a string"),
   (s!' "len(expr)", s!' "Returns the length of an array"),
   (s!' "hist()", s!' "Returns a histogram (an array that `print()` will format)"),
   (s!' "str(expr)", s!' "Returns `expr` in string representation")]

/-- the text of `help` (eval.rs:795-802): left column padded to its longest entry plus 4 -/
def helpText : Str :=
  let width := helpTable.foldl (fun w p => max w p.1.length) 0 + 4
  helpTable.flatMap fun p => padRight width p.1 ++ p.2 ++ ['\n']

/-- `list[n]` replaced by `f list[n]`: writing through `get_mut` (eval.rs:670, 705); `e` if there is none -/
def modifyNth (e : Err) (f : Value → R Value) : List Value → Nat → R (List Value)
  | [], _ => R.err e
  | v :: vs, 0 => do
    let v' ← f v
    .ok (v' :: vs)
  | v :: vs, n + 1 => do
    let vs' ← modifyNth e f vs n
    .ok (v :: vs')

/-- the first field with the name replaced by `f` of it (value.rs:412-425); `what` is the name of the struct -/
def modifyField (what : Str) (f : Value → R Value) : List (Str × Value) → Str → R (List (Str × Value))
  | [], name => R.err (.noField name what)
  | (n, v) :: fs, name =>
    if n = name then do
      let v' ← f v
      .ok ((n, v') :: fs)
    else do
      let fs' ← modifyField what f fs name
      .ok ((n, v) :: fs')

/-- `eval_lhs_assign` (eval.rs:641-687): write through the reference it returns. `f` is what is done to
the value found there. Index expressions are evaluated before the base is resolved. -/
def modifyLhs (cfg : Cfg) (st : State) : Expr → (Value → R Value) → R (Vars Value)
  | .ident name, f =>
    match st.vars.modify f name with
    | some r => r
    | none => R.err (.unknownVar name)
  | .field e fld, f =>
    match fld with
    | .ident name =>
      modifyLhs cfg st e fun v =>
        match v with
        | .struct n k fs => do
          let fs' ← modifyField n f fs name
          .ok (.struct n k fs')
        | _ => R.err (.badLhs s!' "Field access must be used on a struct")
    | _ => R.err (.notIdentifier s!' "Field in a field access must be an identifier")
  | .index e i, f => do
    let iv ← evalExpr cfg st i
    let idx ← iv.asInteger
    modifyLhs cfg st e fun v =>
      match v with
      | .array vec h => do
        let n ← tryUnsigned 64 idx
        let vec' ← modifyNth (.indexRange idx vec.length) f vec n
        .ok (.array vec' h)
      | _ => R.err (.badLhs s!' "Array index must be used on an array")
  | .call _ _, _ => R.err (.badLhs s!' "Unexpected function call in LHS of assignment")
  | .bin _ _ _, _ => R.err (.badLhs s!' "Unexpected binary expression in LHS of assignment")
  | .un _ _, _ => R.err (.badLhs s!' "Unexpected unary expression in LHS of assignment")
  | .cast _ _, _ => R.err (.badLhs s!' "Unexpected unary expression in LHS of assignment")
  | _, _ => R.err (.badLhs s!' "Expected identifier in LHS of assignment")

/-- assignment (eval.rs:691-710) -/
def evalAssign (cfg : Cfg) (st : State) (lhs rhs : Expr) : State × IRes :=
  match evalExpr cfg st rhs with
  | .error e => (st, .fail e)
  | .ok v =>
    match lhs with
    | .ident name =>
      match st.vars.insert name v with
      | .ok vs => ({ st with vars := vs }, .ok)
      | .error e => (st, .fail e)
    | lhs =>
      match modifyLhs cfg st lhs (fun _ => .ok v) with
      | .ok vs => ({ st with vars := vs }, .ok)
      | .error e => (st, .fail e)

/-- `filesystem` (eval.rs:501-514): on failure the previous filesystem stays -/
def evalFilesystem (cfg : Cfg) (st : State) (e : Expr) : State × IRes :=
  match evalExpr cfg st e with
  | .error f => (st, .fail f)
  | .ok v =>
    match v.asString true with
    | .error f => (st, .fail f)
    | .ok path =>
      match Fs.new cfg.host path with
      | .error f => (st, .fail f)
      | .ok fs => ({ st with fs := some fs }, .ok)

/-- `print` (eval.rs:515-536) -/
def evalPrint (cfg : Cfg) (st : State) (e : Expr) : State × IRes :=
  match evalExpr cfg st e with
  | .error f => (st, .fail f)
  | .ok v =>
    match printText cfg v with
    | .error f => (st, .fail f)
    | .ok t => st.write (t ++ ['\n'])

/-- an expression statement (eval.rs:739-753): displayed only when interactive -/
def evalExprStmt (cfg : Cfg) (st : State) (e : Expr) : State × IRes :=
  match evalExpr cfg st e with
  | .error f => (st, .fail f)
  | .ok v =>
    if cfg.interactive then
      match v.display with
      | .error f => (st, .fail f)
      | .ok t => st.write (t ++ ['\n'])
    else (st, .ok)

/-- `push_scope(); let ret = body(); pop_scope(); ret` (eval.rs:711-733) -/
def inScope (st : State) (body : State → State × IRes) : State × IRes :=
  let r := body { st with vars := st.vars.push }
  match r.1.vars.pop with
  | .ok vs => ({ r.1 with vars := vs }, r.2)
  | .error e => (r.1, .fail e)

/-- `eval_while` (eval.rs:568-595), given the condition and the body, at most `fuel` tests of the
condition -/
def whileLoop (cond : State → R Bool) (body : State → State × IRes) : Nat → State → State × IRes
  | 0, st => (st, .fail .diverge)
  | fuel + 1, st =>
    match cond st with
    | .error f => (st, .fail f)
    | .ok false => (st, .ok)
    | .ok true =>
      match body st with
      | (st', .ok) => whileLoop cond body fuel st'
      | (st', .cont) => whileLoop cond body fuel st'
      | (st', .brk) => (st', .ok)
      | (st', r) => (st', r)

/-- the loop of `eval_for` (eval.rs:622-635) over the remaining items -/
def forLoop (name : Str) (body : State → State × IRes) : List Value → State → State × IRes
  | [], st => (st, .ok)
  | v :: vs, st =>
    match st.vars.insert name v with
    | .error e => (st, .fail e)
    | .ok vars =>
      match body { st with vars := vars } with
      | (st', .ok) => forLoop name body vs st'
      | (st', .cont) => forLoop name body vs st'
      | (st', .brk) => (st', .ok)
      | (st', r) => (st', r)

/-- `eval_for` (eval.rs:597-638): the range is evaluated once -/
def evalFor (cfg : Cfg) (x range : Expr) (body : State → State × IRes) (st : State) : State × IRes :=
  match x with
  | .ident name =>
    match evalExpr cfg st range with
    | .error f => (st, .fail f)
    | .ok v =>
      match v.asVec with
      | .error f => (st, .fail f)
      | .ok items => forLoop name body items st
  | _ => (st, .fail (.err (.notIdentifier s!' "Variable in for loop must be an identifier")))

mutual
/-- `eval_statement` (eval.rs:689-755) -/
def evalStmt (cfg : Cfg) : Stmt → State → State × IRes
  | .assign lhs rhs, st => evalAssign cfg st lhs rhs
  | .ite c t f, st =>
    inScope st fun st =>
      match evalCond cfg st c with
      | .error e => (st, .fail e)
      | .ok true => evalStmts cfg t st
      | .ok false => evalStmts cfg f st
  | .while c body, st =>
    inScope st fun st => whileLoop (fun st => evalCond cfg st c) (evalStmts cfg body) cfg.fuel st
  | .for x range body, st => inScope st (evalFor cfg x range (evalStmts cfg body))
  | .brk, st => (st, .brk)
  | .cont, st => (st, .cont)
  | .help, st => st.write helpText
  | .quit, st => (st, .quit)
  | .filesystem e, st => evalFilesystem cfg st e
  | .print e, st => evalPrint cfg st e
  | .expr e, st => evalExprStmt cfg st e
/-- a sequence of statements, stopped by the first result other than `ok` (eval.rs:555-563, 582-591,
625-634, 831-836) -/
def evalStmts (cfg : Cfg) : List Stmt → State → State × IRes
  | [], st => (st, .ok)
  | s :: ss, st =>
    match evalStmt cfg s st with
    | (st', .ok) => evalStmts cfg ss st'
    | (st', r) => (st', r)
end

/-- `EvalResult` (eval.rs:15-19), with panics and divergence -/
inductive EvalResult where
  | ok
  | quit
  | fail (f : Fail)
deriving DecidableEq, Repr

/-- `into_eval_result` (eval.rs:33-45) -/
def IRes.toEvalResult : IRes → EvalResult
  | .ok => .ok
  | .quit => .quit
  | .brk => .fail (.err .controlFlow)
  | .cont => .fail (.err .controlFlow)
  | .fail f => .fail f

/-- `Eval::eval` (eval.rs:830-839) -/
def evalProgram (cfg : Cfg) (p : List Stmt) (st : State) : State × EvalResult :=
  let r := evalStmts cfg p st
  (r.1, r.2.toEvalResult)

/-- `Eval::new` (eval.rs:816-828): the filesystem of the working directory, if it is one -/
def State.new (cfg : Cfg) (room : Option Nat) : State where
  sink := ⟨[], room⟩
  vars := [initialScope Value.int Value.func]
  fs :=
    match cfg.host.cwd with
    | none => none
    | some cwd =>
      match Fs.new cfg.host cwd with
      | .ok fs => some fs
      | .error _ => none

end Btrd
