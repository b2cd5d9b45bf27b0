/-
`--debug`: the `info!` lines of main.rs:91-92 and fs.rs:208-209, which go to standard error among the others. Only
their messages: the logger puts the time and the level in front (simplelog), and passes over failures to write.
-/
import Verif.Model.Live
import Verif.Model.Ioctl

namespace Btrd
open Spec (Mem)

/-! ### `escape_debug` -/

/-- what the tables of the Rust core library say about characters, which depends on the version of Unicode -/
structure Unicode where
  /-- `char::is_grapheme_extended` -/
  extend : Char → Bool
  /-- `core::unicode::printable::is_printable` -/
  printable : Char → Bool

/-- a hexadecimal digit -/
def hexChar (n : Nat) : Char := if n < 10 then Char.ofNat (48 + n) else Char.ofNat (87 + n)

/-- hexadecimal digits, as few as possible -/
def hexDigits (n : Nat) : Str := if h : n < 16 then [hexChar n] else hexDigits (n / 16) ++ [hexChar (n % 16)]

/-- `char::escape_unicode` -/
def escapeUnicode (c : Char) : Str := s!' "\\u{" ++ hexDigits c.toNat ++ s!' "}"

/-- `char::escape_debug_ext` (Rust core) with both kinds of quotes escaped; `extended` says whether grapheme extending
characters are escaped too -/
def escapeDebugChar (u : Unicode) (extended : Bool) (c : Char) : Str :=
  if c = '\x00' then s!' "\\0"
  else if c = '\t' then s!' "\\t"
  else if c = '\r' then s!' "\\r"
  else if c = '\n' then s!' "\\n"
  else if c = '\\' ∨ c = '"' ∨ c = '\'' then ['\\', c]
  else if extended && u.extend c then escapeUnicode c
  else if u.printable c then [c]
  else escapeUnicode c

/-- `str::escape_debug` (Rust core): extending characters are escaped only at the beginning -/
def escapeDebug (u : Unicode) : Str → Str
  | [] => []
  | c :: cs => escapeDebugChar u true c ++ cs.flatMap (escapeDebugChar u false)

/-! ### the lines -/

/-- a message of `info!` -/
inductive LogLine where
  /-- main.rs:91 -/
  | read (line : Str)
  /-- main.rs:92 -/
  | cleaned (text : Str)
  /-- fs.rs:208: the fields of `args.key` after the call -/
  | key (fields : List (Str × Nat))
  /-- fs.rs:209 -/
  | found (n : Nat)
deriving DecidableEq

/-- `{:#?}` of a struct with `#[derive(Debug)]` whose fields are numbers (fs.rs:34, 208) -/
def prettyFields (name : Str) (fields : List (Str × Nat)) : Str :=
  name ++ s!' " {\n" ++ fields.flatMap (fun f => s!' "    " ++ f.1 ++ s!' ": " ++ natDisplay f.2 ++ s!' ",\n") ++ s!' "}"

/-- the text of a message -/
def LogLine.text (u : Unicode) : LogLine → Str
  | .read s => s!' "read: " ++ escapeDebug u s
  | .cleaned s => s!' "cleaned: " ++ escapeDebug u s
  | .key fs => s!' "search() key: " ++ prettyFields s!' "BtrfsIoctlSearchKey" fs
  | .found n => s!' "search() found " ++ natDisplay n ++ s!' " items"

/-! ### a search, down to the bytes -/

/-- the fields of the key in memory, as `{:#?}` reads them -/
def keyInMemory (m : Mem) : List (Str × Nat) := searchKeyFields.map fun f => (f.1, getKey f.1 m)

/-- the loop of `search` (fs.rs:190-276) with its messages, see `searchLoop` -/
def searchLoopD (M : Machine) (retry : Bool) :
    Nat → Nat → SearchArgs → List Item → Nat → R (List Item × Nat) × List LogLine
  | 0, _, _, _, _ => (R.diverge, [])
  | fuel + 1, i, args, ret, collisions =>
    match M i searchRequest (argsMem args) with
    | .errno => (R.err .ioctl, [])
    | .done m =>
      let logs := [.key (keyInMemory m), .found (getKey s!' "nr_items" m)]
      match extractItems (fun j => m (bufOffset + j)) (getKey s!' "nr_items" m) 0 ret collisions with
      | .error e => (.error e, logs)
      | .ok (ret, collisions) =>
        if !retry || getKey s!' "nr_items" m == 0 then (.ok (ret, collisions), logs)
        else
          match largestKey ret with
          | .error e => (.error e, logs)
          | .ok h =>
            if h.ty < 256 then
              if h.offset + 1 < 2 ^ 64 then
                let r := searchLoopD M retry fuel (i + 1)
                  { args with minObjectid := h.objectid, minType := h.ty, minOffset := h.offset + 1 } ret collisions
                (r.1, logs ++ r.2)
              else (R.err .bumpOffset, logs)
            else (R.err .conversion, logs)

/-- whether a search goes on after its first call (fs.rs:182-185) -/
def searchRetry (args : SearchArgs) : Bool :=
  decide (args.maxObjectid ≠ u64Max) || decide (args.maxType ≠ u8Max) || decide (args.maxOffset ≠ u64Max) ||
    decide (args.maxTransid ≠ u64Max)

/-- `Fs::search` (fs.rs:166-286) on a machine, with its messages -/
def searchD (M : Machine) (fuel : Nat) (args : SearchArgs) : R (List Item) × List LogLine :=
  let r := searchLoopD M (searchRetry args) fuel 0 args [] 0
  (match r.1 with
    | .error e => .error e
    | .ok (ret, collisions) => if collisions ≠ 0 then R.err (.collisions collisions) else .ok ret, r.2)

/-! ### the same, by parameters and replies -/

/-- the key after a call, if the kernel leaves it as it was but for `nr_items` -/
def keyAfter (a : SearchArgs) (nr : Nat) : List (Str × Nat) := [
  (s!' "tree_id", a.treeId), (s!' "min_objectid", a.minObjectid), (s!' "max_objectid", a.maxObjectid),
  (s!' "min_offset", a.minOffset), (s!' "max_offset", a.maxOffset), (s!' "min_transid", a.minTransid),
  (s!' "max_transid", a.maxTransid), (s!' "min_type", a.minType), (s!' "max_type", a.maxType), (s!' "nr_items", nr),
  (s!' "_unused", 0), (s!' "_unused1", 0), (s!' "_unused2", 0), (s!' "_unused3", 0), (s!' "_unused4", 0)]

/-- the calls of the loop of `search` that are answered: the request and the number of items -/
def searchCalls (k : Kernel) (retry : Bool) : Nat → Nat → SearchArgs → List Item → Nat → List (SearchArgs × Nat)
  | 0, _, _, _, _ => []
  | fuel + 1, i, args, ret, collisions =>
    match k i args with
    | .errno => []
    | .data nrItems buf =>
      (args, nrItems) ::
        match extractItems buf nrItems 0 ret collisions with
        | .error _ => []
        | .ok (ret, collisions) =>
          if !retry || nrItems == 0 then []
          else
            match largestKey ret with
            | .error _ => []
            | .ok h =>
              if h.ty < 256 then
                if h.offset + 1 < 2 ^ 64 then
                  searchCalls k retry fuel (i + 1)
                    { args with minObjectid := h.objectid, minType := h.ty, minOffset := h.offset + 1 } ret collisions
                else []
              else []

/-- the messages about one call -/
def callLines (c : SearchArgs × Nat) : List LogLine := [.key (keyAfter c.1 c.2), .found c.2]

/-- the messages of `Fs::search` on a filesystem (an image is refused before any call, fs.rs:178-181) -/
def Fs.searchLog (fuel : Nat) (fs : Fs) (args : SearchArgs) : List LogLine :=
  match fs with
  | .unmounted _ => []
  | .mounted k => (searchCalls k (searchRetry args) fuel 0 args [] 0).flatMap callLines

/-! ### the process -/

/-- a line on standard error: as without `--debug`, or a message -/
inductive Line where
  | err (l : ErrLine)
  | log (l : LogLine)
deriving DecidableEq

/-- what an event writes on standard error -/
def eventLines (debug : Bool) (fuel : Nat) : Event → List Line
  | .warned w => [.err (.warning w)]
  | .searched fs a _ => if debug then (fs.searchLog fuel a).map .log else []
  | _ => []

/-- the process, see `Proc` -/
structure ProcD where
  rs : RState
  err : List Line

/-- what is left of a process, see `Ended` -/
structure EndedD where
  out : Str
  err : List Line
  exit : Exit

/-- the messages about an entry (main.rs:91-92) -/
def entryLines (debug : Bool) (s : Str) : List Line :=
  if debug then [.log (.read s), .log (.cleaned (fixupInput (stripComments s)))] else []

/-- what becomes of an entry that was evaluated (main.rs:91-101), see `procLine` -/
def procLineD (debug : Bool) (fuel : Nat) (err : List Line) (l : Lived (RState × EvalResult)) : ProcD × ProcStatus :=
  let err := err ++ l.log.flatMap (eventLines debug fuel)
  match l.result with
  | (rs, .ok) => (⟨rs, err⟩, .running)
  | (rs, .quit) => (⟨rs, err⟩, .over)
  | (rs, .fail (.err e)) => (⟨rs, err ++ [.err (.error e.text)]⟩, .running)
  | (rs, .fail .panic) => (⟨rs, err ++ [.err .panicked]⟩, .panicked)
  | (rs, .fail .diverge) => (⟨rs, err⟩, .hung)

/-- `println!` by the process, see `Proc.println` -/
def ProcD.println (p : ProcD) (s : Str) (then_ : ProcStatus) : ProcD × ProcStatus :=
  match p.rs.ev.println s with
  | (ev, true) => ({ p with rs := { p.rs with ev := ev } }, then_)
  | (ev, false) => (⟨{ p.rs with ev := ev }, p.err ++ [.err .panicked]⟩, .panicked)

/-- one iteration of the loop of `repl` (main.rs:86-114), see `procStepL` -/
def procStepD (debug : Bool) (cfg : Cfg) (ω : Live) (p : ProcD) : ReplEvent → ProcD × ProcStatus
  | .line s => procLineD debug cfg.fuel (p.err ++ entryLines debug s)
    ((runtimeEvalT cfg p.rs (fixupInput (stripComments s))).live cfg.fuel ω 0)
  | .interrupted => (⟨p.rs, p.err ++ [.err .hint]⟩, .running)
  | .eof => p.println s!' "quit" .over
  | .otherError => ProcD.println ⟨p.rs, p.err ++ [.err .logged]⟩ s!' "quit" .running

/-- the same process in a changed world, see `Proc.meets` -/
def ProcD.meets (p : ProcD) (drift : Fs → Fs) : ProcD :=
  { p with rs := { p.rs with ev := { p.rs.ev with fs := p.rs.ev.fs.map drift } } }

/-- the loop of `repl` (main.rs:85-115), see `procRunL` -/
def procRunD (debug : Bool) (cfg : Cfg) : ProcD → List LiveTick → ProcD × ProcStatus
  | p, [] => (p, .running)
  | p, t :: ts =>
    match procStepD debug cfg t.world (p.meets t.drift) t.event with
    | (p', .running) => procRunD debug cfg p' ts
    | r => r

/-- the end of `repl` (main.rs:116-120), see `procEnd` -/
def procEndD (saved : Bool) : ProcD × ProcStatus → EndedD
  | (p, .running) => ⟨p.rs.ev.sink.out, p.err, .running⟩
  | (p, .over) =>
    if saved then ⟨p.rs.ev.sink.out, p.err, .success⟩ else ⟨p.rs.ev.sink.out, p.err ++ [.err (.error none)], .failure⟩
  | (p, .panicked) => ⟨p.rs.ev.sink.out, p.err, .panicked⟩
  | (p, .hung) => ⟨p.rs.ev.sink.out, p.err, .busy⟩

/-- `repl` (main.rs:78-120), see `replMainL` -/
def replMainD (debug : Bool) (cfg : Cfg) (room : Option Nat) (editor saved : Bool) (events : List LiveTick) : EndedD :=
  if editor then
    match procStart cfg room with
    | (p, .running) => procEndD saved (procRunD debug { cfg with interactive := true } ⟨p.rs, p.err.map .err⟩ events)
    | (p, s) => procEndD saved (⟨p.rs, p.err.map .err⟩, s)
  else ⟨[], [.err (.error none)], .failure⟩

/-- `script` (main.rs:122-137), see `scriptMainL`; there are no messages about the text of a script -/
def scriptMainD (debug : Bool) (cfg : Cfg) (room : Option Nat) (ω : Live) (file : Option Bytes) : EndedD :=
  match file with
  | none => ⟨[], [.err (.error none)], .failure⟩
  | some b =>
    match decodeUtf8 b with
    | none => ⟨[], [.err (.error none)], .failure⟩
    | some s =>
      let cfg := { cfg with interactive := false }
      let l := (runtimeEvalT cfg (RState.new cfg room) (stripComments s)).live cfg.fuel ω 0
      ⟨l.result.1.ev.sink.out, l.log.flatMap (eventLines debug cfg.fuel) ++ (scriptExit l.result.2).1.map .err,
        (scriptExit l.result.2).2⟩

end Btrd
