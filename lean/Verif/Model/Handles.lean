/-
The system calls of `src/btrfs/fs.rs` with the descriptors and mappings they open, use and release: `Fs::new`,
`search`, `get_bytes`, and the drops of `Dir`, `File` and `MmapMut`, which Rust places at the end of their owner's life.
The descriptors of standard streams, of the script and of the history file are not in it.
-/
import Verif.Model.Debug

namespace Btrd

/-- a system call, or a read of mapped memory, with the descriptor or mapping it returned -/
inductive Sys where
  /-- `open(path, O_DIRECTORY | O_RDONLY)` (fs.rs:103-107) -/
  | openDir (path : Str) (fd : Option Nat)
  /-- `open(path, O_RDWR)` (fs.rs:109-113) -/
  | openFile (path : Str) (fd : Option Nat)
  /-- `fstatfs(fd)` (fs.rs:124) -/
  | fstatfs (fd : Nat)
  /-- the mapping of the file, of this length (fs.rs:149) -/
  | mmap (fd : Nat) (m : Option (Nat × Nat))
  /-- the search request (fs.rs:202) -/
  | ioctl (fd : Nat) (a : SearchArgs)
  /-- a read of the mapped bytes from `start` up to `stop` (fs.rs:138, 294) -/
  | load (m : Nat) (start stop : Nat)
  | close (fd : Nat)
  | munmap (m : Nat)
deriving DecidableEq

/-- what the process has open: directories, files, mappings with their lengths -/
structure Table where
  dirs : List Nat
  files : List Nat
  maps : List (Nat × Nat)
deriving DecidableEq

/-- nothing -/
def Table.empty : Table := ⟨[], [], []⟩

/-- the bookkeeping of the operating system for `close` -/
def Table.close (T : Table) (fd : Nat) : Table := { T with dirs := T.dirs.erase fd, files := T.files.erase fd }

/-- for `munmap` -/
def Table.unmap (T : Table) (m : Nat) : Table := { T with maps := T.maps.filter fun x => x.1 ≠ m }

/-- which numbers the operating system gives to descriptors and mappings, depending on what is open -/
structure Numbers where
  fd : Table → Nat
  map : Table → Nat

/-- what an `Fs` owns (`FsInner`, fs.rs:88-91) -/
inductive Held where
  | dir (fd : Nat)
  | map (m : Nat)
deriving DecidableEq

/-- what the process has open, and what `Eval::fs` (eval.rs:43) owns -/
structure Hands where
  held : Option Held
  table : Table

/-- dropping an `Fs`: `closedir` of nix's `Dir`, `munmap` of memmap2's `MmapMut` -/
def dropCalls : Option Held → List Sys
  | none => []
  | some (.dir fd) => [.close fd]
  | some (.map m) => [.munmap m]

/-- and the table afterwards -/
def dropTable (T : Table) : Option Held → Table
  | none => T
  | some (.dir fd) => T.close fd
  | some (.map m) => T.unmap m

/-- the reads of `has_superblock_magic` (fs.rs:136-146) -/
def magicLoads (m : Nat) (img : Bytes) : List Nat → List Sys
  | [] => []
  | loc :: locs =>
    if loc + 8 ≤ img.length then
      .load m loc (loc + 8) :: if (img.drop loc).take 8 == superblockMagic then [] else magicLoads m img locs
    else magicLoads m img locs

/-- `Fs::new_mounted` (fs.rs:123-134): the directory is dropped if it is not on btrfs -/
def mountedCalls (path : Str) (d : DirInfo) (fd : Nat) (T : Table) : List Sys × Table × Option Held :=
  match Fs.newMounted path d with
  | .ok _ => ([.fstatfs fd], T, some (.dir fd))
  | .error _ => ([.fstatfs fd, .close fd], T.close fd, none)

/-- `Fs::new_unmounted` (fs.rs:148-160): the file is dropped in any case, after the mapping if that is dropped too -/
def unmountedCalls (os : Numbers) (fd : Nat) (T : Table) : Option Bytes → List Sys × Table × Option Held
  | none => ([.mmap fd none, .close fd], T.close fd, none)
  | some img =>
    let m := os.map T
    let T' := { T with maps := (m, img.length) :: T.maps }
    if hasSuperblockMagic img then
      (.mmap fd (some (m, img.length)) :: (magicLoads m img superblockLocs ++ [.close fd]), T'.close fd, some (.map m))
    else
      (.mmap fd (some (m, img.length)) :: (magicLoads m img superblockLocs ++ [.munmap m, .close fd]),
        (T'.unmap m).close fd, none)

/-- `Fs::new` (fs.rs:102-121) -/
def openCalls (os : Numbers) (h : Host) (path : Str) (T : Table) : List Sys × Table × Option Held :=
  match h.openDir path with
  | some d =>
    let fd := os.fd T
    let r := mountedCalls path d fd { T with dirs := fd :: T.dirs }
    (.openDir path (some fd) :: r.1, r.2)
  | none =>
    match h.openFile path with
    | some f =>
      let fd := os.fd T
      let r := unmountedCalls os fd { T with files := fd :: T.files } f
      (.openDir path none :: .openFile path (some fd) :: r.1, r.2)
    | none => ([.openDir path none, .openFile path none], T, none)

/-- `self.fs = match .. Fs::new(path) { Ok(fs) => Some(fs), .. }` (eval.rs:501-514): the old one is dropped when the new
one is there -/
def switchCalls (os : Numbers) (h : Host) (path : Str) (H : Hands) : List Sys × Hands :=
  let r := openCalls os h path H.table
  match r.2.2 with
  | some x => (r.1 ++ dropCalls H.held, ⟨some x, dropTable r.2.1 H.held⟩)
  | none => (r.1, ⟨H.held, r.2.1⟩)

/-- the requests of `search` (fs.rs:190-276), see `searchLoop`; one that is not answered is the last -/
def askedLoop (k : Kernel) (retry : Bool) : Nat → Nat → SearchArgs → List Item → Nat → List SearchArgs
  | 0, _, _, _, _ => []
  | fuel + 1, i, args, ret, collisions =>
    args ::
      match k i args with
      | .errno => []
      | .data nrItems buf =>
        match extractItems buf nrItems 0 ret collisions with
        | .error _ => []
        | .ok (ret, collisions) =>
          if !retry || nrItems == 0 then []
          else
            match largestKey ret with
            | .error _ => []
            | .ok h =>
              if h.ty < 256 then
                if h.offset + 1 < 2 ^ 64 then
                  askedLoop k retry fuel (i + 1)
                    { args with minObjectid := h.objectid, minType := h.ty, minOffset := h.offset + 1 } ret collisions
                else []
              else []

/-- `Fs::search` (fs.rs:166-286): an image is refused without a call -/
def searchSys (fuel : Nat) (fs : Fs) (a : SearchArgs) : Option Held → List Sys
  | some (.dir fd) =>
    match fs with
    | .mounted k => (askedLoop k (searchRetry a) fuel 0 a [] 0).map (.ioctl fd)
    | .unmounted _ => []
  | _ => []

/-- `Fs::get_bytes` (fs.rs:288-298): nothing is read outside the image, and nothing of a mounted filesystem -/
def bytesSys (fs : Fs) (start stop : Nat) : Option Held → List Sys
  | some (.map m) =>
    match fs with
    | .unmounted img => if start ≤ stop ∧ stop ≤ img.length then [.load m start stop] else []
    | .mounted _ => []
  | _ => []

/-- the calls of a computation in a live world, see `T.live` -/
def T.sys {α : Type} (os : Numbers) (fuel : Nat) (ω : Live) : T α → Nat → Hands → List Sys × Hands
  | .ret _, _, H => ([], H)
  | .warn _ k, t, H => k.sys os fuel ω t H
  | .search fs a k, t, H =>
    let r := (k ((ω.drift t fs).search fuel a)).sys os fuel ω (t + 1) H
    (searchSys fuel (ω.drift t fs) a H.held ++ r.1, r.2)
  | .bytes fs i j k, t, H =>
    let r := (k ((ω.drift t fs).getBytes i j)).sys os fuel ω (t + 1) H
    (bytesSys (ω.drift t fs) i j H.held ++ r.1, r.2)
  | .opens p k, t, H =>
    let c := switchCalls os (ω.host t) p H
    let r := (k (Fs.new (ω.host t) p)).sys os fuel ω (t + 1) c.2
    (c.1 ++ r.1, r.2)

/-! ### the process -/

/-- `Eval::new` (eval.rs:816-828) -/
def startCalls (os : Numbers) (h : Host) : List Sys × Hands :=
  match h.cwd with
  | none => ([], ⟨none, .empty⟩)
  | some cwd => switchCalls os h cwd ⟨none, .empty⟩

/-- one iteration of the loop of `repl` (main.rs:86-114) -/
def stepCalls (os : Numbers) (cfg : Cfg) (ω : Live) (p : Proc) (H : Hands) : ReplEvent → List Sys × Hands
  | .line s => (runtimeEvalT cfg p.rs (fixupInput (stripComments s))).sys os cfg.fuel ω 0 H
  | _ => ([], H)

/-- the loop of `repl` (main.rs:85-115), see `procRunL` -/
def runCalls (os : Numbers) (cfg : Cfg) : Proc → Hands → List LiveTick → List Sys × Hands
  | _, H, [] => ([], H)
  | p, H, t :: ts =>
    let c := stepCalls os cfg t.world (p.meets t.drift) H t.event
    match (procStepL cfg t.world (p.meets t.drift) t.event).1 with
    | (p', .running) =>
      let r := runCalls os cfg p' c.2 ts
      (c.1 ++ r.1, r.2)
    | _ => c

/-- the end of the runtime (main.rs:116-120 and unwinding): it is dropped, unless the process is not at its end -/
def endCalls (x : ProcStatus) (H : Hands) : List Sys × Hands :=
  match x with
  | .over | .panicked => (dropCalls H.held, ⟨none, dropTable H.table H.held⟩)
  | .running | .hung => ([], H)

/-- `repl` (main.rs:78-120): no runtime is made if the line editor or the welcome fails -/
def replCalls (os : Numbers) (cfg : Cfg) (room : Option Nat) (editor : Bool) (events : List LiveTick) :
    List Sys × Hands :=
  if editor then
    match procStart cfg room with
    | (p, .running) =>
      let cfg := { cfg with interactive := true }
      let c := startCalls os cfg.host
      let r := runCalls os cfg p c.2 events
      let e := endCalls (procRunL cfg p events).1.2 r.2
      (c.1 ++ r.1 ++ e.1, e.2)
    | _ => ([], ⟨none, .empty⟩)
  else ([], ⟨none, .empty⟩)

/-- `script` (main.rs:122-137), see `scriptMainL` -/
def scriptCalls (os : Numbers) (cfg : Cfg) (room : Option Nat) (ω : Live) (file : Option Bytes) : List Sys × Hands :=
  match file with
  | none => ([], ⟨none, .empty⟩)
  | some b =>
    match decodeUtf8 b with
    | none => ([], ⟨none, .empty⟩)
    | some s =>
      let cfg := { cfg with interactive := false }
      let c := startCalls os cfg.host
      let x := runtimeEvalT cfg (RState.new cfg room) (stripComments s)
      let r := x.sys os cfg.fuel ω 0 c.2
      let e := endCalls (match (x.live cfg.fuel ω 0).result.2 with
        | .fail .diverge => .hung
        | _ => .over) r.2
      (c.1 ++ r.1 ++ e.1, e.2)

end Btrd
