/-
Model of `src/btrfs/fs.rs`.
-/
import Verif.Model.Base

namespace Btrd

/-- `MAX_BUF_SIZE` (fs.rs:24): 16 MB -/
def maxBufSize : Nat := 16 * 2 ^ 20

/-- `BTRFS_FSTYPE` (fs.rs:22) -/
def btrfsFsType : Int := 0x9123683e

/-- `BTRFS_SUPERBLOCK_MAGIC` (fs.rs:19): `_BHRfS_M` -/
def superblockMagic : Bytes := [0x5f, 0x42, 0x48, 0x52, 0x66, 0x53, 0x5f, 0x4d]

/-- `BTRFS_SUPERBLOCK_MAGIC_LOCS` (fs.rs:20-21) -/
def superblockLocs : List Nat := [0x10000 + 0x40, 0x4000000 + 0x40, 0x4000000000 + 0x40]

/-- The in-fields of `BtrfsIoctlSearchKey` that `search` sets (fs.rs:33-52) -/
structure SearchArgs where
  treeId : Nat
  minObjectid : Nat
  maxObjectid : Nat
  minType : Nat
  maxType : Nat
  minOffset : Nat
  maxOffset : Nat
  minTransid : Nat
  maxTransid : Nat
deriving DecidableEq, Repr

/-- `BtrfsIoctlSearchHeader` (fs.rs:78-86) -/
structure Header where
  transid : Nat
  objectid : Nat
  offset : Nat
  ty : Nat
  len : Nat
deriving DecidableEq, Repr

/-- What the search ioctl leaves behind: the value of `nr_items` and the contents of the 16 MB buffer
(byte `i` is `buf i`), or an error. `data` covers both success and `EOVERFLOW`, which `search` treats
alike (fs.rs:203-204). -/
inductive Reply where
  | data (nrItems : Nat) (buf : Nat → UInt8)
  | errno

/-- The kernel, as seen by one `search`: the reply to the `i`-th ioctl of that search. Replies are
arbitrary, and may differ from call to call. -/
abbrev Kernel := Nat → SearchArgs → Reply

/-- `FsInner` (fs.rs:88-91) -/
inductive Fs where
  | mounted (kernel : Kernel)
  | unmounted (image : Bytes)

/-- What `Dir::open` + `fstatfs` report about a path that opens as a directory (fs.rs:103-107, 124) -/
structure DirInfo where
  /-- `None` when `fstatfs` fails -/
  fsType : Option Int
  kernel : Kernel

/-- The operating system: what opening a path yields (fs.rs:102-121). -/
structure Host where
  /-- `Dir::open(path, O_DIRECTORY | O_RDONLY)` (fs.rs:103-107) -/
  openDir : Str → Option DirInfo
  /-- opening read-write (fs.rs:109-113) and then mapping the file (fs.rs:149); inner `none`: `mmap`
  failed -/
  openFile : Str → Option (Option Bytes)
  /-- `getcwd()` (eval.rs:817) -/
  cwd : Option Str

/-- `has_superblock_magic` (fs.rs:136-146); `slice.get(loc..loc+8)` is `None` when out of range -/
def hasSuperblockMagic (img : Bytes) : Bool :=
  superblockLocs.any fun loc =>
    if loc + 8 ≤ img.length then (img.drop loc).take 8 == superblockMagic else false

/-- `Fs::new_mounted` (fs.rs:123-134) -/
def Fs.newMounted (path : Str) (d : DirInfo) : R Fs :=
  match d.fsType with
  | none => R.err .statfs
  | some t => if t = btrfsFsType then .ok (.mounted d.kernel) else R.err (.notBtrfs path)

/-- `Fs::new_unmounted` (fs.rs:148-160) -/
def Fs.newUnmounted (path : Str) : Option Bytes → R Fs
  | none => R.err .mmap
  | some img => if hasSuperblockMagic img then .ok (.unmounted img) else R.err (.badMagic path)

/-- `Fs::new` (fs.rs:102-121) -/
def Fs.new (h : Host) (path : Str) : R Fs :=
  match h.openDir path with
  | some d => Fs.newMounted path d
  | none =>
    match h.openFile path with
    | some f => Fs.newUnmounted path f
    | none => R.err (.neitherFs path)

/-- the `n` buffer bytes from `off` (`args.buf[off..off+n]`, fs.rs:221, 230) -/
def bufRead (buf : Nat → UInt8) (off n : Nat) : Bytes := (List.range n).map fun i => buf (off + i)

/-- `size_of::<BtrfsIoctlSearchHeader>()` (fs.rs:215) -/
def headerSize : Nat := 32

/-- reading a `#[repr(C)]` header through a pointer on a little endian machine (fs.rs:220-222) -/
def readHeader (buf : Nat → UInt8) (off : Nat) : Header where
  transid := leNat (bufRead buf off 8)
  objectid := leNat (bufRead buf (off + 8) 8)
  offset := leNat (bufRead buf (off + 16) 8)
  ty := leNat (bufRead buf (off + 24) 4)
  len := leNat (bufRead buf (off + 28) 4)

/-- one search result (fs.rs:177) -/
abbrev Item := Header × Bytes

/-- The extraction loop (fs.rs:212-239) for the remaining `n` items, from `offset`, with the items kept
so far and the number of collisions. `seen` (fs.rs:187) always holds exactly the headers of `ret`, so
membership is tested on `ret`. -/
def extractItems (buf : Nat → UInt8) : Nat → Nat → List Item → Nat → R (List Item × Nat)
  | 0, _, ret, collisions => .ok (ret, collisions)
  | n + 1, offset, ret, collisions =>
    if headerSize + offset ≤ maxBufSize then
      let header := readHeader buf offset
      let offset := offset + headerSize
      if header.len + offset ≤ maxBufSize then
        let bytes := bufRead buf offset header.len
        if ret.any (fun it => it.1 == header) then
          extractItems buf n (offset + header.len) ret (collisions + 1)
        else
          extractItems buf n (offset + header.len) (ret ++ [(header, bytes)]) collisions
      else R.err (.searchShort true)
    else R.err (.searchShort false)

/-- the comparison of `max_by` (fs.rs:249-267): less on (objectid, type, offset) -/
def Header.keyLt (a b : Header) : Bool :=
  if a.objectid < b.objectid then true
  else if a.objectid > b.objectid then false
  else if a.ty < b.ty then true
  else if a.ty > b.ty then false
  else decide (a.offset < b.offset)

/-- `max_by(..).unwrap()` (fs.rs:246-268): the last of the largest -/
def largestKey : List Item → R Header
  | [] => R.panic
  | it :: its => .ok (its.foldl (fun m x => if Header.keyLt x.1 m then m else x.1) it.1)

/-- the search loop (fs.rs:190-276), at most `fuel` ioctl calls; `i` counts the calls made -/
def searchLoop (k : Kernel) (retry : Bool) : Nat → Nat → SearchArgs → List Item → Nat → R (List Item × Nat)
  | 0, _, _, _, _ => R.diverge
  | fuel + 1, i, args, ret, collisions =>
    match k i args with
    | .errno => R.err .ioctl
    | .data nrItems buf =>
      match extractItems buf nrItems 0 ret collisions with
      | .error e => .error e
      | .ok (ret, collisions) =>
        if !retry || nrItems == 0 then .ok (ret, collisions)
        else
          match largestKey ret with
          | .error e => .error e
          | .ok h =>
            if h.ty < 256 then
              if h.offset + 1 < 2 ^ 64 then
                searchLoop k retry fuel (i + 1)
                  { args with minObjectid := h.objectid, minType := h.ty, minOffset := h.offset + 1 }
                  ret collisions
              else R.err .bumpOffset
            else R.err .conversion

/-- `Fs::search` (fs.rs:166-286) -/
def Fs.search (fuel : Nat) (fs : Fs) (args : SearchArgs) : R (List Item) :=
  match fs with
  | .unmounted _ => R.err .searchUnmounted
  | .mounted k =>
    let retry := decide (args.maxObjectid ≠ u64Max) || decide (args.maxType ≠ u8Max) ||
      decide (args.maxOffset ≠ u64Max) || decide (args.maxTransid ≠ u64Max)
    match searchLoop k retry fuel 0 args [] 0 with
    | .error e => .error e
    | .ok (ret, collisions) => if collisions ≠ 0 then R.err (.collisions collisions) else .ok ret

/-- `Fs::get_bytes(start..stop)` (fs.rs:288-298) -/
def Fs.getBytes (fs : Fs) (start stop : Nat) : R Bytes :=
  match fs with
  | .unmounted img =>
    if start ≤ stop ∧ stop ≤ img.length then .ok ((img.drop start).take (stop - start))
    else R.err (.bytesRange img.length)
  | .mounted _ => R.err .bytesMounted

end Btrd
