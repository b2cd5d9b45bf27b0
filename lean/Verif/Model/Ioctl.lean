/-
The system call of `Fs::search` (`src/btrfs/fs.rs`) down to the bytes: the request number, the memory handed to the
kernel and what is read back from it. `Model/Fs` describes the same call by its parameters and its reply
(`Kernel`); `kernelOf` says which `Kernel` a machine at the level of bytes amounts to.
-/
import Verif.Model.Fs
import Verif.Spec.Layout

namespace Btrd
open Spec (Mem)

/-- round up to a multiple of the alignment -/
def alignUp (n align : Nat) : Nat := (n + align - 1) / align * align

/-- where the fields of a `#[repr(C)]` struct of unsigned integers lie: each at the next multiple of its size, which is
its alignment (The Rust Reference, "The C representation"; x86-64 and other 64-bit targets) -/
def reprC : Nat → List (Str × Nat) → List (Str × Nat × Nat)
  | _, [] => []
  | off, (name, n) :: fs => (name, alignUp off n, n) :: reprC (alignUp off n + n) fs

/-- the end of the last field -/
def reprCEnd : Nat → List (Str × Nat) → Nat
  | off, [] => off
  | off, (_, n) :: fs => reprCEnd (alignUp off n + n) fs

/-- `BtrfsIoctlSearchKey` (fs.rs:33-52): the fields and their sizes in bytes, in the order of the declaration -/
def searchKeyFields : List (Str × Nat) := [
  (s!' "tree_id", 8), (s!' "min_objectid", 8), (s!' "max_objectid", 8), (s!' "min_offset", 8), (s!' "max_offset", 8),
  (s!' "min_transid", 8), (s!' "max_transid", 8), (s!' "min_type", 4), (s!' "max_type", 4), (s!' "nr_items", 4),
  (s!' "_unused", 4), (s!' "_unused1", 8), (s!' "_unused2", 8), (s!' "_unused3", 8), (s!' "_unused4", 8)]

/-- `size_of::<BtrfsIoctlSearchKey>()`: the end of the last field, rounded up to the largest alignment -/
def searchKeySize : Nat := alignUp (reprCEnd 0 searchKeyFields) 8

/-- `BtrfsIoctlSearchArgsV2` (fs.rs:54-59): `key` is first, `buf_size` (8 bytes) after it -/
def bufSizeOffset : Nat := alignUp searchKeySize 8

/-- ..., then `buf`, an array of bytes -/
def bufOffset : Nat := bufSizeOffset + 8

/-- `size_of::<BtrfsIoctlSearchArgsV2>()` if `MAX_BUF_SIZE` were `n` -/
def argsSize (n : Nat) : Nat := alignUp (bufOffset + n) 8

/-- `ioctl_readwrite!(_, ty, nr, T)` of nix 0.26 for Linux on most architectures: `ioc!(READ | WRITE, ty, nr, size_of::<T>())`.
Each part is masked to its width and shifted to its place; 14 bits are for the size (fs.rs:26-31). -/
def ioctlReadWrite (ty nr size : Nat) : Nat :=
  (3 &&& 0x3) <<< 30 ||| (ty &&& 0xff) <<< 8 ||| (nr &&& 0xff) <<< 0 ||| (size &&& 0x3fff) <<< 16

/-- the request number of `btrfs_tree_search_v2` (fs.rs:23, 26-31) -/
def searchRequest : Nat := ioctlReadWrite 0x94 17 (argsSize maxBufSize)

/-- write a little endian number of `n` bytes -/
def store (m : Mem) (off : Nat) : Nat → Nat → Mem
  | 0, _ => m
  | n + 1, v => store (fun i => if i = off then UInt8.ofNat (v % 256) else m i) (off + 1) n (v / 256)

/-- where a field of the key lies; assignments to a field that does not exist do not compile -/
def fieldPlace (name : Str) : Nat × Nat :=
  match (reprC 0 searchKeyFields).find? (fun f => f.1 == name) with
  | some f => f.2
  | none => (0, 0)

/-- `args.key.<name> = v` -/
def setKey (name : Str) (v : Nat) (m : Mem) : Mem := store m (fieldPlace name).1 (fieldPlace name).2 v

/-- reading `args.key.<name>` -/
def getKey (name : Str) (m : Mem) : Nat := Spec.leAt m (fieldPlace name).1 (fieldPlace name).2

/-- `BtrfsIoctlSearchArgsV2::new()` (fs.rs:61-76): zeroed memory, the default key, `nr_items` and `buf_size` -/
def newArgs : Mem := store (setKey s!' "nr_items" (2 ^ 32 - 1) fun _ => 0) bufSizeOffset 8 maxBufSize

/-- the memory handed to the kernel (fs.rs:191-200) -/
def argsMem (a : SearchArgs) : Mem :=
  setKey s!' "max_transid" a.maxTransid <| setKey s!' "min_transid" a.minTransid <|
  setKey s!' "max_offset" a.maxOffset <| setKey s!' "min_offset" a.minOffset <|
  setKey s!' "max_type" a.maxType <| setKey s!' "min_type" a.minType <|
  setKey s!' "max_objectid" a.maxObjectid <| setKey s!' "min_objectid" a.minObjectid <|
  setKey s!' "tree_id" a.treeId newArgs

/-- what an ioctl comes back with: success or `EOVERFLOW`, which are treated alike (fs.rs:203-204), and the memory as
the kernel left it; or another error -/
inductive Answer where
  | done (m : Mem)
  | errno

/-- the operating system below one search: the answer to the `i`-th ioctl, given the request number and the memory.
What it does with another request number is up to it. -/
abbrev Machine := Nat → Nat → Mem → Answer

/-- what `search` sees of a machine (fs.rs:202-206, 212-230): `args.key.nr_items` and `args.buf` -/
def kernelOf (M : Machine) : Kernel := fun i a =>
  match M i searchRequest (argsMem a) with
  | .done m => .data (getKey s!' "nr_items" m) fun j => m (bufOffset + j)
  | .errno => .errno

end Btrd
