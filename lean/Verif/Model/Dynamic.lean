/-
The two `DynamicStruct` callbacks of `src/btrfs/definitions.rs`.
-/
import Verif.Model.Definitions

namespace Btrd

/-- `BTRFS_EXTENT_INLINE_REF` with one or two fields pushed (definitions.rs:869-902) -/
def inlineRef (extra : List (Option Str × Ty)) : Option Str × Ty :=
  (some s!' "inline_ref", .struct BTRFS_EXTENT_INLINE_REF.name (BTRFS_EXTENT_INLINE_REF.fields ++ extra))

/-- The `while offset < bytes.len()` loop of `btrfs_extent_item` (definitions.rs:858-903) on the bytes
from the current offset, together with the final `ensure!(offset == bytes.len())`. Every iteration
advances the offset by at least one byte; `fuel` bounds the iterations and the callback passes the number
of bytes left. `skip` models `offset` running past the end: dropping more bytes than there are leaves
nothing to read, and the leftover check fails. The header of a reference is one byte, so that the test of
definitions.rs:860 never fails; the numbers of its message, counted from the start of the item in the code, are
counted from the current offset here. -/
def inlineRefs : Nat → Bytes → R (List (Option Str × Ty))
  | 0, _ => R.diverge
  | fuel + 1, bytes =>
    match bytes with
    | [] => .ok []
    | ty :: _ =>
      if BTRFS_EXTENT_INLINE_REF.size ≤ bytes.length then
        let rest := bytes.drop BTRFS_EXTENT_INLINE_REF.size
        if (ty.toNat : Int) = BTRFS_EXTENT_DATA_REF_KEY then
          next fuel rest BTRFS_EXTENT_DATA_REF.size [(some s!' "data_ref", BTRFS_EXTENT_DATA_REF.ty)]
        else if (ty.toNat : Int) = BTRFS_SHARED_DATA_REF_KEY then
          next fuel rest (8 + BTRFS_SHARED_DATA_REF.size)
            [(some s!' "offset", .u64), (some s!' "shared_data_ref", BTRFS_SHARED_DATA_REF.ty)]
        else if (ty.toNat : Int) = BTRFS_SHARED_BLOCK_REF_KEY ∨ (ty.toNat : Int) = BTRFS_TREE_BLOCK_REF_KEY then
          next fuel rest 8 [(some s!' "offset", .u64)]
        else R.err (.unknownInlineRef ty.toNat)
      else R.err (.shortRead BTRFS_EXTENT_INLINE_REF.name [] bytes.length BTRFS_EXTENT_INLINE_REF.size)
where
  /-- advance by `n` bytes; when fewer are left the loop ends and the leftover check fails -/
  next (fuel : Nat) (rest : Bytes) (n : Nat) (extra : List (Option Str × Ty)) : R (List (Option Str × Ty)) :=
    if n ≤ rest.length then
      match inlineRefs fuel (rest.drop n) with
      | .ok fs => .ok (inlineRef extra :: fs)
      | .error e => .error e
    else R.err .leftover

/-- the callback of `btrfs_extent_item` (definitions.rs:822-908) -/
def extentItemFields (bytes : Bytes) : R (List (Option Str × Ty)) :=
  if 24 ≤ bytes.length then
    match inlineRefs (bytes.length + 1) (bytes.drop 24) with
    | .ok fs =>
      .ok ([(some s!' "refs", .u64), (some s!' "generation", .u64), (some s!' "flags", .u64)] ++ fs)
    | .error e => .error e
  else R.err (.shortRead s!' "btrfs_extent_item" [] bytes.length 24)

/-- the callback of `btrfs_file_extent_item` (definitions.rs:1181-1239) -/
def fileExtentItemFields (bytes : Bytes) : R (List (Option Str × Ty)) :=
  let header := [(some s!' "generation", Ty.u64), (some s!' "ram_bytes", .u64), (some s!' "compression", .u8),
    (some s!' "encryption", .u8), (some s!' "other_encoding", .u16), (some s!' "type", .u8)]
  if 21 ≤ bytes.length then
    match bytes[20]? with
    | none => R.panic
    | some ty =>
      if (ty.toNat : Int) = BTRFS_FILE_EXTENT_REG ∨ (ty.toNat : Int) = BTRFS_FILE_EXTENT_PREALLOC then
        .ok (header ++ [(some s!' "disk_bytenr", .u64), (some s!' "disk_num_bytes", .u64),
          (some s!' "offset", .u64), (some s!' "num_bytes", .u64)])
      else .ok header
  else R.err (.shortRead s!' "btrfs_file_extent_item" [] bytes.length 21)

end Btrd
