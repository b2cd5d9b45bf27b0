/-
Where the members of the on-disk structs of btrfs are, from the kernel's `include/uapi/linux/btrfs_tree.h` (and
`fs/btrfs/ctree.h` for `btrfs_header`): all structs are packed and all numbers little endian. Written down from the
header as byte offsets, independently of the tables of the tool. A root reference goes by the tool's name for it
(`btrfs_roof_ref`), and members of anonymous unions and structs appear in the struct around them, as in C.
-/
import Verif.Spec.Layout
import Verif.Spec.Rules

namespace Btrd.Spec

/-- what is at a place: a number of so many bytes, an array of numbers, or another struct -/
inductive Shape where
  | num (bytes : Nat)
  | nums (bytes count : Nat)
  | record (name : Str)

/-- a member of a struct -/
structure Member where
  name : Str
  off : Nat
  shape : Shape

/-- a struct of the header: its name, the size of its fixed part and the members there -/
structure Record where
  name : Str
  size : Nat
  members : List Member

def abi : List Record := [
  ⟨s!' "btrfs_key", 17, [
    ⟨s!' "objectid", 0, .num 8⟩,
    ⟨s!' "type", 8, .num 1⟩,
    ⟨s!' "offset", 9, .num 8⟩]⟩,
  ⟨s!' "btrfs_header", 101, [
    ⟨s!' "csum", 0, .nums 1 32⟩,
    ⟨s!' "fsid", 32, .nums 1 16⟩,
    ⟨s!' "bytenr", 48, .num 8⟩,
    ⟨s!' "flags", 56, .num 8⟩,
    ⟨s!' "chunk_tree_uuid", 64, .nums 1 16⟩,
    ⟨s!' "generation", 80, .num 8⟩,
    ⟨s!' "owner", 88, .num 8⟩,
    ⟨s!' "nritems", 96, .num 4⟩,
    ⟨s!' "level", 100, .num 1⟩]⟩,
  ⟨s!' "btrfs_dev_item", 98, [
    ⟨s!' "devid", 0, .num 8⟩,
    ⟨s!' "total_bytes", 8, .num 8⟩,
    ⟨s!' "bytes_used", 16, .num 8⟩,
    ⟨s!' "io_align", 24, .num 4⟩,
    ⟨s!' "io_width", 28, .num 4⟩,
    ⟨s!' "sector_size", 32, .num 4⟩,
    ⟨s!' "type", 36, .num 8⟩,
    ⟨s!' "generation", 44, .num 8⟩,
    ⟨s!' "start_offset", 52, .num 8⟩,
    ⟨s!' "dev_group", 60, .num 4⟩,
    ⟨s!' "seek_speed", 64, .num 1⟩,
    ⟨s!' "bandwidth", 65, .num 1⟩,
    ⟨s!' "uuid", 66, .nums 1 16⟩,
    ⟨s!' "fsid", 82, .nums 1 16⟩]⟩,
  ⟨s!' "btrfs_stripe", 32, [
    ⟨s!' "devid", 0, .num 8⟩,
    ⟨s!' "offset", 8, .num 8⟩,
    ⟨s!' "dev_uuid", 16, .nums 1 16⟩]⟩,
  ⟨s!' "btrfs_chunk", 48, [
    ⟨s!' "length", 0, .num 8⟩,
    ⟨s!' "owner", 8, .num 8⟩,
    ⟨s!' "stripe_len", 16, .num 8⟩,
    ⟨s!' "type", 24, .num 8⟩,
    ⟨s!' "io_align", 32, .num 4⟩,
    ⟨s!' "io_width", 36, .num 4⟩,
    ⟨s!' "sector_size", 40, .num 4⟩,
    ⟨s!' "num_stripes", 44, .num 2⟩,
    ⟨s!' "sub_stripes", 46, .num 2⟩]⟩,
  ⟨s!' "btrfs_extent_inline_ref", 1, [
    ⟨s!' "type", 0, .num 1⟩]⟩,
  ⟨s!' "btrfs_extent_data_ref", 28, [
    ⟨s!' "root", 0, .num 8⟩,
    ⟨s!' "objectid", 8, .num 8⟩,
    ⟨s!' "offset", 16, .num 8⟩,
    ⟨s!' "count", 24, .num 4⟩]⟩,
  ⟨s!' "btrfs_shared_data_ref", 4, [
    ⟨s!' "count", 0, .num 4⟩]⟩,
  ⟨s!' "btrfs_orphan_item", 0, []⟩,
  ⟨s!' "btrfs_extent_item", 24, [
    ⟨s!' "refs", 0, .num 8⟩,
    ⟨s!' "generation", 8, .num 8⟩,
    ⟨s!' "flags", 16, .num 8⟩]⟩,
  ⟨s!' "btrfs_dev_extent", 48, [
    ⟨s!' "chunk_tree", 0, .num 8⟩,
    ⟨s!' "chunk_objectid", 8, .num 8⟩,
    ⟨s!' "chunk_offset", 16, .num 8⟩,
    ⟨s!' "length", 24, .num 8⟩,
    ⟨s!' "chunk_tree_uuid", 32, .nums 1 16⟩]⟩,
  ⟨s!' "btrfs_inode_ref", 10, [
    ⟨s!' "index", 0, .num 8⟩,
    ⟨s!' "name_len", 8, .num 2⟩]⟩,
  ⟨s!' "btrfs_inode_extref", 18, [
    ⟨s!' "parent_objectid", 0, .num 8⟩,
    ⟨s!' "index", 8, .num 8⟩,
    ⟨s!' "name_len", 16, .num 2⟩]⟩,
  ⟨s!' "btrfs_timespec", 12, [
    ⟨s!' "sec", 0, .num 8⟩,
    ⟨s!' "nsec", 8, .num 4⟩]⟩,
  ⟨s!' "btrfs_inode_item", 160, [
    ⟨s!' "generation", 0, .num 8⟩,
    ⟨s!' "transid", 8, .num 8⟩,
    ⟨s!' "size", 16, .num 8⟩,
    ⟨s!' "nbytes", 24, .num 8⟩,
    ⟨s!' "block_group", 32, .num 8⟩,
    ⟨s!' "nlink", 40, .num 4⟩,
    ⟨s!' "uid", 44, .num 4⟩,
    ⟨s!' "gid", 48, .num 4⟩,
    ⟨s!' "mode", 52, .num 4⟩,
    ⟨s!' "rdev", 56, .num 8⟩,
    ⟨s!' "flags", 64, .num 8⟩,
    ⟨s!' "sequence", 72, .num 8⟩,
    ⟨s!' "reserved", 80, .nums 8 4⟩,
    ⟨s!' "atime", 112, .record s!' "btrfs_timespec"⟩,
    ⟨s!' "ctime", 124, .record s!' "btrfs_timespec"⟩,
    ⟨s!' "mtime", 136, .record s!' "btrfs_timespec"⟩,
    ⟨s!' "otime", 148, .record s!' "btrfs_timespec"⟩]⟩,
  ⟨s!' "btrfs_dir_log_item", 8, [
    ⟨s!' "end", 0, .num 8⟩]⟩,
  ⟨s!' "btrfs_dir_item", 30, [
    ⟨s!' "location", 0, .record s!' "btrfs_key"⟩,
    ⟨s!' "transid", 17, .num 8⟩,
    ⟨s!' "data_len", 25, .num 2⟩,
    ⟨s!' "name_len", 27, .num 2⟩,
    ⟨s!' "type", 29, .num 1⟩]⟩,
  ⟨s!' "btrfs_root_item", 439, [
    ⟨s!' "inode", 0, .record s!' "btrfs_inode_item"⟩,
    ⟨s!' "generation", 160, .num 8⟩,
    ⟨s!' "root_dirid", 168, .num 8⟩,
    ⟨s!' "bytenr", 176, .num 8⟩,
    ⟨s!' "byte_limit", 184, .num 8⟩,
    ⟨s!' "bytes_used", 192, .num 8⟩,
    ⟨s!' "last_snapshot", 200, .num 8⟩,
    ⟨s!' "flags", 208, .num 8⟩,
    ⟨s!' "refs", 216, .num 4⟩,
    ⟨s!' "drop_progress", 220, .record s!' "btrfs_key"⟩,
    ⟨s!' "drop_level", 237, .num 1⟩,
    ⟨s!' "level", 238, .num 1⟩,
    ⟨s!' "generation_v2", 239, .num 8⟩,
    ⟨s!' "uuid", 247, .nums 1 16⟩,
    ⟨s!' "parent_uuid", 263, .nums 1 16⟩,
    ⟨s!' "received_uuid", 279, .nums 1 16⟩,
    ⟨s!' "ctransid", 295, .num 8⟩,
    ⟨s!' "otransid", 303, .num 8⟩,
    ⟨s!' "stransid", 311, .num 8⟩,
    ⟨s!' "rtransid", 319, .num 8⟩,
    ⟨s!' "ctime", 327, .record s!' "btrfs_timespec"⟩,
    ⟨s!' "otime", 339, .record s!' "btrfs_timespec"⟩,
    ⟨s!' "stime", 351, .record s!' "btrfs_timespec"⟩,
    ⟨s!' "rtime", 363, .record s!' "btrfs_timespec"⟩,
    ⟨s!' "reserved", 375, .nums 8 8⟩]⟩,
  ⟨s!' "btrfs_roof_ref", 18, [
    ⟨s!' "dirid", 0, .num 8⟩,
    ⟨s!' "sequence", 8, .num 8⟩,
    ⟨s!' "name_len", 16, .num 2⟩]⟩,
  ⟨s!' "btrfs_disk_balance_args", 136, [
    ⟨s!' "profiles", 0, .num 8⟩,
    ⟨s!' "usage", 8, .num 8⟩,
    ⟨s!' "usage_min", 8, .num 4⟩,
    ⟨s!' "usage_max", 12, .num 4⟩,
    ⟨s!' "devid", 16, .num 8⟩,
    ⟨s!' "pstart", 24, .num 8⟩,
    ⟨s!' "pend", 32, .num 8⟩,
    ⟨s!' "vstart", 40, .num 8⟩,
    ⟨s!' "vend", 48, .num 8⟩,
    ⟨s!' "target", 56, .num 8⟩,
    ⟨s!' "flags", 64, .num 8⟩,
    ⟨s!' "limit", 72, .num 8⟩,
    ⟨s!' "limit_min", 72, .num 4⟩,
    ⟨s!' "limit_max", 76, .num 4⟩,
    ⟨s!' "stripes_min", 80, .num 4⟩,
    ⟨s!' "stripes_max", 84, .num 4⟩,
    ⟨s!' "unused", 88, .nums 8 6⟩]⟩,
  -- the header has 32 unused bytes behind these members, which the tool does not show
  ⟨s!' "btrfs_balance_item", 416, [
    ⟨s!' "flags", 0, .num 8⟩,
    ⟨s!' "data", 8, .record s!' "btrfs_disk_balance_args"⟩,
    ⟨s!' "meta", 144, .record s!' "btrfs_disk_balance_args"⟩,
    ⟨s!' "sys", 280, .record s!' "btrfs_disk_balance_args"⟩]⟩,
  -- the members every file extent has; those that are not inline have four more (`extentOnDisk`)
  ⟨s!' "btrfs_file_extent_item", 21, [
    ⟨s!' "generation", 0, .num 8⟩,
    ⟨s!' "ram_bytes", 8, .num 8⟩,
    ⟨s!' "compression", 16, .num 1⟩,
    ⟨s!' "encryption", 17, .num 1⟩,
    ⟨s!' "other_encoding", 18, .num 2⟩,
    ⟨s!' "type", 20, .num 1⟩]⟩,
  ⟨s!' "btrfs_csum_item", 1, [
    ⟨s!' "csum", 0, .num 1⟩]⟩,
  ⟨s!' "btrfs_dev_stats_item", 40, [
    ⟨s!' "values", 0, .nums 8 5⟩]⟩,
  ⟨s!' "btrfs_dev_replace_item", 72, [
    ⟨s!' "src_devid", 0, .num 8⟩,
    ⟨s!' "cursor_left", 8, .num 8⟩,
    ⟨s!' "cursor_right", 16, .num 8⟩,
    ⟨s!' "cont_reading_from_srcdev_mode", 24, .num 8⟩,
    ⟨s!' "replace_state", 32, .num 8⟩,
    ⟨s!' "time_started", 40, .num 8⟩,
    ⟨s!' "time_stopped", 48, .num 8⟩,
    ⟨s!' "num_write_errors", 56, .num 8⟩,
    ⟨s!' "num_uncorrectable_read_errors", 64, .num 8⟩]⟩,
  ⟨s!' "btrfs_block_group_item", 24, [
    ⟨s!' "used", 0, .num 8⟩,
    ⟨s!' "chunk_objectid", 8, .num 8⟩,
    ⟨s!' "flags", 16, .num 8⟩]⟩,
  ⟨s!' "btrfs_free_space_info", 8, [
    ⟨s!' "extent_count", 0, .num 4⟩,
    ⟨s!' "flags", 4, .num 4⟩]⟩,
  ⟨s!' "btrfs_free_space_header", 41, [
    ⟨s!' "location", 0, .record s!' "btrfs_key"⟩,
    ⟨s!' "generation", 17, .num 8⟩,
    ⟨s!' "num_entries", 25, .num 8⟩,
    ⟨s!' "num_bitmaps", 33, .num 8⟩]⟩,
  ⟨s!' "btrfs_qgroup_status_item", 32, [
    ⟨s!' "version", 0, .num 8⟩,
    ⟨s!' "generation", 8, .num 8⟩,
    ⟨s!' "flags", 16, .num 8⟩,
    ⟨s!' "rescan", 24, .num 8⟩]⟩,
  ⟨s!' "btrfs_qgroup_info_item", 40, [
    ⟨s!' "generation", 0, .num 8⟩,
    ⟨s!' "rfer", 8, .num 8⟩,
    ⟨s!' "rfer_cmpr", 16, .num 8⟩,
    ⟨s!' "excl", 24, .num 8⟩,
    ⟨s!' "excl_cmpr", 32, .num 8⟩]⟩,
  ⟨s!' "btrfs_qgroup_limit_item", 40, [
    ⟨s!' "flags", 0, .num 8⟩,
    ⟨s!' "max_rfer", 8, .num 8⟩,
    ⟨s!' "max_excl", 16, .num 8⟩,
    ⟨s!' "rsv_rfer", 24, .num 8⟩,
    ⟨s!' "rsv_excl", 32, .num 8⟩]⟩]

/-- the further members of a file extent that is regular (1) or preallocated (2) -/
def extentOnDisk : List Member := [
  ⟨s!' "disk_bytenr", 21, .num 8⟩,
  ⟨s!' "disk_num_bytes", 29, .num 8⟩,
  ⟨s!' "offset", 37, .num 8⟩,
  ⟨s!' "num_bytes", 45, .num 8⟩]

/-- a member of a struct, or of a struct inside it: the path to it, its offset and what is there -/
inductive Located : Str → List Str → Nat → Shape → Prop where
  | here {r : Record} {x : Member} : r ∈ abi → x ∈ r.members → Located r.name [x.name] x.off x.shape
  | inside {r : Record} {x : Member} {t p off sh} : r ∈ abi → x ∈ r.members → x.shape = .record t →
      Located t p off sh → Located r.name (x.name :: p) (x.off + off) sh

/-- the value says what the bytes at the position are -/
def Shape.Shown (m : Mem) (pos : Nat) : Shape → Value → Prop
  | .num n, v => v = .int (leAt m pos n)
  | .nums n c, v => v = .array ((List.range c).map fun i => .int (leAt m (pos + i * n) n)) false
  | .record t, v => ∃ fs, v = .struct t none fs

/-- the component of a value at the end of a path of field names -/
inductive Finds : Value → List Str → Value → Prop where
  | here (v) : Finds v [] v
  | step {n k fs f v p w} : FirstField fs f v → Finds v p w → Finds (.struct n k fs) (f :: p) w

/-- `e.f₁.f₂…` -/
def dotted (e : Expr) (p : List Str) : Expr := p.foldl (fun e f => .field e (.ident f)) e

/-- how many bytes the shape covers -/
def Shape.size : Shape → Nat
  | .num n => n
  | .nums n c => n * c
  | .record t => ((abi.find? fun r => r.name == t).map (·.size)).getD 0

/-- the structs of the header that end with a name: its offset, and the member that holds its length -/
def named : List (Str × Nat × Str) := [
  (s!' "btrfs_inode_ref", 10, s!' "name_len"),
  (s!' "btrfs_inode_extref", 18, s!' "name_len"),
  (s!' "btrfs_dir_item", 30, s!' "name_len"),
  (s!' "btrfs_roof_ref", 18, s!' "name_len")]

end Btrd.Spec
