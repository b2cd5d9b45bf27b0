/-
Which struct the items of a btrfs tree hold, from the kernel's `include/uapi/linux/btrfs_tree.h` and the
on-disk format documentation. Independent of the tables of the tool, except that a root reference goes by
the tool's name for it (`btrfs_roof_ref`).
-/
import Verif.Model.Base

namespace Btrd.Spec

/-- one kind of item: the struct it holds, the type number of its key, and the objectid and the offset its
key must have, if they are fixed -/
structure ItemKind where
  layout : Str
  ty : Int
  oid : Option Int := none
  off : Option Int := none

/-- a key is one of an item of the kind -/
def ItemKind.matches (k : ItemKind) (oid ty off : Int) : Bool :=
  ty == k.ty && (k.oid.all (oid == ·)) && (k.off.all (off == ·))

/-- the kinds of items; negative object ids are the unsigned 64 bit numbers with the same bits -/
def itemKinds : List ItemKind := [
  { layout := s!' "btrfs_free_space_header", ty := 0, oid := some (2 ^ 64 - 11) },
  { layout := s!' "btrfs_inode_item", ty := 1, off := some 0 },
  { layout := s!' "btrfs_inode_ref", ty := 12 },
  { layout := s!' "btrfs_inode_extref", ty := 13 },
  { layout := s!' "btrfs_dir_item", ty := 24 },
  { layout := s!' "btrfs_orphan_item", ty := 48, oid := some (2 ^ 64 - 5) },
  { layout := s!' "btrfs_dir_log_item", ty := 60 },
  { layout := s!' "btrfs_dir_log_item", ty := 72 },
  { layout := s!' "btrfs_dir_item", ty := 84 },
  { layout := s!' "btrfs_dir_item", ty := 96 },
  { layout := s!' "btrfs_file_extent_item", ty := 108 },
  { layout := s!' "btrfs_csum_item", ty := 128, oid := some (2 ^ 64 - 10) },
  { layout := s!' "btrfs_root_item", ty := 132 },
  { layout := s!' "btrfs_roof_ref", ty := 144 },
  { layout := s!' "btrfs_roof_ref", ty := 156 },
  { layout := s!' "btrfs_extent_item", ty := 168 },
  { layout := s!' "btrfs_extent_item", ty := 169 },
  { layout := s!' "btrfs_block_group_item", ty := 192 },
  { layout := s!' "btrfs_free_space_info", ty := 198 },
  { layout := s!' "btrfs_dev_extent", ty := 204 },
  { layout := s!' "btrfs_dev_item", ty := 216, oid := some 1 },
  { layout := s!' "btrfs_chunk", ty := 228, oid := some 256 },
  { layout := s!' "btrfs_qgroup_status_item", ty := 240, oid := some 0, off := some 0 },
  { layout := s!' "btrfs_qgroup_info_item", ty := 242, oid := some 0 },
  { layout := s!' "btrfs_qgroup_limit_item", ty := 244, oid := some 0 },
  { layout := s!' "btrfs_balance_item", ty := 248, oid := some (2 ^ 64 - 4), off := some 0 },
  { layout := s!' "btrfs_dev_stats_item", ty := 249, oid := some 0 },
  { layout := s!' "btrfs_dev_replace_item", ty := 250 }]

/-- the struct an item with the key holds, if it is one of the kinds -/
def documented (oid ty off : Int) : Option Str :=
  (itemKinds.find? fun k => k.matches oid ty off).map (·.layout)

end Btrd.Spec
