/-
The constants of the kernel header `linux/btrfs_tree.h` (which definitions.rs:1-4 names as its source),
transcribed from the header, not from the code: objectids counted down from zero are unsigned 64-bit
numbers there. And the functions listed by the `help` command.
-/
import Verif.Model.Base
import Verif.Model.Variables

namespace Btrd.Spec

def header : List (Str × Int) :=
  [(s!' "BTRFS_DEV_STAT_WRITE_ERRS", 0),
   (s!' "BTRFS_DEV_STAT_READ_ERRS", 1),
   (s!' "BTRFS_DEV_STAT_FLUSH_ERRS", 2),
   (s!' "BTRFS_DEV_STAT_CORRUPTION_ERRS", 3),
   (s!' "BTRFS_DEV_STAT_GENERATION_ERRS", 4),
   (s!' "BTRFS_DEV_STAT_VALUES_MAX", 5),
   (s!' "BTRFS_CSUM_TYPE_CRC32", 0),
   (s!' "BTRFS_CSUM_TYPE_XXHASH", 1),
   (s!' "BTRFS_CSUM_TYPE_SHA256", 2),
   (s!' "BTRFS_CSUM_TYPE_BLAKE2", 3),
   (s!' "BTRFS_FILE_EXTENT_INLINE", 0),
   (s!' "BTRFS_FILE_EXTENT_REG", 1),
   (s!' "BTRFS_FILE_EXTENT_PREALLOC", 2),
   (s!' "BTRFS_NR_FILE_EXTENT_TYPES", 3),
   (s!' "BTRFS_RAID_RAID10", 0),
   (s!' "BTRFS_RAID_RAID1", 1),
   (s!' "BTRFS_RAID_DUP", 2),
   (s!' "BTRFS_RAID_RAID0", 3),
   (s!' "BTRFS_RAID_SINGLE", 4),
   (s!' "BTRFS_RAID_RAID5", 5),
   (s!' "BTRFS_RAID_RAID6", 6),
   (s!' "BTRFS_RAID_RAID1C3", 7),
   (s!' "BTRFS_RAID_RAID1C4", 8),
   (s!' "BTRFS_NR_RAID_TYPES", 9),
   (s!' "BTRFS_FSID_SIZE", 16),
   (s!' "BTRFS_UUID_SIZE", 16),
   (s!' "BTRFS_CSUM_SIZE", 32),
   (s!' "BTRFS_ROOT_TREE_OBJECTID", 1),
   (s!' "BTRFS_EXTENT_TREE_OBJECTID", 2),
   (s!' "BTRFS_CHUNK_TREE_OBJECTID", 3),
   (s!' "BTRFS_DEV_TREE_OBJECTID", 4),
   (s!' "BTRFS_FS_TREE_OBJECTID", 5),
   (s!' "BTRFS_ROOT_TREE_DIR_OBJECTID", 6),
   (s!' "BTRFS_CSUM_TREE_OBJECTID", 7),
   (s!' "BTRFS_QUOTA_TREE_OBJECTID", 8),
   (s!' "BTRFS_UUID_TREE_OBJECTID", 9),
   (s!' "BTRFS_FREE_SPACE_TREE_OBJECTID", 10),
   (s!' "BTRFS_DEV_STATS_OBJECTID", 0),
   (s!' "BTRFS_BALANCE_OBJECTID", 0xfffffffffffffffc),
   (s!' "BTRFS_ORPHAN_OBJECTID", 0xfffffffffffffffb),
   (s!' "BTRFS_TREE_LOG_OBJECTID", 0xfffffffffffffffa),
   (s!' "BTRFS_TREE_LOG_FIXUP_OBJECTID", 0xfffffffffffffff9),
   (s!' "BTRFS_TREE_RELOC_OBJECTID", 0xfffffffffffffff8),
   (s!' "BTRFS_DATA_RELOC_TREE_OBJECTID", 0xfffffffffffffff7),
   (s!' "BTRFS_EXTENT_CSUM_OBJECTID", 0xfffffffffffffff6),
   (s!' "BTRFS_FREE_SPACE_OBJECTID", 0xfffffffffffffff5),
   (s!' "BTRFS_FREE_INO_OBJECTID", 0xfffffffffffffff4),
   (s!' "BTRFS_MULTIPLE_OBJECTIDS", 0xffffffffffffff01),
   (s!' "BTRFS_FIRST_FREE_OBJECTID", 256),
   (s!' "BTRFS_LAST_FREE_OBJECTID", 0xffffffffffffff00),
   (s!' "BTRFS_FIRST_CHUNK_TREE_OBJECTID", 256),
   (s!' "BTRFS_DEV_ITEMS_OBJECTID", 1),
   (s!' "BTRFS_BTREE_INODE_OBJECTID", 1),
   (s!' "BTRFS_EMPTY_SUBVOL_DIR_OBJECTID", 2),
   (s!' "BTRFS_DEV_REPLACE_DEVID", 0),
   (s!' "BTRFS_INODE_ITEM_KEY", 1),
   (s!' "BTRFS_INODE_REF_KEY", 12),
   (s!' "BTRFS_INODE_EXTREF_KEY", 13),
   (s!' "BTRFS_XATTR_ITEM_KEY", 24),
   (s!' "BTRFS_ORPHAN_ITEM_KEY", 48),
   (s!' "BTRFS_DIR_LOG_ITEM_KEY", 60),
   (s!' "BTRFS_DIR_LOG_INDEX_KEY", 72),
   (s!' "BTRFS_DIR_ITEM_KEY", 84),
   (s!' "BTRFS_DIR_INDEX_KEY", 96),
   (s!' "BTRFS_EXTENT_DATA_KEY", 108),
   (s!' "BTRFS_EXTENT_CSUM_KEY", 128),
   (s!' "BTRFS_ROOT_ITEM_KEY", 132),
   (s!' "BTRFS_ROOT_BACKREF_KEY", 144),
   (s!' "BTRFS_ROOT_REF_KEY", 156),
   (s!' "BTRFS_EXTENT_ITEM_KEY", 168),
   (s!' "BTRFS_METADATA_ITEM_KEY", 169),
   (s!' "BTRFS_TREE_BLOCK_REF_KEY", 176),
   (s!' "BTRFS_EXTENT_DATA_REF_KEY", 178),
   (s!' "BTRFS_EXTENT_REF_V0_KEY", 180),
   (s!' "BTRFS_SHARED_BLOCK_REF_KEY", 182),
   (s!' "BTRFS_SHARED_DATA_REF_KEY", 184),
   (s!' "BTRFS_BLOCK_GROUP_ITEM_KEY", 192),
   (s!' "BTRFS_FREE_SPACE_INFO_KEY", 198),
   (s!' "BTRFS_FREE_SPACE_EXTENT_KEY", 199),
   (s!' "BTRFS_FREE_SPACE_BITMAP_KEY", 200),
   (s!' "BTRFS_DEV_EXTENT_KEY", 204),
   (s!' "BTRFS_DEV_ITEM_KEY", 216),
   (s!' "BTRFS_CHUNK_ITEM_KEY", 228),
   (s!' "BTRFS_QGROUP_STATUS_KEY", 240),
   (s!' "BTRFS_QGROUP_INFO_KEY", 242),
   (s!' "BTRFS_QGROUP_LIMIT_KEY", 244),
   (s!' "BTRFS_QGROUP_RELATION_KEY", 246),
   (s!' "BTRFS_BALANCE_ITEM_KEY", 248),
   (s!' "BTRFS_TEMPORARY_ITEM_KEY", 248),
   (s!' "BTRFS_DEV_STATS_KEY", 249),
   (s!' "BTRFS_PERSISTENT_ITEM_KEY", 249),
   (s!' "BTRFS_DEV_REPLACE_KEY", 250),
   (s!' "BTRFS_UUID_KEY_SUBVOL", 251),
   (s!' "BTRFS_UUID_KEY_RECEIVED_SUBVOL", 252),
   (s!' "BTRFS_STRING_ITEM_KEY", 253),
   (s!' "BTRFS_FT_UNKNOWN", 0),
   (s!' "BTRFS_FT_REG_FILE", 1),
   (s!' "BTRFS_FT_DIR", 2),
   (s!' "BTRFS_FT_CHRDEV", 3),
   (s!' "BTRFS_FT_BLKDEV", 4),
   (s!' "BTRFS_FT_FIFO", 5),
   (s!' "BTRFS_FT_SOCK", 6),
   (s!' "BTRFS_FT_SYMLINK", 7),
   (s!' "BTRFS_FT_XATTR", 8),
   (s!' "BTRFS_FT_MAX", 9),
   (s!' "BTRFS_FREE_SPACE_EXTENT", 1),
   (s!' "BTRFS_FREE_SPACE_BITMAP", 2),
   (s!' "BTRFS_HEADER_FLAG_WRITTEN", 1),
   (s!' "BTRFS_HEADER_FLAG_RELOC", 2),
   (s!' "BTRFS_SUPER_FLAG_ERROR", 4),
   (s!' "BTRFS_SUPER_FLAG_SEEDING", 0x100000000),
   (s!' "BTRFS_SUPER_FLAG_METADUMP", 0x200000000),
   (s!' "BTRFS_SUPER_FLAG_METADUMP_V2", 0x400000000),
   (s!' "BTRFS_SUPER_FLAG_CHANGING_FSID", 0x800000000),
   (s!' "BTRFS_SUPER_FLAG_CHANGING_FSID_V2", 0x1000000000),
   (s!' "BTRFS_EXTENT_FLAG_DATA", 1),
   (s!' "BTRFS_EXTENT_FLAG_TREE_BLOCK", 2),
   (s!' "BTRFS_BLOCK_FLAG_FULL_BACKREF", 256),
   (s!' "BTRFS_EXTENT_FLAG_SUPER", 0x1000000000000),
   (s!' "BTRFS_ROOT_SUBVOL_RDONLY", 1),
   (s!' "BTRFS_ROOT_SUBVOL_DEAD", 0x1000000000000),
   (s!' "BTRFS_DEV_REPLACE_ITEM_CONT_READING_FROM_SRCDEV_MODE_ALWAYS", 0),
   (s!' "BTRFS_DEV_REPLACE_ITEM_CONT_READING_FROM_SRCDEV_MODE_AVOID", 1),
   (s!' "BTRFS_BLOCK_GROUP_DATA", 1),
   (s!' "BTRFS_BLOCK_GROUP_SYSTEM", 2),
   (s!' "BTRFS_BLOCK_GROUP_METADATA", 4),
   (s!' "BTRFS_BLOCK_GROUP_RAID0", 8),
   (s!' "BTRFS_BLOCK_GROUP_RAID1", 16),
   (s!' "BTRFS_BLOCK_GROUP_DUP", 32),
   (s!' "BTRFS_BLOCK_GROUP_RAID10", 64),
   (s!' "BTRFS_BLOCK_GROUP_RAID5", 128),
   (s!' "BTRFS_BLOCK_GROUP_RAID6", 256),
   (s!' "BTRFS_BLOCK_GROUP_RAID1C3", 0x200),
   (s!' "BTRFS_BLOCK_GROUP_RAID1C4", 0x400),
   (s!' "BTRFS_BLOCK_GROUP_RESERVED", 0x3000000000000),
   (s!' "BTRFS_BLOCK_GROUP_TYPE_MASK", 7),
   (s!' "BTRFS_BLOCK_GROUP_PROFILE_MASK", 0x7f8),
   (s!' "BTRFS_BLOCK_GROUP_RAID56_MASK", 0x180),
   (s!' "BTRFS_BLOCK_GROUP_RAID1_MASK", 0x610),
   (s!' "BTRFS_AVAIL_ALLOC_BIT_SINGLE", 0x1000000000000),
   (s!' "BTRFS_SPACE_INFO_GLOBAL_RSV", 0x2000000000000),
   (s!' "BTRFS_EXTENDED_PROFILE_MASK", 0x10000000007f8),
   (s!' "BTRFS_FREE_SPACE_USING_BITMAPS", 1),
   (s!' "BTRFS_QGROUP_LEVEL_SHIFT", 48),
   (s!' "BTRFS_QGROUP_STATUS_FLAG_ON", 1),
   (s!' "BTRFS_QGROUP_STATUS_FLAG_RESCAN", 2),
   (s!' "BTRFS_QGROUP_STATUS_FLAG_INCONSISTENT", 4),
   (s!' "BTRFS_QGROUP_STATUS_VERSION", 1)]

/-- the function names of the help text -/
def documentedFunctions : List (Str × Function) :=
  [(s!' "key", .key), (s!' "search", .search), (s!' "keyof", .keyOf), (s!' "typeof", .typeOf),
   (s!' "len", .len), (s!' "hist", .hist), (s!' "str", .str)]

end Btrd.Spec
