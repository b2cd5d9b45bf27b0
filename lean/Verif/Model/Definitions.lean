/-
Generated by tools/gen_definitions.py from src/btrfs/definitions.rs: constants and shared structs.
-/
import Verif.Model.Structs

namespace Btrd

/-- `|` on i128 constants -/
def orI128 (a b : Int) : Int := ((BitVec.ofInt 128 a) ||| (BitVec.ofInt 128 b)).toInt

/-- definitions.rs:19 (`u8`) -/
def BTRFS_DEV_STAT_WRITE_ERRS : Int := 0

/-- definitions.rs:20 (`u8`) -/
def BTRFS_DEV_STAT_READ_ERRS : Int := 1

/-- definitions.rs:21 (`u8`) -/
def BTRFS_DEV_STAT_FLUSH_ERRS : Int := 2

/-- definitions.rs:22 (`u8`) -/
def BTRFS_DEV_STAT_CORRUPTION_ERRS : Int := 3

/-- definitions.rs:23 (`u8`) -/
def BTRFS_DEV_STAT_GENERATION_ERRS : Int := 4

/-- definitions.rs:24 (`u8`) -/
def BTRFS_DEV_STAT_VALUES_MAX : Int := 5

/-- definitions.rs:25 (`i128`) -/
def BTRFS_CSUM_TYPE_CRC32 : Int := 0

/-- definitions.rs:26 (`i128`) -/
def BTRFS_CSUM_TYPE_XXHASH : Int := 1

/-- definitions.rs:27 (`i128`) -/
def BTRFS_CSUM_TYPE_SHA256 : Int := 2

/-- definitions.rs:28 (`i128`) -/
def BTRFS_CSUM_TYPE_BLAKE2 : Int := 3

/-- definitions.rs:29 (`i128`) -/
def BTRFS_FILE_EXTENT_INLINE : Int := 0

/-- definitions.rs:30 (`i128`) -/
def BTRFS_FILE_EXTENT_REG : Int := 1

/-- definitions.rs:31 (`i128`) -/
def BTRFS_FILE_EXTENT_PREALLOC : Int := 2

/-- definitions.rs:32 (`i128`) -/
def BTRFS_NR_FILE_EXTENT_TYPES : Int := 3

/-- definitions.rs:33 (`i128`) -/
def BTRFS_RAID_RAID10 : Int := 0

/-- definitions.rs:34 (`i128`) -/
def BTRFS_RAID_RAID1 : Int := 1

/-- definitions.rs:35 (`i128`) -/
def BTRFS_RAID_DUP : Int := 2

/-- definitions.rs:36 (`i128`) -/
def BTRFS_RAID_RAID0 : Int := 3

/-- definitions.rs:37 (`i128`) -/
def BTRFS_RAID_SINGLE : Int := 4

/-- definitions.rs:38 (`i128`) -/
def BTRFS_RAID_RAID5 : Int := 5

/-- definitions.rs:39 (`i128`) -/
def BTRFS_RAID_RAID6 : Int := 6

/-- definitions.rs:40 (`i128`) -/
def BTRFS_RAID_RAID1C3 : Int := 7

/-- definitions.rs:41 (`i128`) -/
def BTRFS_RAID_RAID1C4 : Int := 8

/-- definitions.rs:42 (`i128`) -/
def BTRFS_NR_RAID_TYPES : Int := 9

/-- definitions.rs:43 (`u8`) -/
def BTRFS_FSID_SIZE : Int := 16

/-- definitions.rs:44 (`u8`) -/
def BTRFS_UUID_SIZE : Int := 16

/-- definitions.rs:45 (`i128`) -/
def BTRFS_ROOT_TREE_OBJECTID : Int := 1

/-- definitions.rs:46 (`i128`) -/
def BTRFS_EXTENT_TREE_OBJECTID : Int := 2

/-- definitions.rs:47 (`i128`) -/
def BTRFS_CHUNK_TREE_OBJECTID : Int := 3

/-- definitions.rs:48 (`i128`) -/
def BTRFS_DEV_TREE_OBJECTID : Int := 4

/-- definitions.rs:49 (`i128`) -/
def BTRFS_FS_TREE_OBJECTID : Int := 5

/-- definitions.rs:50 (`i128`) -/
def BTRFS_ROOT_TREE_DIR_OBJECTID : Int := 6

/-- definitions.rs:51 (`i128`) -/
def BTRFS_CSUM_TREE_OBJECTID : Int := 7

/-- definitions.rs:52 (`i128`) -/
def BTRFS_QUOTA_TREE_OBJECTID : Int := 8

/-- definitions.rs:53 (`i128`) -/
def BTRFS_UUID_TREE_OBJECTID : Int := 9

/-- definitions.rs:54 (`i128`) -/
def BTRFS_FREE_SPACE_TREE_OBJECTID : Int := 10

/-- definitions.rs:55 (`i128`) -/
def BTRFS_DEV_STATS_OBJECTID : Int := 0

/-- definitions.rs:56 (`i128`) -/
def BTRFS_BALANCE_OBJECTID : Int := 4

/-- definitions.rs:57 (`u64`) -/
def BTRFS_ORPHAN_OBJECTID : Int := 2 ^ 64 - 5

/-- definitions.rs:58 (`u64`) -/
def BTRFS_TREE_LOG_OBJECTID : Int := 2 ^ 64 - 6

/-- definitions.rs:59 (`u64`) -/
def BTRFS_TREE_LOG_FIXUP_OBJECTID : Int := 2 ^ 64 - 7

/-- definitions.rs:60 (`u64`) -/
def BTRFS_TREE_RELOC_OBJECTID : Int := 2 ^ 64 - 8

/-- definitions.rs:61 (`u64`) -/
def BTRFS_DATA_RELOC_TREE_OBJECTID : Int := 2 ^ 64 - 9

/-- definitions.rs:62 (`u64`) -/
def BTRFS_EXTENT_CSUM_OBJECTID : Int := 2 ^ 64 - 10

/-- definitions.rs:63 (`u64`) -/
def BTRFS_FREE_SPACE_OBJECTID : Int := 2 ^ 64 - 11

/-- definitions.rs:64 (`u64`) -/
def BTRFS_FREE_INO_OBJECTID : Int := 2 ^ 64 - 12

/-- definitions.rs:65 (`u64`) -/
def BTRFS_MULTIPLE_OBJECTIDS : Int := 2 ^ 64 - 255

/-- definitions.rs:66 (`i128`) -/
def BTRFS_FIRST_FREE_OBJECTID : Int := 256

/-- definitions.rs:67 (`u64`) -/
def BTRFS_LAST_FREE_OBJECTID : Int := 2 ^ 64 - 256

/-- definitions.rs:68 (`i128`) -/
def BTRFS_FIRST_CHUNK_TREE_OBJECTID : Int := 256

/-- definitions.rs:69 (`i128`) -/
def BTRFS_DEV_ITEMS_OBJECTID : Int := 1

/-- definitions.rs:70 (`i128`) -/
def BTRFS_BTREE_INODE_OBJECTID : Int := 1

/-- definitions.rs:71 (`i128`) -/
def BTRFS_EMPTY_SUBVOL_DIR_OBJECTID : Int := 2

/-- definitions.rs:72 (`i128`) -/
def BTRFS_DEV_REPLACE_DEVID : Int := 0

/-- definitions.rs:73 (`i128`) -/
def BTRFS_INODE_ITEM_KEY : Int := 1

/-- definitions.rs:74 (`i128`) -/
def BTRFS_INODE_REF_KEY : Int := 12

/-- definitions.rs:75 (`i128`) -/
def BTRFS_INODE_EXTREF_KEY : Int := 13

/-- definitions.rs:76 (`i128`) -/
def BTRFS_XATTR_ITEM_KEY : Int := 24

/-- definitions.rs:77 (`i128`) -/
def BTRFS_ORPHAN_ITEM_KEY : Int := 48

/-- definitions.rs:78 (`i128`) -/
def BTRFS_DIR_LOG_ITEM_KEY : Int := 60

/-- definitions.rs:79 (`i128`) -/
def BTRFS_DIR_LOG_INDEX_KEY : Int := 72

/-- definitions.rs:80 (`i128`) -/
def BTRFS_DIR_ITEM_KEY : Int := 84

/-- definitions.rs:81 (`i128`) -/
def BTRFS_DIR_INDEX_KEY : Int := 96

/-- definitions.rs:82 (`i128`) -/
def BTRFS_EXTENT_DATA_KEY : Int := 108

/-- definitions.rs:83 (`i128`) -/
def BTRFS_EXTENT_CSUM_KEY : Int := 128

/-- definitions.rs:84 (`i128`) -/
def BTRFS_ROOT_ITEM_KEY : Int := 132

/-- definitions.rs:85 (`i128`) -/
def BTRFS_ROOT_BACKREF_KEY : Int := 144

/-- definitions.rs:86 (`i128`) -/
def BTRFS_ROOT_REF_KEY : Int := 156

/-- definitions.rs:87 (`i128`) -/
def BTRFS_EXTENT_ITEM_KEY : Int := 168

/-- definitions.rs:88 (`i128`) -/
def BTRFS_METADATA_ITEM_KEY : Int := 169

/-- definitions.rs:89 (`i128`) -/
def BTRFS_TREE_BLOCK_REF_KEY : Int := 176

/-- definitions.rs:90 (`i128`) -/
def BTRFS_EXTENT_DATA_REF_KEY : Int := 178

/-- definitions.rs:91 (`i128`) -/
def BTRFS_EXTENT_REF_V0_KEY : Int := 180

/-- definitions.rs:92 (`i128`) -/
def BTRFS_SHARED_BLOCK_REF_KEY : Int := 182

/-- definitions.rs:93 (`i128`) -/
def BTRFS_SHARED_DATA_REF_KEY : Int := 184

/-- definitions.rs:94 (`i128`) -/
def BTRFS_BLOCK_GROUP_ITEM_KEY : Int := 192

/-- definitions.rs:95 (`i128`) -/
def BTRFS_FREE_SPACE_INFO_KEY : Int := 198

/-- definitions.rs:96 (`i128`) -/
def BTRFS_FREE_SPACE_EXTENT_KEY : Int := 199

/-- definitions.rs:97 (`i128`) -/
def BTRFS_FREE_SPACE_BITMAP_KEY : Int := 200

/-- definitions.rs:98 (`i128`) -/
def BTRFS_DEV_EXTENT_KEY : Int := 204

/-- definitions.rs:99 (`i128`) -/
def BTRFS_DEV_ITEM_KEY : Int := 216

/-- definitions.rs:100 (`i128`) -/
def BTRFS_CHUNK_ITEM_KEY : Int := 228

/-- definitions.rs:101 (`i128`) -/
def BTRFS_QGROUP_STATUS_KEY : Int := 240

/-- definitions.rs:102 (`i128`) -/
def BTRFS_QGROUP_INFO_KEY : Int := 242

/-- definitions.rs:103 (`i128`) -/
def BTRFS_QGROUP_LIMIT_KEY : Int := 244

/-- definitions.rs:104 (`i128`) -/
def BTRFS_QGROUP_RELATION_KEY : Int := 246

/-- definitions.rs:105 (`i128`) -/
def BTRFS_BALANCE_ITEM_KEY : Int := 248

/-- definitions.rs:106 (`i128`) -/
def BTRFS_TEMPORARY_ITEM_KEY : Int := 248

/-- definitions.rs:107 (`i128`) -/
def BTRFS_DEV_STATS_KEY : Int := 249

/-- definitions.rs:108 (`i128`) -/
def BTRFS_PERSISTENT_ITEM_KEY : Int := 249

/-- definitions.rs:109 (`i128`) -/
def BTRFS_DEV_REPLACE_KEY : Int := 250

/-- definitions.rs:110 (`i128`) -/
def BTRFS_UUID_KEY_SUBVOL : Int := 251

/-- definitions.rs:111 (`i128`) -/
def BTRFS_UUID_KEY_RECEIVED_SUBVOL : Int := 252

/-- definitions.rs:112 (`i128`) -/
def BTRFS_STRING_ITEM_KEY : Int := 253

/-- definitions.rs:113 (`u8`) -/
def BTRFS_CSUM_SIZE : Int := 32

/-- definitions.rs:114 (`i128`) -/
def BTRFS_FT_UNKNOWN : Int := 0

/-- definitions.rs:115 (`i128`) -/
def BTRFS_FT_REG_FILE : Int := 1

/-- definitions.rs:116 (`i128`) -/
def BTRFS_FT_DIR : Int := 2

/-- definitions.rs:117 (`i128`) -/
def BTRFS_FT_CHRDEV : Int := 3

/-- definitions.rs:118 (`i128`) -/
def BTRFS_FT_BLKDEV : Int := 4

/-- definitions.rs:119 (`i128`) -/
def BTRFS_FT_FIFO : Int := 5

/-- definitions.rs:120 (`i128`) -/
def BTRFS_FT_SOCK : Int := 6

/-- definitions.rs:121 (`i128`) -/
def BTRFS_FT_SYMLINK : Int := 7

/-- definitions.rs:122 (`i128`) -/
def BTRFS_FT_XATTR : Int := 8

/-- definitions.rs:123 (`i128`) -/
def BTRFS_FT_MAX : Int := 9

/-- definitions.rs:124 (`i128`) -/
def BTRFS_FREE_SPACE_EXTENT : Int := 1

/-- definitions.rs:125 (`i128`) -/
def BTRFS_FREE_SPACE_BITMAP : Int := 2

/-- definitions.rs:126 (`i128`) -/
def BTRFS_HEADER_FLAG_WRITTEN : Int := 2 ^ 0

/-- definitions.rs:127 (`i128`) -/
def BTRFS_HEADER_FLAG_RELOC : Int := 2 ^ 1

/-- definitions.rs:128 (`i128`) -/
def BTRFS_SUPER_FLAG_ERROR : Int := 2 ^ 2

/-- definitions.rs:129 (`i128`) -/
def BTRFS_SUPER_FLAG_SEEDING : Int := 2 ^ 32

/-- definitions.rs:130 (`i128`) -/
def BTRFS_SUPER_FLAG_METADUMP : Int := 2 ^ 33

/-- definitions.rs:131 (`i128`) -/
def BTRFS_SUPER_FLAG_METADUMP_V2 : Int := 2 ^ 34

/-- definitions.rs:132 (`i128`) -/
def BTRFS_SUPER_FLAG_CHANGING_FSID : Int := 2 ^ 35

/-- definitions.rs:133 (`i128`) -/
def BTRFS_SUPER_FLAG_CHANGING_FSID_V2 : Int := 2 ^ 36

/-- definitions.rs:134 (`i128`) -/
def BTRFS_EXTENT_FLAG_DATA : Int := 2 ^ 0

/-- definitions.rs:135 (`i128`) -/
def BTRFS_EXTENT_FLAG_TREE_BLOCK : Int := 2 ^ 1

/-- definitions.rs:136 (`i128`) -/
def BTRFS_BLOCK_FLAG_F_BACKREF : Int := 2 ^ 8

/-- definitions.rs:137 (`i128`) -/
def BTRFS_EXTENT_FLAG_SUPER : Int := 2 ^ 48

/-- definitions.rs:138 (`i128`) -/
def BTRFS_ROOT_SUBVOL_RDONLY : Int := 2 ^ 0

/-- definitions.rs:139 (`i128`) -/
def BTRFS_ROOT_SUBVOL_DEAD : Int := 2 ^ 48

/-- definitions.rs:140 (`i128`) -/
def BTRFS_DEV_REPLACE_ITEM_CONT_READING_FROM_SRCDEV_MODE_ALWAYS : Int := 0

/-- definitions.rs:141 (`i128`) -/
def BTRFS_DEV_REPLACE_ITEM_CONT_READING_FROM_SRCDEV_MODE_AVOID : Int := 1

/-- definitions.rs:142 (`i128`) -/
def BTRFS_BLOCK_GROUP_DATA : Int := 2 ^ 0

/-- definitions.rs:143 (`i128`) -/
def BTRFS_BLOCK_GROUP_SYSTEM : Int := 2 ^ 1

/-- definitions.rs:144 (`i128`) -/
def BTRFS_BLOCK_GROUP_METADATA : Int := 2 ^ 2

/-- definitions.rs:145 (`i128`) -/
def BTRFS_BLOCK_GROUP_RAID0 : Int := 2 ^ 3

/-- definitions.rs:146 (`i128`) -/
def BTRFS_BLOCK_GROUP_RAID1 : Int := 2 ^ 4

/-- definitions.rs:147 (`i128`) -/
def BTRFS_BLOCK_GROUP_DUP : Int := 2 ^ 5

/-- definitions.rs:148 (`i128`) -/
def BTRFS_BLOCK_GROUP_RAID10 : Int := 2 ^ 6

/-- definitions.rs:149 (`i128`) -/
def BTRFS_BLOCK_GROUP_RAID5 : Int := 2 ^ 7

/-- definitions.rs:150 (`i128`) -/
def BTRFS_BLOCK_GROUP_RAID6 : Int := 2 ^ 8

/-- definitions.rs:151 (`i128`) -/
def BTRFS_BLOCK_GROUP_RAID1C3 : Int := 2 ^ 9

/-- definitions.rs:152 (`i128`) -/
def BTRFS_BLOCK_GROUP_RAID1C4 : Int := 2 ^ 10

/-- definitions.rs:167 (`i128`) -/
def BTRFS_AVAIL_ALLOC_BIT_SINGLE : Int := 2 ^ 48

/-- definitions.rs:168 (`i128`) -/
def BTRFS_SPACE_INFO_GLOBAL_RSV : Int := 2 ^ 49

/-- definitions.rs:153 (`i128`) -/
def BTRFS_BLOCK_GROUP_RESERVED : Int := orI128 BTRFS_AVAIL_ALLOC_BIT_SINGLE BTRFS_SPACE_INFO_GLOBAL_RSV

/-- definitions.rs:154-155 (`i128`) -/
def BTRFS_BLOCK_GROUP_TYPE_MASK : Int := orI128 (orI128 BTRFS_BLOCK_GROUP_DATA BTRFS_BLOCK_GROUP_SYSTEM) BTRFS_BLOCK_GROUP_METADATA

/-- definitions.rs:156-163 (`i128`) -/
def BTRFS_BLOCK_GROUP_PROFILE_MASK : Int := orI128 (orI128 (orI128 (orI128 (orI128 (orI128 (orI128 BTRFS_BLOCK_GROUP_RAID0 BTRFS_BLOCK_GROUP_RAID1) BTRFS_BLOCK_GROUP_RAID1C3) BTRFS_BLOCK_GROUP_RAID1C4) BTRFS_BLOCK_GROUP_RAID5) BTRFS_BLOCK_GROUP_RAID6) BTRFS_BLOCK_GROUP_DUP) BTRFS_BLOCK_GROUP_RAID10

/-- definitions.rs:164 (`i128`) -/
def BTRFS_BLOCK_GROUP_RAID56_MASK : Int := orI128 BTRFS_BLOCK_GROUP_RAID5 BTRFS_BLOCK_GROUP_RAID6

/-- definitions.rs:165-166 (`i128`) -/
def BTRFS_BLOCK_GROUP_RAID1_MASK : Int := orI128 (orI128 BTRFS_BLOCK_GROUP_RAID1 BTRFS_BLOCK_GROUP_RAID1C3) BTRFS_BLOCK_GROUP_RAID1C4

/-- definitions.rs:169-170 (`i128`) -/
def BTRFS_EXTENDED_PROFILE_MASK : Int := orI128 BTRFS_BLOCK_GROUP_PROFILE_MASK BTRFS_AVAIL_ALLOC_BIT_SINGLE

/-- definitions.rs:171 (`i128`) -/
def BTRFS_FREE_SPACE_USING_BITMAPS : Int := 2 ^ 0

/-- definitions.rs:172 (`i128`) -/
def BTRFS_QGROUP_LEVEL_SHIFT : Int := 48

/-- definitions.rs:173 (`i128`) -/
def BTRFS_QGROUP_STATUS_FLAG_ON : Int := 2 ^ 0

/-- definitions.rs:174 (`i128`) -/
def BTRFS_QGROUP_STATUS_FLAG_RESCAN : Int := 2 ^ 1

/-- definitions.rs:175 (`i128`) -/
def BTRFS_QGROUP_STATUS_FLAG_INCONSISTENT : Int := 2 ^ 2

/-- definitions.rs:176 (`i128`) -/
def BTRFS_QGROUP_STATUS_VERSION : Int := 1

/-- `CONSTANTS` (definitions.rs:188-337) -/
def constants : List (Str × Int) :=
  [(s!' "BTRFS_DEV_STAT_WRITE_ERRS", BTRFS_DEV_STAT_WRITE_ERRS),
   (s!' "BTRFS_DEV_STAT_READ_ERRS", BTRFS_DEV_STAT_READ_ERRS),
   (s!' "BTRFS_DEV_STAT_FLUSH_ERRS", BTRFS_DEV_STAT_FLUSH_ERRS),
   (s!' "BTRFS_DEV_STAT_CORRUPTION_ERRS", BTRFS_DEV_STAT_CORRUPTION_ERRS),
   (s!' "BTRFS_DEV_STAT_GENERATION_ERRS", BTRFS_DEV_STAT_GENERATION_ERRS),
   (s!' "BTRFS_DEV_STAT_VALUES_MAX", BTRFS_DEV_STAT_VALUES_MAX),
   (s!' "BTRFS_CSUM_TYPE_CRC32", BTRFS_CSUM_TYPE_CRC32),
   (s!' "BTRFS_CSUM_TYPE_XXHASH", BTRFS_CSUM_TYPE_XXHASH),
   (s!' "BTRFS_CSUM_TYPE_SHA256", BTRFS_CSUM_TYPE_SHA256),
   (s!' "BTRFS_CSUM_TYPE_BLAKE2", BTRFS_CSUM_TYPE_BLAKE2),
   (s!' "BTRFS_FILE_EXTENT_INLINE", BTRFS_FILE_EXTENT_INLINE),
   (s!' "BTRFS_FILE_EXTENT_REG", BTRFS_FILE_EXTENT_REG),
   (s!' "BTRFS_FILE_EXTENT_PREALLOC", BTRFS_FILE_EXTENT_PREALLOC),
   (s!' "BTRFS_NR_FILE_EXTENT_TYPES", BTRFS_NR_FILE_EXTENT_TYPES),
   (s!' "BTRFS_RAID_RAID10", BTRFS_RAID_RAID10),
   (s!' "BTRFS_RAID_RAID1", BTRFS_RAID_RAID1),
   (s!' "BTRFS_RAID_DUP", BTRFS_RAID_DUP),
   (s!' "BTRFS_RAID_RAID0", BTRFS_RAID_RAID0),
   (s!' "BTRFS_RAID_SINGLE", BTRFS_RAID_SINGLE),
   (s!' "BTRFS_RAID_RAID5", BTRFS_RAID_RAID5),
   (s!' "BTRFS_RAID_RAID6", BTRFS_RAID_RAID6),
   (s!' "BTRFS_RAID_RAID1C3", BTRFS_RAID_RAID1C3),
   (s!' "BTRFS_RAID_RAID1C4", BTRFS_RAID_RAID1C4),
   (s!' "BTRFS_NR_RAID_TYPES", BTRFS_NR_RAID_TYPES),
   (s!' "BTRFS_FSID_SIZE", BTRFS_FSID_SIZE),
   (s!' "BTRFS_UUID_SIZE", BTRFS_UUID_SIZE),
   (s!' "BTRFS_ROOT_TREE_OBJECTID", BTRFS_ROOT_TREE_OBJECTID),
   (s!' "BTRFS_EXTENT_TREE_OBJECTID", BTRFS_EXTENT_TREE_OBJECTID),
   (s!' "BTRFS_CHUNK_TREE_OBJECTID", BTRFS_CHUNK_TREE_OBJECTID),
   (s!' "BTRFS_DEV_TREE_OBJECTID", BTRFS_DEV_TREE_OBJECTID),
   (s!' "BTRFS_FS_TREE_OBJECTID", BTRFS_FS_TREE_OBJECTID),
   (s!' "BTRFS_ROOT_TREE_DIR_OBJECTID", BTRFS_ROOT_TREE_DIR_OBJECTID),
   (s!' "BTRFS_CSUM_TREE_OBJECTID", BTRFS_CSUM_TREE_OBJECTID),
   (s!' "BTRFS_QUOTA_TREE_OBJECTID", BTRFS_QUOTA_TREE_OBJECTID),
   (s!' "BTRFS_UUID_TREE_OBJECTID", BTRFS_UUID_TREE_OBJECTID),
   (s!' "BTRFS_FREE_SPACE_TREE_OBJECTID", BTRFS_FREE_SPACE_TREE_OBJECTID),
   (s!' "BTRFS_DEV_STATS_OBJECTID", BTRFS_DEV_STATS_OBJECTID),
   (s!' "BTRFS_BALANCE_OBJECTID", BTRFS_BALANCE_OBJECTID),
   (s!' "BTRFS_ORPHAN_OBJECTID", BTRFS_ORPHAN_OBJECTID),
   (s!' "BTRFS_TREE_LOG_OBJECTID", BTRFS_TREE_LOG_OBJECTID),
   (s!' "BTRFS_TREE_LOG_FIXUP_OBJECTID", BTRFS_TREE_LOG_FIXUP_OBJECTID),
   (s!' "BTRFS_TREE_RELOC_OBJECTID", BTRFS_TREE_RELOC_OBJECTID),
   (s!' "BTRFS_DATA_RELOC_TREE_OBJECTID", BTRFS_DATA_RELOC_TREE_OBJECTID),
   (s!' "BTRFS_EXTENT_CSUM_OBJECTID", BTRFS_EXTENT_CSUM_OBJECTID),
   (s!' "BTRFS_FREE_SPACE_OBJECTID", BTRFS_FREE_SPACE_OBJECTID),
   (s!' "BTRFS_FREE_INO_OBJECTID", BTRFS_FREE_INO_OBJECTID),
   (s!' "BTRFS_MULTIPLE_OBJECTIDS", BTRFS_MULTIPLE_OBJECTIDS),
   (s!' "BTRFS_FIRST_FREE_OBJECTID", BTRFS_FIRST_FREE_OBJECTID),
   (s!' "BTRFS_LAST_FREE_OBJECTID", BTRFS_LAST_FREE_OBJECTID),
   (s!' "BTRFS_FIRST_CHUNK_TREE_OBJECTID", BTRFS_FIRST_CHUNK_TREE_OBJECTID),
   (s!' "BTRFS_DEV_ITEMS_OBJECTID", BTRFS_DEV_ITEMS_OBJECTID),
   (s!' "BTRFS_BTREE_INODE_OBJECTID", BTRFS_BTREE_INODE_OBJECTID),
   (s!' "BTRFS_EMPTY_SUBVOL_DIR_OBJECTID", BTRFS_EMPTY_SUBVOL_DIR_OBJECTID),
   (s!' "BTRFS_DEV_REPLACE_DEVID", BTRFS_DEV_REPLACE_DEVID),
   (s!' "BTRFS_INODE_ITEM_KEY", BTRFS_INODE_ITEM_KEY),
   (s!' "BTRFS_INODE_REF_KEY", BTRFS_INODE_REF_KEY),
   (s!' "BTRFS_INODE_EXTREF_KEY", BTRFS_INODE_EXTREF_KEY),
   (s!' "BTRFS_XATTR_ITEM_KEY", BTRFS_XATTR_ITEM_KEY),
   (s!' "BTRFS_ORPHAN_ITEM_KEY", BTRFS_ORPHAN_ITEM_KEY),
   (s!' "BTRFS_DIR_LOG_ITEM_KEY", BTRFS_DIR_LOG_ITEM_KEY),
   (s!' "BTRFS_DIR_LOG_INDEX_KEY", BTRFS_DIR_LOG_INDEX_KEY),
   (s!' "BTRFS_DIR_ITEM_KEY", BTRFS_DIR_ITEM_KEY),
   (s!' "BTRFS_DIR_INDEX_KEY", BTRFS_DIR_INDEX_KEY),
   (s!' "BTRFS_EXTENT_DATA_KEY", BTRFS_EXTENT_DATA_KEY),
   (s!' "BTRFS_EXTENT_CSUM_KEY", BTRFS_EXTENT_CSUM_KEY),
   (s!' "BTRFS_ROOT_ITEM_KEY", BTRFS_ROOT_ITEM_KEY),
   (s!' "BTRFS_ROOT_BACKREF_KEY", BTRFS_ROOT_BACKREF_KEY),
   (s!' "BTRFS_ROOT_REF_KEY", BTRFS_ROOT_REF_KEY),
   (s!' "BTRFS_EXTENT_ITEM_KEY", BTRFS_EXTENT_ITEM_KEY),
   (s!' "BTRFS_METADATA_ITEM_KEY", BTRFS_METADATA_ITEM_KEY),
   (s!' "BTRFS_TREE_BLOCK_REF_KEY", BTRFS_TREE_BLOCK_REF_KEY),
   (s!' "BTRFS_EXTENT_DATA_REF_KEY", BTRFS_EXTENT_DATA_REF_KEY),
   (s!' "BTRFS_EXTENT_REF_V0_KEY", BTRFS_EXTENT_REF_V0_KEY),
   (s!' "BTRFS_SHARED_BLOCK_REF_KEY", BTRFS_SHARED_BLOCK_REF_KEY),
   (s!' "BTRFS_SHARED_DATA_REF_KEY", BTRFS_SHARED_DATA_REF_KEY),
   (s!' "BTRFS_BLOCK_GROUP_ITEM_KEY", BTRFS_BLOCK_GROUP_ITEM_KEY),
   (s!' "BTRFS_FREE_SPACE_INFO_KEY", BTRFS_FREE_SPACE_INFO_KEY),
   (s!' "BTRFS_FREE_SPACE_EXTENT_KEY", BTRFS_FREE_SPACE_EXTENT_KEY),
   (s!' "BTRFS_FREE_SPACE_BITMAP_KEY", BTRFS_FREE_SPACE_BITMAP_KEY),
   (s!' "BTRFS_DEV_EXTENT_KEY", BTRFS_DEV_EXTENT_KEY),
   (s!' "BTRFS_DEV_ITEM_KEY", BTRFS_DEV_ITEM_KEY),
   (s!' "BTRFS_CHUNK_ITEM_KEY", BTRFS_CHUNK_ITEM_KEY),
   (s!' "BTRFS_QGROUP_STATUS_KEY", BTRFS_QGROUP_STATUS_KEY),
   (s!' "BTRFS_QGROUP_INFO_KEY", BTRFS_QGROUP_INFO_KEY),
   (s!' "BTRFS_QGROUP_LIMIT_KEY", BTRFS_QGROUP_LIMIT_KEY),
   (s!' "BTRFS_QGROUP_RELATION_KEY", BTRFS_QGROUP_RELATION_KEY),
   (s!' "BTRFS_BALANCE_ITEM_KEY", BTRFS_BALANCE_ITEM_KEY),
   (s!' "BTRFS_TEMPORARY_ITEM_KEY", BTRFS_TEMPORARY_ITEM_KEY),
   (s!' "BTRFS_DEV_STATS_KEY", BTRFS_DEV_STATS_KEY),
   (s!' "BTRFS_PERSISTENT_ITEM_KEY", BTRFS_PERSISTENT_ITEM_KEY),
   (s!' "BTRFS_DEV_REPLACE_KEY", BTRFS_DEV_REPLACE_KEY),
   (s!' "BTRFS_UUID_KEY_SUBVOL", BTRFS_UUID_KEY_SUBVOL),
   (s!' "BTRFS_UUID_KEY_RECEIVED_SUBVOL", BTRFS_UUID_KEY_RECEIVED_SUBVOL),
   (s!' "BTRFS_STRING_ITEM_KEY", BTRFS_STRING_ITEM_KEY),
   (s!' "BTRFS_CSUM_SIZE", BTRFS_CSUM_SIZE),
   (s!' "BTRFS_FT_UNKNOWN", BTRFS_FT_UNKNOWN),
   (s!' "BTRFS_FT_REG_FILE", BTRFS_FT_REG_FILE),
   (s!' "BTRFS_FT_DIR", BTRFS_FT_DIR),
   (s!' "BTRFS_FT_CHRDEV", BTRFS_FT_CHRDEV),
   (s!' "BTRFS_FT_BLKDEV", BTRFS_FT_BLKDEV),
   (s!' "BTRFS_FT_FIFO", BTRFS_FT_FIFO),
   (s!' "BTRFS_FT_SOCK", BTRFS_FT_SOCK),
   (s!' "BTRFS_FT_SYMLINK", BTRFS_FT_SYMLINK),
   (s!' "BTRFS_FT_XATTR", BTRFS_FT_XATTR),
   (s!' "BTRFS_FT_MAX", BTRFS_FT_MAX),
   (s!' "BTRFS_FREE_SPACE_EXTENT", BTRFS_FREE_SPACE_EXTENT),
   (s!' "BTRFS_FREE_SPACE_BITMAP", BTRFS_FREE_SPACE_BITMAP),
   (s!' "BTRFS_HEADER_FLAG_WRITTEN", BTRFS_HEADER_FLAG_WRITTEN),
   (s!' "BTRFS_HEADER_FLAG_RELOC", BTRFS_HEADER_FLAG_RELOC),
   (s!' "BTRFS_SUPER_FLAG_ERROR", BTRFS_SUPER_FLAG_ERROR),
   (s!' "BTRFS_SUPER_FLAG_SEEDING", BTRFS_SUPER_FLAG_SEEDING),
   (s!' "BTRFS_SUPER_FLAG_METADUMP", BTRFS_SUPER_FLAG_METADUMP),
   (s!' "BTRFS_SUPER_FLAG_METADUMP_V2", BTRFS_SUPER_FLAG_METADUMP_V2),
   (s!' "BTRFS_SUPER_FLAG_CHANGING_FSID", BTRFS_SUPER_FLAG_CHANGING_FSID),
   (s!' "BTRFS_SUPER_FLAG_CHANGING_FSID_V2", BTRFS_SUPER_FLAG_CHANGING_FSID_V2),
   (s!' "BTRFS_EXTENT_FLAG_DATA", BTRFS_EXTENT_FLAG_DATA),
   (s!' "BTRFS_EXTENT_FLAG_TREE_BLOCK", BTRFS_EXTENT_FLAG_TREE_BLOCK),
   (s!' "BTRFS_BLOCK_FLAG_F_BACKREF", BTRFS_BLOCK_FLAG_F_BACKREF),
   (s!' "BTRFS_EXTENT_FLAG_SUPER", BTRFS_EXTENT_FLAG_SUPER),
   (s!' "BTRFS_ROOT_SUBVOL_RDONLY", BTRFS_ROOT_SUBVOL_RDONLY),
   (s!' "BTRFS_ROOT_SUBVOL_DEAD", BTRFS_ROOT_SUBVOL_DEAD),
   (s!' "BTRFS_DEV_REPLACE_ITEM_CONT_READING_FROM_SRCDEV_MODE_ALWAYS", BTRFS_DEV_REPLACE_ITEM_CONT_READING_FROM_SRCDEV_MODE_ALWAYS),
   (s!' "BTRFS_DEV_REPLACE_ITEM_CONT_READING_FROM_SRCDEV_MODE_AVOID", BTRFS_DEV_REPLACE_ITEM_CONT_READING_FROM_SRCDEV_MODE_AVOID),
   (s!' "BTRFS_BLOCK_GROUP_DATA", BTRFS_BLOCK_GROUP_DATA),
   (s!' "BTRFS_BLOCK_GROUP_SYSTEM", BTRFS_BLOCK_GROUP_SYSTEM),
   (s!' "BTRFS_BLOCK_GROUP_METADATA", BTRFS_BLOCK_GROUP_METADATA),
   (s!' "BTRFS_BLOCK_GROUP_RAID0", BTRFS_BLOCK_GROUP_RAID0),
   (s!' "BTRFS_BLOCK_GROUP_RAID1", BTRFS_BLOCK_GROUP_RAID1),
   (s!' "BTRFS_BLOCK_GROUP_DUP", BTRFS_BLOCK_GROUP_DUP),
   (s!' "BTRFS_BLOCK_GROUP_RAID10", BTRFS_BLOCK_GROUP_RAID10),
   (s!' "BTRFS_BLOCK_GROUP_RAID5", BTRFS_BLOCK_GROUP_RAID5),
   (s!' "BTRFS_BLOCK_GROUP_RAID6", BTRFS_BLOCK_GROUP_RAID6),
   (s!' "BTRFS_BLOCK_GROUP_RAID1C3", BTRFS_BLOCK_GROUP_RAID1C3),
   (s!' "BTRFS_BLOCK_GROUP_RAID1C4", BTRFS_BLOCK_GROUP_RAID1C4),
   (s!' "BTRFS_BLOCK_GROUP_RESERVED", BTRFS_BLOCK_GROUP_RESERVED),
   (s!' "BTRFS_BLOCK_GROUP_TYPE_MASK", BTRFS_BLOCK_GROUP_TYPE_MASK),
   (s!' "BTRFS_BLOCK_GROUP_PROFILE_MASK", BTRFS_BLOCK_GROUP_PROFILE_MASK),
   (s!' "BTRFS_BLOCK_GROUP_RAID56_MASK", BTRFS_BLOCK_GROUP_RAID56_MASK),
   (s!' "BTRFS_BLOCK_GROUP_RAID1_MASK", BTRFS_BLOCK_GROUP_RAID1_MASK),
   (s!' "BTRFS_AVAIL_ALLOC_BIT_SINGLE", BTRFS_AVAIL_ALLOC_BIT_SINGLE),
   (s!' "BTRFS_SPACE_INFO_GLOBAL_RSV", BTRFS_SPACE_INFO_GLOBAL_RSV),
   (s!' "BTRFS_EXTENDED_PROFILE_MASK", BTRFS_EXTENDED_PROFILE_MASK),
   (s!' "BTRFS_FREE_SPACE_USING_BITMAPS", BTRFS_FREE_SPACE_USING_BITMAPS),
   (s!' "BTRFS_QGROUP_LEVEL_SHIFT", BTRFS_QGROUP_LEVEL_SHIFT),
   (s!' "BTRFS_QGROUP_STATUS_FLAG_ON", BTRFS_QGROUP_STATUS_FLAG_ON),
   (s!' "BTRFS_QGROUP_STATUS_FLAG_RESCAN", BTRFS_QGROUP_STATUS_FLAG_RESCAN),
   (s!' "BTRFS_QGROUP_STATUS_FLAG_INCONSISTENT", BTRFS_QGROUP_STATUS_FLAG_INCONSISTENT),
   (s!' "BTRFS_QGROUP_STATUS_VERSION", BTRFS_QGROUP_STATUS_VERSION)]

/-- `BTRFS_STRIPE` (definitions.rs:338-355) -/
def BTRFS_STRIPE : StructDef :=
  { name := s!' "btrfs_stripe",
    keyMatch := fun _ _ _ => false,
    fields := [(some s!' "devid", .u64),
      (some s!' "offset", .u64),
      (some s!' "dev_uuid", .array (.u8) BTRFS_UUID_SIZE.toNat)] }

/-- `BTRFS_SEARCH_KEY` (definitions.rs:356-393) -/
def BTRFS_SEARCH_KEY : StructDef :=
  { name := s!' "_btrfs_ioctl_search_key",
    keyMatch := fun _ _ _ => false,
    fields := [(some s!' "min_objectid", .u64),
      (some s!' "max_objectid", .u64),
      (some s!' "min_type", .u8),
      (some s!' "max_type", .u8),
      (some s!' "min_offset", .u64),
      (some s!' "max_offset", .u64),
      (some s!' "min_transid", .u64),
      (some s!' "max_transid", .u64)] }

/-- `BTRFS_KEY` (definitions.rs:394-411) -/
def BTRFS_KEY : StructDef :=
  { name := s!' "btrfs_key",
    keyMatch := fun _ _ _ => false,
    fields := [(some s!' "objectid", .u64),
      (some s!' "type", .u8),
      (some s!' "offset", .u64)] }

/-- `BTRFS_TIMESPEC` (definitions.rs:412-425) -/
def BTRFS_TIMESPEC : StructDef :=
  { name := s!' "btrfs_timespec",
    keyMatch := fun _ _ _ => false,
    fields := [(some s!' "sec", .u64),
      (some s!' "nsec", .u32)] }

/-- `BTRFS_INODE_ITEM` (definitions.rs:426-499) -/
def BTRFS_INODE_ITEM : StructDef :=
  { name := s!' "btrfs_inode_item",
    keyMatch := fun _ ty off => ty == BTRFS_INODE_ITEM_KEY && off == 0,
    fields := [(some s!' "generation", .u64),
      (some s!' "transid", .u64),
      (some s!' "size", .u64),
      (some s!' "nbytes", .u64),
      (some s!' "block_group", .u64),
      (some s!' "nlink", .u32),
      (some s!' "uid", .u32),
      (some s!' "gid", .u32),
      (some s!' "mode", .u32),
      (some s!' "rdev", .u64),
      (some s!' "flags", .u64),
      (some s!' "sequence", .u64),
      (some s!' "reserved", .array (.u64) 4),
      (some s!' "atime", BTRFS_TIMESPEC.ty),
      (some s!' "ctime", BTRFS_TIMESPEC.ty),
      (some s!' "mtime", BTRFS_TIMESPEC.ty),
      (some s!' "otime", BTRFS_TIMESPEC.ty)] }

/-- `ANON_STRUCT_0_BTRFS_DISK_BALANCE_ARGS` (definitions.rs:500-513) -/
def ANON_STRUCT_0_BTRFS_DISK_BALANCE_ARGS : StructDef :=
  { name := s!' "_anon_struct_0_btrfs_disk_balance_args",
    keyMatch := fun _ _ _ => false,
    fields := [(some s!' "usage_min", .u32),
      (some s!' "usage_max", .u32)] }

/-- `ANON_STRUCT_1_BTRFS_DISK_BALANCE_ARGS` (definitions.rs:514-527) -/
def ANON_STRUCT_1_BTRFS_DISK_BALANCE_ARGS : StructDef :=
  { name := s!' "_anon_struct_1_btrfs_disk_balance_args",
    keyMatch := fun _ _ _ => false,
    fields := [(some s!' "limit_min", .u32),
      (some s!' "limit_max", .u32)] }

/-- `BTRFS_DISK_BALANCE_ARGS` (definitions.rs:528-609) -/
def BTRFS_DISK_BALANCE_ARGS : StructDef :=
  { name := s!' "btrfs_disk_balance_args",
    keyMatch := fun _ _ _ => false,
    fields := [(some s!' "profiles", .u64),
      (none, .union s!' "_anon_union_0_btrfs_disk_balance_args" [(some s!' "usage", .u64), (none, ANON_STRUCT_0_BTRFS_DISK_BALANCE_ARGS.ty)]),
      (some s!' "devid", .u64),
      (some s!' "pstart", .u64),
      (some s!' "pend", .u64),
      (some s!' "vstart", .u64),
      (some s!' "vend", .u64),
      (some s!' "target", .u64),
      (some s!' "flags", .u64),
      (none, .union s!' "_anon_union_1_btrfs_disk_balance_args" [(some s!' "limit", .u64), (none, ANON_STRUCT_1_BTRFS_DISK_BALANCE_ARGS.ty)]),
      (some s!' "stripes_min", .u32),
      (some s!' "stripes_max", .u32),
      (some s!' "unused", .array (.u64) 6)] }

/-- `BTRFS_EXTENT_INLINE_REF` (definitions.rs:611-618) -/
def BTRFS_EXTENT_INLINE_REF : StructDef :=
  { name := s!' "btrfs_extent_inline_ref",
    keyMatch := fun _ _ _ => false,
    fields := [(some s!' "type", .u8)] }

/-- `BTRFS_EXTENT_DATA_REF` (definitions.rs:619-640) -/
def BTRFS_EXTENT_DATA_REF : StructDef :=
  { name := s!' "btrfs_extent_data_ref",
    keyMatch := fun _ _ _ => false,
    fields := [(some s!' "root", .u64),
      (some s!' "objectid", .u64),
      (some s!' "offset", .u64),
      (some s!' "count", .u32)] }

/-- `BTRFS_SHARED_DATA_REF` (definitions.rs:641-650) -/
def BTRFS_SHARED_DATA_REF : StructDef :=
  { name := s!' "btrfs_shared_data_ref",
    keyMatch := fun _ _ _ => false,
    fields := [(some s!' "count", .u32)] }

end Btrd
