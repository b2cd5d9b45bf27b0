/-
Generated by tools/gen_definitions.py from src/btrfs/definitions.rs: the table of known structs.
-/
import Verif.Model.Dynamic

namespace Btrd

/-- definitions.rs:654-695 -/
def struct_btrfs_header : StructDef :=
  { name := s!' "btrfs_header",
    keyMatch := fun _ _ _ => false,
    fields := [(some s!' "csum", .array (.u8) BTRFS_CSUM_SIZE.toNat),
      (some s!' "fsid", .array (.u8) BTRFS_FSID_SIZE.toNat),
      (some s!' "bytenr", .u64),
      (some s!' "flags", .u64),
      (some s!' "chunk_tree_uuid", .array (.u8) BTRFS_UUID_SIZE.toNat),
      (some s!' "generation", .u64),
      (some s!' "owner", .u64),
      (some s!' "nritems", .u32),
      (some s!' "level", .u8)] }

/-- definitions.rs:696-757 -/
def struct_btrfs_dev_item : StructDef :=
  { name := s!' "btrfs_dev_item",
    keyMatch := fun o ty _ => o == BTRFS_DEV_ITEMS_OBJECTID && ty == BTRFS_DEV_ITEM_KEY,
    fields := [(some s!' "devid", .u64),
      (some s!' "total_bytes", .u64),
      (some s!' "bytes_used", .u64),
      (some s!' "io_align", .u32),
      (some s!' "io_width", .u32),
      (some s!' "sector_size", .u32),
      (some s!' "type", .u64),
      (some s!' "generation", .u64),
      (some s!' "start_offset", .u64),
      (some s!' "dev_group", .u32),
      (some s!' "seek_speed", .u8),
      (some s!' "bandwidth", .u8),
      (some s!' "uuid", .array (.u8) BTRFS_UUID_SIZE.toNat),
      (some s!' "fsid", .array (.u8) BTRFS_FSID_SIZE.toNat)] }

/-- definitions.rs:759-808 -/
def struct_btrfs_chunk : StructDef :=
  { name := s!' "btrfs_chunk",
    keyMatch := fun o ty _ => o == BTRFS_FIRST_CHUNK_TREE_OBJECTID && ty == BTRFS_CHUNK_ITEM_KEY,
    fields := [(some s!' "length", .u64),
      (some s!' "owner", .u64),
      (some s!' "stripe_len", .u64),
      (some s!' "type", .u64),
      (some s!' "io_align", .u32),
      (some s!' "io_width", .u32),
      (some s!' "sector_size", .u32),
      (some s!' "num_stripes", .u16),
      (some s!' "sub_stripes", .u16),
      (some s!' "stripes", .trailingTypes (BTRFS_STRIPE.ty) s!' "num_stripes")] }

/-- definitions.rs:812-816 -/
def struct_btrfs_orphan_item : StructDef :=
  { name := s!' "btrfs_orphan_item",
    keyMatch := fun o ty _ => o == BTRFS_ORPHAN_OBJECTID && ty == BTRFS_ORPHAN_ITEM_KEY,
    fields := [] }

/-- definitions.rs:817-910 -/
def struct_btrfs_extent_item : StructDef :=
  { name := s!' "btrfs_extent_item",
    keyMatch := fun _ ty _ => ty == BTRFS_EXTENT_ITEM_KEY || ty == BTRFS_METADATA_ITEM_KEY,
    fields := [(none, .dynamic extentItemFields)] }

/-- definitions.rs:911-936 -/
def struct_btrfs_dev_extent : StructDef :=
  { name := s!' "btrfs_dev_extent",
    keyMatch := fun _ ty _ => ty == BTRFS_DEV_EXTENT_KEY,
    fields := [(some s!' "chunk_tree", .u64),
      (some s!' "chunk_objectid", .u64),
      (some s!' "chunk_offset", .u64),
      (some s!' "length", .u64),
      (some s!' "chunk_tree_uuid", .array (.u8) BTRFS_UUID_SIZE.toNat)] }

/-- definitions.rs:937-954 -/
def struct_btrfs_inode_ref : StructDef :=
  { name := s!' "btrfs_inode_ref",
    keyMatch := fun _ ty _ => ty == BTRFS_INODE_REF_KEY,
    fields := [(some s!' "index", .u64),
      (some s!' "name_len", .u16),
      (some s!' "name", .trailingString s!' "name_len")] }

/-- definitions.rs:955-976 -/
def struct_btrfs_inode_extref : StructDef :=
  { name := s!' "btrfs_inode_extref",
    keyMatch := fun _ ty _ => ty == BTRFS_INODE_EXTREF_KEY,
    fields := [(some s!' "parent_objectid", .u64),
      (some s!' "index", .u64),
      (some s!' "name_len", .u16),
      (some s!' "name", .trailingString s!' "name_len")] }

/-- definitions.rs:979-986 -/
def struct_btrfs_dir_log_item : StructDef :=
  { name := s!' "btrfs_dir_log_item",
    keyMatch := fun _ ty _ => ty == BTRFS_INODE_EXTREF_KEY || ty == BTRFS_DIR_LOG_INDEX_KEY,
    fields := [(some s!' "end", .u64)] }

/-- definitions.rs:987-1020 -/
def struct_btrfs_dir_item : StructDef :=
  { name := s!' "btrfs_dir_item",
    keyMatch := fun _ ty _ => ty == BTRFS_DIR_ITEM_KEY || ty == BTRFS_DIR_INDEX_KEY || ty == BTRFS_XATTR_ITEM_KEY,
    fields := [(some s!' "location", BTRFS_KEY.ty),
      (some s!' "transid", .u64),
      (some s!' "data_len", .u16),
      (some s!' "name_len", .u16),
      (some s!' "type", .u8),
      (some s!' "name", .trailingString s!' "name_len"),
      (some s!' "value", .trailingString s!' "data_len")] }

/-- definitions.rs:1021-1126 -/
def struct_btrfs_root_item : StructDef :=
  { name := s!' "btrfs_root_item",
    keyMatch := fun _ ty _ => ty == BTRFS_ROOT_ITEM_KEY,
    fields := [(some s!' "inode", BTRFS_INODE_ITEM.ty),
      (some s!' "generation", .u64),
      (some s!' "root_dirid", .u64),
      (some s!' "bytenr", .u64),
      (some s!' "byte_limit", .u64),
      (some s!' "bytes_used", .u64),
      (some s!' "last_snapshot", .u64),
      (some s!' "flags", .u64),
      (some s!' "refs", .u32),
      (some s!' "drop_progress", BTRFS_KEY.ty),
      (some s!' "drop_level", .u8),
      (some s!' "level", .u8),
      (some s!' "generation_v2", .u64),
      (some s!' "uuid", .array (.u8) BTRFS_UUID_SIZE.toNat),
      (some s!' "parent_uuid", .array (.u8) BTRFS_UUID_SIZE.toNat),
      (some s!' "received_uuid", .array (.u8) BTRFS_UUID_SIZE.toNat),
      (some s!' "ctransid", .u64),
      (some s!' "otransid", .u64),
      (some s!' "stransid", .u64),
      (some s!' "rtransid", .u64),
      (some s!' "ctime", BTRFS_TIMESPEC.ty),
      (some s!' "otime", BTRFS_TIMESPEC.ty),
      (some s!' "stime", BTRFS_TIMESPEC.ty),
      (some s!' "rtime", BTRFS_TIMESPEC.ty),
      (some s!' "reserved", .array (.u64) 8)] }

/-- definitions.rs:1127-1148 -/
def struct_btrfs_roof_ref : StructDef :=
  { name := s!' "btrfs_roof_ref",
    keyMatch := fun _ ty _ => ty == BTRFS_ROOT_REF_KEY || ty == BTRFS_ROOT_BACKREF_KEY,
    fields := [(some s!' "dirid", .u64),
      (some s!' "sequence", .u64),
      (some s!' "name_len", .u16),
      (some s!' "name", .trailingString s!' "name_len")] }

/-- definitions.rs:1152-1175 -/
def struct_btrfs_balance_item : StructDef :=
  { name := s!' "btrfs_balance_item",
    keyMatch := fun oid ty off => oid == BTRFS_BALANCE_OBJECTID && ty == BTRFS_TEMPORARY_ITEM_KEY && off == 0,
    fields := [(some s!' "flags", .u64),
      (some s!' "data", BTRFS_DISK_BALANCE_ARGS.ty),
      (some s!' "meta", BTRFS_DISK_BALANCE_ARGS.ty),
      (some s!' "sys", BTRFS_DISK_BALANCE_ARGS.ty)] }

/-- definitions.rs:1176-1241 -/
def struct_btrfs_file_extent_item : StructDef :=
  { name := s!' "btrfs_file_extent_item",
    keyMatch := fun _ ty _ => ty == BTRFS_EXTENT_DATA_KEY,
    fields := [(none, .dynamic fileExtentItemFields)] }

/-- definitions.rs:1242-1250 -/
def struct_btrfs_csum_item : StructDef :=
  { name := s!' "btrfs_csum_item",
    keyMatch := fun oid ty _ => oid == BTRFS_EXTENT_CSUM_OBJECTID && ty == BTRFS_EXTENT_CSUM_KEY,
    fields := [(some s!' "csum", .u8)] }

/-- definitions.rs:1251-1259 -/
def struct_btrfs_dev_stats_item : StructDef :=
  { name := s!' "btrfs_dev_stats_item",
    keyMatch := fun oid ty _ => oid == BTRFS_DEV_STATS_OBJECTID && ty == BTRFS_PERSISTENT_ITEM_KEY,
    fields := [(some s!' "values", .array (.u64) BTRFS_DEV_STAT_VALUES_MAX.toNat)] }

/-- definitions.rs:1260-1301 -/
def struct_btrfs_dev_replace_item : StructDef :=
  { name := s!' "btrfs_dev_replace_item",
    keyMatch := fun _ ty _ => ty == BTRFS_DEV_REPLACE_KEY,
    fields := [(some s!' "src_devid", .u64),
      (some s!' "cursor_left", .u64),
      (some s!' "cursor_right", .u64),
      (some s!' "cont_reading_from_srcdev_mode", .u64),
      (some s!' "replace_state", .u64),
      (some s!' "time_started", .u64),
      (some s!' "time_stopped", .u64),
      (some s!' "num_write_errors", .u64),
      (some s!' "num_uncorrectable_read_errors", .u64)] }

/-- definitions.rs:1302-1319 -/
def struct_btrfs_block_group_item : StructDef :=
  { name := s!' "btrfs_block_group_item",
    keyMatch := fun _ ty _ => ty == BTRFS_BLOCK_GROUP_ITEM_KEY,
    fields := [(some s!' "used", .u64),
      (some s!' "chunk_objectid", .u64),
      (some s!' "flags", .u64)] }

/-- definitions.rs:1320-1333 -/
def struct_btrfs_free_space_info : StructDef :=
  { name := s!' "btrfs_free_space_info",
    keyMatch := fun _ ty _ => ty == BTRFS_FREE_SPACE_INFO_KEY,
    fields := [(some s!' "extent_count", .u32),
      (some s!' "flags", .u32)] }

/-- definitions.rs:1334-1355 -/
def struct_btrfs_free_space_header : StructDef :=
  { name := s!' "btrfs_free_space_header",
    keyMatch := fun oid ty _ => oid == BTRFS_FREE_SPACE_OBJECTID && ty == 0,
    fields := [(some s!' "location", BTRFS_KEY.ty),
      (some s!' "generation", .u64),
      (some s!' "num_entries", .u64),
      (some s!' "num_bitmaps", .u64)] }

/-- definitions.rs:1356-1377 -/
def struct_btrfs_qgroup_status_item : StructDef :=
  { name := s!' "btrfs_qgroup_status_item",
    keyMatch := fun oid ty off => oid == 0 && ty == BTRFS_QGROUP_STATUS_KEY && off == 0,
    fields := [(some s!' "version", .u64),
      (some s!' "generation", .u64),
      (some s!' "flags", .u64),
      (some s!' "rescan", .u64)] }

/-- definitions.rs:1378-1403 -/
def struct_btrfs_qgroup_info_item : StructDef :=
  { name := s!' "btrfs_qgroup_info_item",
    keyMatch := fun oid ty _ => oid == 0 && ty == BTRFS_QGROUP_INFO_KEY,
    fields := [(some s!' "generation", .u64),
      (some s!' "rfer", .u64),
      (some s!' "rfer_cmpr", .u64),
      (some s!' "excl", .u64),
      (some s!' "excl_cmpr", .u64)] }

/-- definitions.rs:1404-1429 -/
def struct_btrfs_qgroup_limit_item : StructDef :=
  { name := s!' "btrfs_qgroup_limit_item",
    keyMatch := fun oid ty _ => oid == 0 && ty == BTRFS_QGROUP_LIMIT_KEY,
    fields := [(some s!' "flags", .u64),
      (some s!' "max_rfer", .u64),
      (some s!' "max_excl", .u64),
      (some s!' "rsv_rfer", .u64),
      (some s!' "rsv_excl", .u64)] }

/-- `STRUCTS` (definitions.rs:651-1430) -/
def structs : List StructDef :=
  [BTRFS_SEARCH_KEY,
   BTRFS_KEY,
   struct_btrfs_header,
   struct_btrfs_dev_item,
   BTRFS_STRIPE,
   struct_btrfs_chunk,
   BTRFS_EXTENT_INLINE_REF,
   BTRFS_EXTENT_DATA_REF,
   BTRFS_SHARED_DATA_REF,
   struct_btrfs_orphan_item,
   struct_btrfs_extent_item,
   struct_btrfs_dev_extent,
   struct_btrfs_inode_ref,
   struct_btrfs_inode_extref,
   BTRFS_TIMESPEC,
   BTRFS_INODE_ITEM,
   struct_btrfs_dir_log_item,
   struct_btrfs_dir_item,
   struct_btrfs_root_item,
   struct_btrfs_roof_ref,
   ANON_STRUCT_0_BTRFS_DISK_BALANCE_ARGS,
   ANON_STRUCT_1_BTRFS_DISK_BALANCE_ARGS,
   BTRFS_DISK_BALANCE_ARGS,
   struct_btrfs_balance_item,
   struct_btrfs_file_extent_item,
   struct_btrfs_csum_item,
   struct_btrfs_dev_stats_item,
   struct_btrfs_dev_replace_item,
   struct_btrfs_block_group_item,
   struct_btrfs_free_space_info,
   struct_btrfs_free_space_header,
   struct_btrfs_qgroup_status_item,
   struct_btrfs_qgroup_info_item,
   struct_btrfs_qgroup_limit_item]

end Btrd
