/-
The tree search system call as the kernel's `include/uapi/linux/btrfs.h` and `include/uapi/asm-generic/ioctl.h`
define it, written down as numbers and byte offsets.
-/
import Verif.Spec.Search
import Verif.Model.Ioctl

namespace Btrd.Spec

/-- `_IOWR(type, nr, size)`: direction 3 (read and write) in bits 30 and 31, the size in bits 16 to 29, the type in bits
8 to 15, the number in bits 0 to 7 -/
def iowr (type nr size : Nat) : Nat := 3 * 2 ^ 30 + size * 2 ^ 16 + type * 2 ^ 8 + nr

/-- `BTRFS_IOC_TREE_SEARCH_V2`: `_IOWR(BTRFS_IOCTL_MAGIC, 17, struct btrfs_ioctl_search_args_v2)`, where
`BTRFS_IOCTL_MAGIC` is 0x94 and the struct is a key of 104 bytes, 8 bytes of `buf_size`, and a buffer without size -/
def treeSearchV2 : Nat := iowr 0x94 17 112

/-- what is in the memory at the kernel's offsets: `struct btrfs_ioctl_search_key`, `buf_size`, and the unused members,
which are zero -/
structure AtOffsets (m : Mem) (a : SearchArgs) : Prop where
  tree_id : leAt m 0 8 = a.treeId
  min_objectid : leAt m 8 8 = a.minObjectid
  max_objectid : leAt m 16 8 = a.maxObjectid
  min_offset : leAt m 24 8 = a.minOffset
  max_offset : leAt m 32 8 = a.maxOffset
  min_transid : leAt m 40 8 = a.minTransid
  max_transid : leAt m 48 8 = a.maxTransid
  min_type : leAt m 56 4 = a.minType
  max_type : leAt m 60 4 = a.maxType
  nr_items : leAt m 64 4 = 2 ^ 32 - 1
  unused : leAt m 68 4 = 0
  unused1 : leAt m 72 8 = 0
  unused2 : leAt m 80 8 = 0
  unused3 : leAt m 88 8 = 0
  unused4 : leAt m 96 8 = 0
  buf_size : leAt m 104 8 = bufSize

/-- the parameters fit their types: 64 bits, and 8 bits for the item types -/
def InRange (a : SearchArgs) : Prop :=
  (∀ x ∈ [a.treeId, a.minObjectid, a.maxObjectid, a.minOffset, a.maxOffset, a.minTransid, a.maxTransid], x < 2 ^ 64) ∧
    a.minType < 2 ^ 8 ∧ a.maxType < 2 ^ 8

instance (a : SearchArgs) : Decidable (InRange a) := inferInstanceAs (Decidable (_ ∧ _ ∧ _))

/-- the operating system does what the header says: asked with the right number and a key in memory, it puts the first
so many of the items asked for into the buffer, which begins at byte 112, and their number into `nr_items`, at byte 64;
none only if there are none -/
def Serves (M : Machine) (trees : Trees) : Prop :=
  ∀ i m a, AtOffsets m a → ∃ m' q rest, M i treeSearchV2 m = .done m' ∧ leAt m' 64 4 = q.length ∧
    Holds (fun j => m' (112 + j)) 0 q ∧ matching trees a = q ++ rest ∧ (q = [] → rest = [])

end Btrd.Spec
