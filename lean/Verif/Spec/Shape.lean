/-
The fields structs have (C99). The fixed parts are those of the kernel's header (`Spec/Abi`).
-/
import Verif.Spec.Abi

namespace Btrd.Spec

/-- `PartOf u v`: the value `u` is `v` itself, or an element or a field of it, at any depth -/
inductive PartOf : Value → Value → Prop where
  | self (v) : PartOf v v
  | item {u w vs h} : w ∈ vs → PartOf u w → PartOf u (.array vs h)
  | field {u f w n k fs} : (f, w) ∈ fs → PartOf u w → PartOf u (.struct n k fs)

/-- what some structs have behind their fixed part -/
def trailing (name : Str) : List Str :=
  if name = s!' "btrfs_chunk" then [s!' "stripes"]
  else if name = s!' "btrfs_dir_item" then [s!' "name", s!' "value"]
  else if name = s!' "btrfs_inode_ref" ∨ name = s!' "btrfs_inode_extref" ∨ name = s!' "btrfs_roof_ref" then [s!' "name"]
  else []

/-- **The structs there are, and the fields each of them has**, in order -/
inductive HasFields : Str → List Str → Prop where
  /-- the fields of the kernel's header -/
  | header {r} : r ∈ abi → HasFields r.name (r.members.map Member.name ++ trailing r.name)
  /-- a file extent that is not inline has four more -/
  | onDisk : HasFields s!' "btrfs_file_extent_item"
      ([s!' "generation", s!' "ram_bytes", s!' "compression", s!' "encryption", s!' "other_encoding", s!' "type"] ++
        extentOnDisk.map Member.name)
  /-- an extent has any number of references in it -/
  | extent (k : Nat) : HasFields s!' "btrfs_extent_item"
      ([s!' "refs", s!' "generation", s!' "flags"] ++ List.replicate k s!' "inline_ref")
  /-- which have one of these forms -/
  | dataRef : HasFields s!' "btrfs_extent_inline_ref" [s!' "type", s!' "data_ref"]
  | sharedDataRef : HasFields s!' "btrfs_extent_inline_ref" [s!' "type", s!' "offset", s!' "shared_data_ref"]
  | blockRef : HasFields s!' "btrfs_extent_inline_ref" [s!' "type", s!' "offset"]
  /-- what `key()` makes -/
  | searchKey : HasFields s!' "_btrfs_ioctl_search_key"
      [s!' "min_objectid", s!' "max_objectid", s!' "min_type", s!' "max_type", s!' "min_offset", s!' "max_offset",
        s!' "min_transid", s!' "max_transid"]
  /-- the parts of the unions of the header that have no name, under the names the tool gives them -/
  | usage : HasFields s!' "_anon_struct_0_btrfs_disk_balance_args" [s!' "usage_min", s!' "usage_max"]
  | limit : HasFields s!' "_anon_struct_1_btrfs_disk_balance_args" [s!' "limit_min", s!' "limit_max"]

/-- **A value all of whose structs are known ones with the fields they should have** -/
def Shaped (v : Value) : Prop :=
  ∀ n k fs, PartOf (.struct n k fs) v → HasFields n (fs.map Prod.fst)

/-- the structs that do not always have the same fields -/
def varying : List Str := [s!' "btrfs_file_extent_item", s!' "btrfs_extent_item", s!' "btrfs_extent_inline_ref"]

/-- **The same kind of thing**: a struct with the same name, key and names of fields, or an array of the same length, or the
same value -/
inductive SameForm : Value → Value → Prop where
  | same (v) : SameForm v v
  | struct {n k fs fs'} : fs.map Prod.fst = fs'.map Prod.fst → SameForm (.struct n k fs) (.struct n k fs')
  | array {vs vs' h} : vs.length = vs'.length → SameForm (.array vs h) (.array vs' h)

/-- the same variables in the same scopes, and each is the same kind of thing as before -/
def SameForms (vs vs' : Vars Value) : Prop :=
  List.Forall₂ (fun s s' => ∀ x, (s x = none ∧ s' x = none) ∨
    ∃ v v', s x = some v ∧ s' x = some v' ∧ SameForm v v') vs vs'

end Btrd.Spec
