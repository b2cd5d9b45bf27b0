/-
C57: from the key of a search result to the struct it is decoded as (`src/lang/eval/eval.rs`,
`src/btrfs/definitions.rs`).
-/
import Batteries.Data.List.Basic
import Verif.Model.Eval
import Verif.Spec.Dispatch

namespace Btrd
open Spec
set_option linter.unusedSimpArgs false

/-- the type numbers of the kinds -/
theorem ty_cases (ty : Int) : (∀ k ∈ itemKinds, ty ≠ k.ty) ∨ ∃ k ∈ itemKinds, ty = k.ty := by
  by_cases h : ∃ k ∈ itemKinds, ty = k.ty
  · exact .inr h
  · left; intro k hk he; exact h ⟨k, hk, he⟩

/-- the key predicates and the names of the table, spelled out -/
theorem structForKey_name (oid ty off : Int) : (structForKey oid ty off).map (·.name) =
    if oid = 1 ∧ ty = 216 then some s!' "btrfs_dev_item"
    else if oid = 256 ∧ ty = 228 then some s!' "btrfs_chunk"
    else if oid = 2 ^ 64 - 5 ∧ ty = 48 then some s!' "btrfs_orphan_item"
    else if ty = 168 ∨ ty = 169 then some s!' "btrfs_extent_item"
    else if ty = 204 then some s!' "btrfs_dev_extent"
    else if ty = 12 then some s!' "btrfs_inode_ref"
    else if ty = 13 then some s!' "btrfs_inode_extref"
    else if ty = 1 ∧ off = 0 then some s!' "btrfs_inode_item"
    else if ty = 13 ∨ ty = 72 then some s!' "btrfs_dir_log_item"
    else if ty = 84 ∨ ty = 96 ∨ ty = 24 then some s!' "btrfs_dir_item"
    else if ty = 132 then some s!' "btrfs_root_item"
    else if ty = 156 ∨ ty = 144 then some s!' "btrfs_roof_ref"
    else if oid = 4 ∧ ty = 248 ∧ off = 0 then some s!' "btrfs_balance_item"
    else if ty = 108 then some s!' "btrfs_file_extent_item"
    else if oid = 2 ^ 64 - 10 ∧ ty = 128 then some s!' "btrfs_csum_item"
    else if oid = 0 ∧ ty = 249 then some s!' "btrfs_dev_stats_item"
    else if ty = 250 then some s!' "btrfs_dev_replace_item"
    else if ty = 192 then some s!' "btrfs_block_group_item"
    else if ty = 198 then some s!' "btrfs_free_space_info"
    else if oid = 2 ^ 64 - 11 ∧ ty = 0 then some s!' "btrfs_free_space_header"
    else if oid = 0 ∧ ty = 240 ∧ off = 0 then some s!' "btrfs_qgroup_status_item"
    else if oid = 0 ∧ ty = 242 then some s!' "btrfs_qgroup_info_item"
    else if oid = 0 ∧ ty = 244 then some s!' "btrfs_qgroup_limit_item"
    else none := by
  have step : ∀ (s : StructDef) (ss : List StructDef) (P : Prop) [Decidable P] (o : Option Str),
      s.keyMatch oid ty off = decide P → (ss.find? fun s => s.keyMatch oid ty off).map (·.name) = o →
      ((s :: ss).find? fun s => s.keyMatch oid ty off).map (·.name) = if P then some s.name else o := by
    intro s ss P _ o h1 h2
    rw [List.find?_cons]
    by_cases hp : P
    · rw [h1]; simp [hp]
    · rw [h1]; simp [hp, h2]
  have skip : ∀ (s : StructDef) (ss : List StructDef) (o : Option Str),
      s.keyMatch oid ty off = false → (ss.find? fun s => s.keyMatch oid ty off).map (·.name) = o →
      ((s :: ss).find? fun s => s.keyMatch oid ty off).map (·.name) = o := by
    intro s ss o h1 h2
    rw [List.find?_cons, h1]; exact h2
  unfold structForKey structs
  refine skip _ _ _ rfl ?_
  refine skip _ _ _ rfl ?_
  refine skip _ _ _ rfl ?_
  refine step _ _ _ _ (by simp [struct_btrfs_dev_item, BTRFS_DEV_ITEMS_OBJECTID, BTRFS_DEV_ITEM_KEY, Bool.and_assoc, Bool.or_assoc, Bool.beq_eq_decide_eq]) ?_
  refine skip _ _ _ rfl ?_
  refine step _ _ _ _ (by simp [struct_btrfs_chunk, BTRFS_CHUNK_ITEM_KEY, BTRFS_FIRST_CHUNK_TREE_OBJECTID, Bool.and_assoc, Bool.or_assoc, Bool.beq_eq_decide_eq]) ?_
  refine skip _ _ _ rfl ?_
  refine skip _ _ _ rfl ?_
  refine skip _ _ _ rfl ?_
  refine step _ _ _ _ (by simp [struct_btrfs_orphan_item, BTRFS_ORPHAN_ITEM_KEY, BTRFS_ORPHAN_OBJECTID, Bool.and_assoc, Bool.or_assoc, Bool.beq_eq_decide_eq]) ?_
  refine step _ _ _ _ (by simp [struct_btrfs_extent_item, BTRFS_EXTENT_ITEM_KEY, BTRFS_METADATA_ITEM_KEY, Bool.and_assoc, Bool.or_assoc, Bool.beq_eq_decide_eq]) ?_
  refine step _ _ _ _ (by simp [struct_btrfs_dev_extent, BTRFS_DEV_EXTENT_KEY, Bool.and_assoc, Bool.or_assoc, Bool.beq_eq_decide_eq]) ?_
  refine step _ _ _ _ (by simp [struct_btrfs_inode_ref, BTRFS_INODE_REF_KEY, Bool.and_assoc, Bool.or_assoc, Bool.beq_eq_decide_eq]) ?_
  refine step _ _ _ _ (by simp [struct_btrfs_inode_extref, BTRFS_INODE_EXTREF_KEY, Bool.and_assoc, Bool.or_assoc, Bool.beq_eq_decide_eq]) ?_
  refine skip _ _ _ rfl ?_
  refine step _ _ _ _ (by simp [BTRFS_INODE_ITEM, BTRFS_INODE_ITEM_KEY, Bool.and_assoc, Bool.or_assoc, Bool.beq_eq_decide_eq]) ?_
  refine step _ _ _ _ (by simp [struct_btrfs_dir_log_item, BTRFS_DIR_LOG_INDEX_KEY, BTRFS_INODE_EXTREF_KEY, Bool.and_assoc, Bool.or_assoc, Bool.beq_eq_decide_eq]) ?_
  refine step _ _ _ _ (by simp [struct_btrfs_dir_item, BTRFS_DIR_INDEX_KEY, BTRFS_DIR_ITEM_KEY, BTRFS_XATTR_ITEM_KEY, Bool.and_assoc, Bool.or_assoc, Bool.beq_eq_decide_eq]) ?_
  refine step _ _ _ _ (by simp [struct_btrfs_root_item, BTRFS_ROOT_ITEM_KEY, Bool.and_assoc, Bool.or_assoc, Bool.beq_eq_decide_eq]) ?_
  refine step _ _ _ _ (by simp [struct_btrfs_roof_ref, BTRFS_ROOT_BACKREF_KEY, BTRFS_ROOT_REF_KEY, Bool.and_assoc, Bool.or_assoc, Bool.beq_eq_decide_eq]) ?_
  refine skip _ _ _ rfl ?_
  refine skip _ _ _ rfl ?_
  refine skip _ _ _ rfl ?_
  refine step _ _ _ _ (by simp [struct_btrfs_balance_item, BTRFS_BALANCE_OBJECTID, BTRFS_TEMPORARY_ITEM_KEY, Bool.and_assoc, Bool.or_assoc, Bool.beq_eq_decide_eq]) ?_
  refine step _ _ _ _ (by simp [struct_btrfs_file_extent_item, BTRFS_EXTENT_DATA_KEY, Bool.and_assoc, Bool.or_assoc, Bool.beq_eq_decide_eq]) ?_
  refine step _ _ _ _ (by simp [struct_btrfs_csum_item, BTRFS_EXTENT_CSUM_KEY, BTRFS_EXTENT_CSUM_OBJECTID, Bool.and_assoc, Bool.or_assoc, Bool.beq_eq_decide_eq]) ?_
  refine step _ _ _ _ (by simp [struct_btrfs_dev_stats_item, BTRFS_DEV_STATS_OBJECTID, BTRFS_PERSISTENT_ITEM_KEY, Bool.and_assoc, Bool.or_assoc, Bool.beq_eq_decide_eq]) ?_
  refine step _ _ _ _ (by simp [struct_btrfs_dev_replace_item, BTRFS_DEV_REPLACE_KEY, Bool.and_assoc, Bool.or_assoc, Bool.beq_eq_decide_eq]) ?_
  refine step _ _ _ _ (by simp [struct_btrfs_block_group_item, BTRFS_BLOCK_GROUP_ITEM_KEY, Bool.and_assoc, Bool.or_assoc, Bool.beq_eq_decide_eq]) ?_
  refine step _ _ _ _ (by simp [struct_btrfs_free_space_info, BTRFS_FREE_SPACE_INFO_KEY, Bool.and_assoc, Bool.or_assoc, Bool.beq_eq_decide_eq]) ?_
  refine step _ _ _ _ (by simp [struct_btrfs_free_space_header, BTRFS_FREE_SPACE_OBJECTID, Bool.and_assoc, Bool.or_assoc, Bool.beq_eq_decide_eq]) ?_
  refine step _ _ _ _ (by simp [struct_btrfs_qgroup_status_item, BTRFS_QGROUP_STATUS_KEY, Bool.and_assoc, Bool.or_assoc, Bool.beq_eq_decide_eq]) ?_
  refine step _ _ _ _ (by simp [struct_btrfs_qgroup_info_item, BTRFS_QGROUP_INFO_KEY, Bool.and_assoc, Bool.or_assoc, Bool.beq_eq_decide_eq]) ?_
  refine step _ _ _ _ (by simp [struct_btrfs_qgroup_limit_item, BTRFS_QGROUP_LIMIT_KEY, Bool.and_assoc, Bool.or_assoc, Bool.beq_eq_decide_eq]) ?_
  rfl

/-- **C57**: for every key, the struct an item is decoded as is the documented one, and there is none when
no struct is documented. Missing for the full claim: directory log items (type 60) and balance items,
see the theorems below. -/
theorem C57_dispatch_partial (oid ty off : Int) (h1 : ty ≠ 60)
    (h2 : ¬ (ty = 248 ∧ off = 0 ∧ (oid = 4 ∨ oid = 2 ^ 64 - 4))) :
    (structForKey oid ty off).map (·.name) = documented oid ty off := by
  rw [structForKey_name]
  rcases ty_cases ty with h | ⟨k, hk, rfl⟩
  · have hd : documented oid ty off = none := by
      simp only [documented, Option.map_eq_none_iff, List.find?_eq_none]
      intro k hk
      have := h k hk
      simp [ItemKind.matches, this]
    rw [hd]
    simp only [itemKinds, List.forall_mem_cons, List.not_mem_nil, false_imp_iff, implies_true, and_true] at h
    simp [h]
  · simp only [itemKinds, List.mem_cons, List.not_mem_nil, or_false] at hk
    rcases hk with h | h | h | h | h | h | h | h | h | h | h | h | h | h | h | h | h | h | h | h | h | h | h |
      h | h | h | h | h <;> subst h
    all_goals simp only [documented, itemKinds, List.find?, ItemKind.matches, Option.all] at h1 h2 ⊢
    all_goals simp at h1 h2 ⊢
    all_goals (repeat' split) <;> simp_all

/-- **C57 is false for directory log items**: items of type 60 are documented to be `btrfs_dir_log_item`s,
but no struct is found for them (the table tests the type of extended inode references instead). -/
theorem C57_dir_log_item_unknown (oid off : Int) :
    structForKey oid 60 off = none ∧ documented oid 60 off = some s!' "btrfs_dir_log_item" := by
  constructor
  · have := structForKey_name oid 60 off
    simpa using this
  · simp [documented, itemKinds, ItemKind.matches]

/-- **C57 is false for balance items**: their objectid is -4, but the table says 4. -/
theorem C57_balance_item_unknown :
    structForKey (2 ^ 64 - 4) 248 0 = none ∧ documented (2 ^ 64 - 4) 248 0 = some s!' "btrfs_balance_item" ∧
    (structForKey 4 248 0).map (·.name) = some s!' "btrfs_balance_item" ∧ documented 4 248 0 = none := by
  refine ⟨?_, by rfl, ?_, by rfl⟩
  · have := structForKey_name (2 ^ 64 - 4) 248 0
    simpa using this
  · have := structForKey_name 4 248 0
    simpa using this

/-- an item of a search has a struct for its key -/
def Spec.known (it : Item) : Bool := (structForKey it.1.objectid it.1.ty it.1.offset).isSome

/-- **C57**: the values of a search are the items with a known key, in order, each decoded as the struct for
its key and carrying its key. -/
theorem C57_search_values (b : Build) (items : List Item) (vs : List Value) (h : decodeItems b items = .ok vs) :
    List.Forall₂ (fun (it : Item) v => ∃ s sv, structForKey it.1.objectid it.1.ty it.1.offset = some s ∧
      structFromBytes b s (some (it.1.objectid, it.1.ty, it.1.offset)) it.2 = .ok sv ∧
      v = .struct sv.name sv.key sv.fields) (items.filter Spec.known) vs := by
  induction items generalizing vs with
  | nil =>
    simp only [decodeItems, Except.ok.injEq] at h
    subst h
    exact .nil
  | cons it items ih =>
    obtain ⟨hd, bytes⟩ := it
    simp only [decodeItems] at h
    cases hk : structForKey hd.objectid hd.ty hd.offset with
    | none =>
      rw [hk] at h
      rw [List.filter_cons_of_neg (by simp [Spec.known, hk])]
      exact ih vs h
    | some s =>
      rw [hk] at h
      rw [List.filter_cons_of_pos (by simp [Spec.known, hk])]
      simp only at h
      cases hs : structFromBytes b s (some (hd.objectid, hd.ty, hd.offset)) bytes with
      | error e => rw [hs] at h; exact absurd h (by simp [bind, Except.bind])
      | ok sv =>
        cases hr : decodeItems b items with
        | error e => rw [hs, hr] at h; exact absurd h (by simp [bind, Except.bind])
        | ok ws =>
          rw [hs, hr] at h
          simp only [bind, Except.bind, Except.ok.injEq] at h
          subst h
          exact .cons ⟨s, sv, hk, hs, rfl⟩ (ih ws hr)

/-- witness: an unknown item is skipped, a known one decoded -/
example : decodeItems ⟨true⟩ [(⟨5, 7, 0, 5, 3⟩, [1, 2, 3]), (⟨5, 257, 0, 192, 24⟩, List.replicate 24 0)] =
    .ok [.struct s!' "btrfs_block_group_item" (some (257, 192, 0))
      [(s!' "used", .int 0), (s!' "chunk_objectid", .int 0), (s!' "flags", .int 0)]] := by rfl

end Btrd
