/-
Facts about the table of known structs.
-/
import Verif.Model.StructTable
import Verif.Lemmas.Laid

namespace Btrd
open Spec

/-! ### callbacks -/

theorem inlineRef_ok (extra : List (Option Str × Ty)) (hf : FixedSizes extra) (ha : AnonOks extra) :
    FixedSize (inlineRef extra).2 ∧ AnonOks [inlineRef extra] := by
  simp only [inlineRef, FixedSize, AnonOks, AnonOk, BTRFS_EXTENT_INLINE_REF, List.cons_append, List.nil_append,
    FixedSizes]
  exact ⟨⟨trivial, hf⟩, ⟨trivial, ha⟩, trivial⟩

theorem inlineRefs_next (fuel : Nat) (rest : Bytes) (n : Nat) (extra : List (Option Str × Ty))
    (fs : List (Option Str × Ty)) (h : inlineRefs.next fuel rest n extra = .ok fs) :
    n ≤ rest.length ∧ ∃ gs, inlineRefs fuel (rest.drop n) = .ok gs ∧ fs = inlineRef extra :: gs := by
  simp only [inlineRefs.next] at h
  split at h
  · rename_i hl
    split at h
    · rename_i gs heq
      simp only [Except.ok.injEq] at h
      exact ⟨hl, gs, heq, h.symm⟩
    · simp at h
  · simp at h

theorem AnonOks_append (fs gs : List (Option Str × Ty)) : AnonOks (fs ++ gs) ↔ AnonOks fs ∧ AnonOks gs := by
  induction fs with
  | nil => simp [AnonOks]
  | cons f fs ih =>
    obtain ⟨name, t⟩ := f
    cases name with
    | some n => simp only [List.cons_append, AnonOks, ih, and_assoc]
    | none => cases t <;> simp only [List.cons_append, AnonOks, ih, and_assoc, false_and]

theorem FixedSizes_append (fs gs : List (Option Str × Ty)) :
    FixedSizes (fs ++ gs) ↔ FixedSizes fs ∧ FixedSizes gs := by
  induction fs with
  | nil => simp [FixedSizes]
  | cons f fs ih => simp only [List.cons_append, FixedSizes, ih, and_assoc]

theorem inlineRefs_wf : ∀ (fuel : Nat) (bytes : Bytes) (fs : List (Option Str × Ty)),
    inlineRefs fuel bytes = .ok fs → FixedSizes fs ∧ AnonOks fs := by
  intro fuel
  induction fuel with
  | zero => intro bytes fs h; simp [inlineRefs] at h
  | succ fuel ih =>
    have key : ∀ (rest : Bytes) (n : Nat) (extra fs : List (Option Str × Ty)), FixedSizes extra → AnonOks extra →
        inlineRefs.next fuel rest n extra = .ok fs → FixedSizes fs ∧ AnonOks fs := by
      intro rest n extra fs hf ha h
      obtain ⟨-, gs, hg, rfl⟩ := inlineRefs_next fuel rest n extra fs h
      have h1 := inlineRef_ok extra hf ha
      have h2 := ih _ _ hg
      constructor
      · exact ⟨h1.1, h2.1⟩
      · have := (AnonOks_append [inlineRef extra] gs).2 ⟨h1.2, h2.2⟩
        exact this
    intro bytes fs h
    rw [inlineRefs.eq_def] at h
    simp only at h
    split at h
    · simp only [Except.ok.injEq] at h; subst h; simp [FixedSizes, AnonOks]
    · split at h
      · split at h
        · exact key _ _ _ _ (by simp [FixedSizes, FixedSize, BTRFS_EXTENT_DATA_REF, StructDef.ty])
            (by simp [AnonOks, AnonOk, BTRFS_EXTENT_DATA_REF, StructDef.ty]) h
        · split at h
          · exact key _ _ _ _ (by simp [FixedSizes, FixedSize, BTRFS_SHARED_DATA_REF, StructDef.ty])
              (by simp [AnonOks, AnonOk, BTRFS_SHARED_DATA_REF, StructDef.ty]) h
          · split at h
            · exact key _ _ _ _ (by simp [FixedSizes, FixedSize]) (by simp [AnonOks, AnonOk]) h
            · simp at h
      · simp at h

/-- the errors of decoding: fewer bytes than needed, a reference of a type that does not exist, and bytes left over -/
def DecodeErr : Err → Prop
  | .shortRead _ _ have_ need => have_ < need
  | .unknownInlineRef ty => ty ≠ 176 ∧ ty ≠ 178 ∧ ty ≠ 182 ∧ ty ≠ 184
  | .leftover => True
  | _ => False

theorem inlineRefs_safe : ∀ (fuel : Nat) (bytes : Bytes), bytes.length < fuel →
    (∃ fs, inlineRefs fuel bytes = .ok fs) ∨ ∃ e, inlineRefs fuel bytes = R.err e ∧ DecodeErr e := by
  intro fuel
  induction fuel with
  | zero => intro bytes h; omega
  | succ fuel ih =>
    intro bytes hl
    have key : ∀ (tail : Bytes) (n : Nat) (extra : List (Option Str × Ty)), tail.length < fuel →
        (∃ fs, inlineRefs.next fuel tail n extra = .ok fs) ∨ ∃ e, inlineRefs.next fuel tail n extra = R.err e ∧ DecodeErr e := by
      intro tail n extra ht
      simp only [inlineRefs.next]
      split
      · rcases ih (tail.drop n) (by simp only [List.length_drop]; omega) with ⟨fs, h⟩ | ⟨e, h, hde⟩
        · rw [h]; exact .inl ⟨_, rfl⟩
        · rw [h]; exact .inr ⟨_, rfl, by first | assumption | (simp [DecodeErr]; done) | (simp only [DecodeErr]; omega)⟩
      · exact .inr ⟨_, rfl, by first | assumption | (simp [DecodeErr]; done) | (simp only [DecodeErr]; omega)⟩
    rw [inlineRefs.eq_def]
    simp only
    split
    · exact .inl ⟨_, rfl⟩
    · rename_i ty tail
      have : (List.drop BTRFS_EXTENT_INLINE_REF.size (ty :: tail)).length < fuel := by
        have hs : BTRFS_EXTENT_INLINE_REF.size = 1 := rfl
        rw [hs]; simp only [List.drop_succ_cons, List.drop_zero]; simp only [List.length_cons] at hl; omega
      split
      · split
        · exact key _ _ _ this
        · split
          · exact key _ _ _ this
          · split
            · exact key _ _ _ this
            · rename_i h1 h2 h3
              simp only [BTRFS_SHARED_DATA_REF_KEY, BTRFS_TREE_BLOCK_REF_KEY, BTRFS_SHARED_BLOCK_REF_KEY,
                BTRFS_EXTENT_DATA_REF_KEY] at h1 h2 h3
              exact .inr ⟨_, rfl, by simp only [DecodeErr]; omega⟩
      · exact .inr ⟨_, rfl, by first | assumption | (simp [DecodeErr]; done) | (simp only [DecodeErr]; omega)⟩

/-- a callback that always returns, and returns sensible fields -/
structure GoodCallback (cb : Bytes → Except Fail (List (Option Str × Ty))) : Prop where
  returns : ∀ s, (∃ gs, cb s = .ok gs) ∨ ∃ e, cb s = R.err e ∧ DecodeErr e
  fixed : ∀ s gs, cb s = .ok gs → FixedSizes gs
  anon : ∀ s gs, cb s = .ok gs → AnonOks gs

theorem extentItemFields_good : GoodCallback extentItemFields where
  returns s := by
    simp only [extentItemFields]
    split
    · rcases inlineRefs_safe (s.length + 1) (s.drop 24) (by simp only [List.length_drop]; omega) with ⟨fs, h⟩ | ⟨e, h, hde⟩
      · rw [h]; exact .inl ⟨_, rfl⟩
      · rw [h]; exact .inr ⟨_, rfl, by first | assumption | (simp [DecodeErr]; done) | (simp only [DecodeErr]; omega)⟩
    · exact .inr ⟨_, rfl, by first | assumption | (simp [DecodeErr]; done) | (simp only [DecodeErr]; omega)⟩
  fixed s gs h := by
    simp only [extentItemFields] at h
    split at h
    · split at h
      · rename_i fs heq
        simp only [Except.ok.injEq] at h
        subst h
        rw [FixedSizes_append]
        exact ⟨by simp [FixedSizes, FixedSize], (inlineRefs_wf _ _ _ heq).1⟩
      · simp at h
    · simp at h
  anon s gs h := by
    simp only [extentItemFields] at h
    split at h
    · split at h
      · rename_i fs heq
        simp only [Except.ok.injEq] at h
        subst h
        rw [AnonOks_append]
        exact ⟨by simp [AnonOks, AnonOk], (inlineRefs_wf _ _ _ heq).2⟩
      · simp at h
    · simp at h

theorem fileExtentItemFields_cases (s : Bytes) :
    (s.length < 21 ∧ fileExtentItemFields s =
      R.err (.shortRead s!' "btrfs_file_extent_item" [] s.length 21)) ∨
    (∃ ty, s[20]? = some ty ∧ 21 ≤ s.length ∧
      ((ty = 1 ∨ ty = 2) ∧ fileExtentItemFields s = .ok
        [(some s!' "generation", .u64), (some s!' "ram_bytes", .u64), (some s!' "compression", .u8),
        (some s!' "encryption", .u8), (some s!' "other_encoding", .u16), (some s!' "type", .u8),
        (some s!' "disk_bytenr", .u64), (some s!' "disk_num_bytes", .u64),
        (some s!' "offset", .u64), (some s!' "num_bytes", .u64)] ∨
      ¬ (ty = 1 ∨ ty = 2) ∧ fileExtentItemFields s = .ok
        [(some s!' "generation", .u64), (some s!' "ram_bytes", .u64), (some s!' "compression", .u8),
        (some s!' "encryption", .u8), (some s!' "other_encoding", .u16), (some s!' "type", .u8)])) := by
  simp only [fileExtentItemFields]
  split
  · rename_i h
    right
    have h20 : 20 < s.length := by omega
    refine ⟨s[20], by simp [h20], h, ?_⟩
    have hconv : ((s[20].toNat : Int) = BTRFS_FILE_EXTENT_REG ∨ (s[20].toNat : Int) = BTRFS_FILE_EXTENT_PREALLOC) ↔
        (s[20] = 1 ∨ s[20] = 2) := by
      simp only [BTRFS_FILE_EXTENT_REG, BTRFS_FILE_EXTENT_PREALLOC, ← UInt8.toNat_inj]
      simp only [UInt8.reduceToNat]
      omega
    simp only [List.getElem?_eq_getElem h20, hconv]
    by_cases hc : s[20] = 1 ∨ s[20] = 2
    · left; exact ⟨hc, by rw [if_pos hc]; rfl⟩
    · right; exact ⟨hc, by rw [if_neg hc]⟩
  · left; exact ⟨by omega, rfl⟩

theorem fileExtentItemFields_good : GoodCallback fileExtentItemFields where
  returns s := by
    rcases fileExtentItemFields_cases s with ⟨hlt, h⟩ | ⟨ty, -, -, ⟨-, h⟩ | ⟨-, h⟩⟩ <;> rw [h]
    · exact .inr ⟨_, rfl, by first | assumption | (simp [DecodeErr]; done) | (simp only [DecodeErr]; omega)⟩
    · exact .inl ⟨_, rfl⟩
    · exact .inl ⟨_, rfl⟩
  fixed s gs h := by
    rcases fileExtentItemFields_cases s with ⟨-, h'⟩ | ⟨ty, -, -, ⟨-, h'⟩ | ⟨-, h'⟩⟩ <;> rw [h'] at h
    · simp at h
    · simp only [Except.ok.injEq] at h; subst h; simp [FixedSizes, FixedSize]
    · simp only [Except.ok.injEq] at h; subst h; simp [FixedSizes, FixedSize]
  anon s gs h := by
    rcases fileExtentItemFields_cases s with ⟨-, h'⟩ | ⟨ty, -, -, ⟨-, h'⟩ | ⟨-, h'⟩⟩ <;> rw [h'] at h
    · simp at h
    · simp only [Except.ok.injEq] at h; subst h; simp [AnonOks, AnonOk]
    · simp only [Except.ok.injEq] at h; subst h; simp [AnonOks, AnonOk]

/-! ### checking a description -/

mutual
def anonB : Ty → Bool
  | .array t _ => anonB t
  | .struct _ fs => anonsB fs
  | .union _ fs => anonsB fs
  | _ => true
def anonsB : List (Option Str × Ty) → Bool
  | [] => true
  | (some _, t) :: fs => anonB t && anonsB fs
  | (none, .struct _ gs) :: fs => anonsB gs && anonsB fs
  | (none, .union _ gs) :: fs => anonsB gs && anonsB fs
  | (none, _) :: _ => false
end

mutual
theorem anonB_ok : ∀ t : Ty, anonB t = true → AnonOk t
  | .array t _, h => by simp only [anonB] at h; simp only [AnonOk]; exact anonB_ok t h
  | .struct _ fs, h => by simp only [anonB] at h; simp only [AnonOk]; exact anonsB_ok fs h
  | .union _ fs, h => by simp only [anonB] at h; simp only [AnonOk]; exact anonsB_ok fs h
  | .u8, _ => by simp only [AnonOk]
  | .u16, _ => by simp only [AnonOk]
  | .u32, _ => by simp only [AnonOk]
  | .u64, _ => by simp only [AnonOk]
  | .trailingString _, _ => by simp only [AnonOk]
  | .trailingTypes _ _, _ => by simp only [AnonOk]
  | .dynamic _, _ => by simp only [AnonOk]
theorem anonsB_ok : ∀ fs : List (Option Str × Ty), anonsB fs = true → AnonOks fs
  | [], _ => by simp only [AnonOks]
  | (some _, t) :: fs, h => by
    simp only [anonsB, Bool.and_eq_true] at h
    simp only [AnonOks]
    exact ⟨anonB_ok t h.1, anonsB_ok fs h.2⟩
  | (none, .struct _ gs) :: fs, h => by
    simp only [anonsB, Bool.and_eq_true] at h
    simp only [AnonOks, AnonOk]
    exact ⟨anonsB_ok gs h.1, anonsB_ok fs h.2⟩
  | (none, .union _ gs) :: fs, h => by
    simp only [anonsB, Bool.and_eq_true] at h
    simp only [AnonOks, AnonOk]
    exact ⟨anonsB_ok gs h.1, anonsB_ok fs h.2⟩
  | (none, .array _ _) :: _, h => by simp [anonsB] at h
  | (none, .u8) :: _, h => by simp [anonsB] at h
  | (none, .u16) :: _, h => by simp [anonsB] at h
  | (none, .u32) :: _, h => by simp [anonsB] at h
  | (none, .u64) :: _, h => by simp [anonsB] at h
  | (none, .trailingString _) :: _, h => by simp [anonsB] at h
  | (none, .trailingTypes _ _) :: _, h => by simp [anonsB] at h
  | (none, .dynamic _) :: _, h => by simp [anonsB] at h
end

/-- an integer type whose values are below `2^32` -/
def narrowTy : Ty → Bool
  | .u8 | .u16 | .u32 => true
  | _ => false

/-- the first of the fields with the name holds an integer below `2^32` -/
def narrowIn (pre : List (Option Str × Ty)) (l : Str) : Bool :=
  match pre.find? fun f => f.1 == some l with
  | some (_, t) => narrowTy t
  | none => false

/-- fields all named; lengths come from earlier, narrow fields; trailing elements are small -/
def namedB : List (Option Str × Ty) → List (Option Str × Ty) → Bool
  | _, [] => true
  | pre, (some n, .trailingString l) :: fs => narrowIn pre l && namedB (pre ++ [(some n, .trailingString l)]) fs
  | pre, (some n, .trailingTypes t l) :: fs =>
    narrowIn pre l && t.isStatic && anonB t && decide (t.size ≤ 2 ^ 20) &&
      namedB (pre ++ [(some n, .trailingTypes t l)]) fs
  | pre, (some n, t) :: fs => t.isStatic && anonB t && namedB (pre ++ [(some n, t)]) fs
  | _, _ => false

mutual
/-- field names are distinct, at every level -/
def distinctB : Ty → Bool
  | .array t _ => distinctB t
  | .struct _ fs => decide (flatNames fs).Nodup && distinctsB fs
  | .union _ fs => decide (flatNames fs).Nodup && distinctsB fs
  | .trailingTypes t _ => distinctB t
  | _ => true
def distinctsB : List (Option Str × Ty) → Bool
  | [] => true
  | (_, t) :: fs => distinctB t && distinctsB fs
/-- the names a list of fields contributes -/
def flatNames : List (Option Str × Ty) → List Str
  | [] => []
  | (some n, _) :: fs => n :: flatNames fs
  | (none, t) :: fs => tyNames t ++ flatNames fs
def tyNames : Ty → List Str
  | .struct _ fs => flatNames fs
  | .union _ fs => flatNames fs
  | _ => []
end

def descB (fs : List (Option Str × Ty)) : Bool :=
  (allStatic fs && anonsB fs || namedB [] fs) && decide (flatNames fs).Nodup && distinctsB fs

/-! ### the table -/

set_option maxRecDepth 100000 in
/-- every struct of the table either passes the check or is one of the two with dynamic contents -/
theorem structs_cases : ∀ s ∈ structs,
    descB s.fields = true ∨ s = struct_btrfs_extent_item ∨ s = struct_btrfs_file_extent_item := by
  intro s hs
  simp only [structs, List.mem_cons, List.not_mem_nil, or_false] at hs
  rcases hs with h | h | h | h | h | h | h | h | h | h | h | h | h | h | h | h | h | h | h | h | h | h | h |
    h | h | h | h | h | h | h | h | h | h | h <;> subst h
  all_goals first
    | exact .inl (by decide)
    | exact .inr (.inl rfl)
    | exact .inr (.inr rfl)

theorem namedB_wf : ∀ (fs pre : List (Option Str × Ty)), namedB pre fs = true → WellFormed fs := by
  intro fs
  induction fs with
  | nil => intro pre _; simp only [WellFormed]
  | cons f fs ih =>
    intro pre h
    obtain ⟨name, t⟩ := f
    cases name with
    | none => simp [namedB] at h
    | some n =>
      cases t <;> simp only [namedB, Bool.and_eq_true] at h <;> simp only [WellFormed]
      case trailingString => exact ⟨by simp, ih _ h.2⟩
      case trailingTypes =>
        exact ⟨by simp, (isStatic_iff _).1 h.1.1.1.2, anonB_ok _ h.1.1.2, ih _ h.2⟩
      all_goals first
        | (simp [Ty.isStatic] at h; done)
        | (simp only [AnonOks, and_true]; exact ⟨(isStatic_iff _).1 h.1.1, anonB_ok _ h.1.2, ih _ h.2⟩)

theorem fixed_wf : ∀ (fs : List (Option Str × Ty)), FixedSizes fs → AnonOks fs → WellFormed fs := by
  intro fs
  induction fs with
  | nil => intro _ _; simp only [WellFormed]
  | cons f fs ih =>
    intro hf ha
    obtain ⟨name, t⟩ := f
    have ha' := (AnonOks_append [(name, t)] fs).1 ha
    simp only [FixedSizes] at hf
    have := ih hf.2 ha'.2
    cases t <;> first | (simp [FixedSize] at hf; done) | (simp only [WellFormed]; exact ⟨hf.1, ha'.1, this⟩)

theorem descB_wf {fs : List (Option Str × Ty)} (h : descB fs = true) : WellFormed fs := by
  simp only [descB, Bool.and_eq_true, Bool.or_eq_true] at h
  rcases h.1.1 with ⟨h1, h2⟩ | h
  · exact fixed_wf fs ((allStatic_iff fs).1 h1) (anonsB_ok fs h2)
  · exact namedB_wf fs [] h

theorem structs_wellFormed : ∀ s ∈ structs, WellFormed s.fields := by
  intro s hs
  rcases structs_cases s hs with h | rfl | rfl
  · exact descB_wf h
  · exact ⟨fun s gs h _ => extentItemFields_good.anon s gs h, trivial⟩
  · exact ⟨fun s gs h _ => fileExtentItemFields_good.anon s gs h, trivial⟩

end Btrd
