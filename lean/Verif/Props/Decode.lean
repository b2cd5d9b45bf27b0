/-
C50-C57: interpreting bytes as the structs the tool knows (`src/lang/eval/value.rs`,
`src/btrfs/definitions.rs`).
-/
import Verif.Lemmas.Extent
import Verif.Lemmas.ValueEq
import Verif.Model.Eval

namespace Btrd
open Spec

/-! ### C50: no panics -/

/-- **C50**: whatever the bytes, decoding any struct of the table returns a value or an error; it never
panics and never loops. (`2^63` is Rust's limit on the length of a slice.) -/
theorem C50_decoding_returns (b : Build) (s : StructDef) (hs : s ∈ structs) (key : Option (Int × Int × Int))
    (bytes : Bytes) (hb : bytes.length < 2 ^ 63) :
    (∃ sv, structFromBytes b s key bytes = .ok sv) ∨ ∃ e, structFromBytes b s key bytes = .error (.err e) :=
  (structFromBytes_returns b s hs key bytes hb).imp id fun ⟨e, h, _⟩ => ⟨e, h⟩

/-- witness: a struct with trailing data given bytes that are too short for it -/
example : struct_btrfs_inode_ref ∈ structs ∧ ([0, 0, 0, 0, 0, 0, 0, 0, 200, 1, 65] : Bytes).length < 2 ^ 63 ∧
    structFromBytes ⟨true⟩ struct_btrfs_inode_ref none [0, 0, 0, 0, 0, 0, 0, 0, 200, 1, 65] =
      R.err (.shortRead s!' "btrfs_inode_ref" s!' " for string read" 11 466) := by
  refine ⟨by simp [structs], by decide, rfl⟩

/-- **C50**: the same for the items of a search, decoded one after the other. -/
theorem C50_search_items_return (b : Build) (items : List Item) (hb : ∀ it ∈ items, it.2.length < 2 ^ 63) :
    (∃ vs, decodeItems b items = .ok vs) ∨ ∃ e, decodeItems b items = .error (.err e) := by
  induction items with
  | nil => exact .inl ⟨[], rfl⟩
  | cons it items ih =>
    obtain ⟨h, bytes⟩ := it
    have ih' := ih (fun it hm => hb it (List.mem_cons_of_mem _ hm))
    simp only [decodeItems]
    split
    · rename_i s hk
      have hs : s ∈ structs := List.mem_of_find?_eq_some hk
      rcases structFromBytes_returns b s hs (some (h.objectid, h.ty, h.offset)) bytes
        (hb (h, bytes) (List.mem_cons_self ..)) with ⟨sv, hv⟩ | ⟨e, he, -⟩
      · rcases ih' with ⟨vs, h2⟩ | ⟨e, h2⟩
        · left; exact ⟨_, by rw [hv, h2]; rfl⟩
        · right; exact ⟨e, by rw [hv, h2]; rfl⟩
      · right; exact ⟨e, by rw [he]; rfl⟩
    · exact ih'

/-! ### C51: fixed-size structs -/

/-- **C51**: a struct of fixed size decodes exactly when there are enough bytes for it. -/
theorem C51_fixed_size_iff (b : Build) (s : StructDef) (hf : FixedSizes s.fields) (ha : AnonOks s.fields)
    (key : Option (Int × Int × Int)) (bytes : Bytes) :
    (∃ sv, structFromBytes b s key bytes = .ok sv) ↔ widths s.fields ≤ bytes.length := by
  simp only [structFromBytes, StructDef.size, sizeSum_eq_widths]
  constructor
  · rintro ⟨sv, h⟩
    split at h
    · assumption
    · simp at h
  · intro h
    rw [if_pos h]
    have := fieldsLoop_fixed b (what := s.name) s.fields hf ha bytes 0 0 [] (by omega)
    rw [List.drop_zero] at this
    rw [this]
    exact ⟨_, rfl⟩

/-- **C51**: with too few bytes the error is the "not enough bytes" one. -/
theorem C51_too_short (b : Build) (s : StructDef) (key : Option (Int × Int × Int)) (bytes : Bytes)
    (h : bytes.length < widths s.fields) : structFromBytes b s key bytes =
      .error (.err (.shortRead s.name [] bytes.length (widths s.fields))) := by
  simp only [structFromBytes, StructDef.size, sizeSum_eq_widths]
  rw [if_neg (by omega)]

/-- **C51**: bytes beyond the size of a fixed-size struct do not influence the result. -/
theorem C51_extra_bytes_ignored (b : Build) (s : StructDef) (hf : FixedSizes s.fields) (ha : AnonOks s.fields)
    (key : Option (Int × Int × Int)) (bytes more : Bytes) (h : widths s.fields ≤ bytes.length) :
    structFromBytes b s key (bytes ++ more) = structFromBytes b s key bytes := by
  simp only [structFromBytes, StructDef.size, sizeSum_eq_widths]
  rw [if_pos h, if_pos (by rw [List.length_append]; omega)]
  have h1 := fieldsLoop_fixed b (what := s.name) s.fields hf ha bytes 0 0 [] (by omega)
  have h2 := fieldsLoop_fixed b (what := s.name) s.fields hf ha (bytes ++ more) 0 0 [] (by rw [List.length_append]; omega)
  rw [List.drop_zero] at h1 h2
  rw [h1, h2]
  simp only [Nat.zero_add, List.nil_append]
  congr 2
  apply fieldsAt_congr
  intro i hi
  simp only [mem, List.getD_eq_getElem?_getD]
  rw [List.getElem?_append_left (by omega)]

/-- the structs of the table that have no fixed size -/
def Spec.variableSize : List Str :=
  [s!' "btrfs_chunk", s!' "btrfs_extent_item", s!' "btrfs_inode_ref", s!' "btrfs_inode_extref",
   s!' "btrfs_dir_item", s!' "btrfs_roof_ref", s!' "btrfs_file_extent_item"]

set_option maxRecDepth 100000 in
/-- **C51** applies to every struct of the table but the seven listed. -/
theorem C51_table : ∀ s ∈ structs, s.name ∈ Spec.variableSize ∨ FixedSizes s.fields ∧ AnonOks s.fields := by
  intro s hs
  have key : ∀ s : StructDef, (allStatic s.fields && anonsB s.fields) = true →
      FixedSizes s.fields ∧ AnonOks s.fields := by
    intro s h
    simp only [Bool.and_eq_true] at h
    exact ⟨(allStatic_iff _).1 h.1, anonsB_ok _ h.2⟩
  simp only [structs, List.mem_cons, List.not_mem_nil, or_false] at hs
  rcases hs with h | h | h | h | h | h | h | h | h | h | h | h | h | h | h | h | h | h | h | h | h | h | h |
    h | h | h | h | h | h | h | h | h | h | h <;> subst h
  all_goals first
    | exact .inl (by decide)
    | exact .inr (key _ (by decide))

/-- witness: the sizes of two nested structs -/
example : widths struct_btrfs_root_item.fields = 439 ∧ widths struct_btrfs_balance_item.fields = 416 + 8 - 8 ∧
    widths BTRFS_DISK_BALANCE_ARGS.fields = 136 := by decide

/-! ### C52: packed offsets, little endian -/

/-- **C52**: what a fixed-size struct decodes to is what its bytes say: every field at the position where
the previous one ends, integers little endian, union members all at the position of the union. -/
theorem C52_fixed_layout (b : Build) (s : StructDef) (hf : FixedSizes s.fields) (ha : AnonOks s.fields)
    (key : Option (Int × Int × Int)) (bytes : Bytes) (sv : StructVal)
    (h : structFromBytes b s key bytes = .ok sv) :
    sv.name = s.name ∧ sv.key = key ∧ sv.fields = fieldsAt (mem bytes) 0 s.fields := by
  have hl : widths s.fields ≤ bytes.length := (C51_fixed_size_iff b s hf ha key bytes).1 ⟨sv, h⟩
  simp only [structFromBytes, StructDef.size, sizeSum_eq_widths] at h
  rw [if_pos hl] at h
  have := fieldsLoop_fixed b (what := s.name) s.fields hf ha bytes 0 0 [] (by omega)
  rw [List.drop_zero] at this
  rw [this] at h
  simp only [Except.ok.injEq] at h
  subst h
  exact ⟨rfl, rfl, by simp⟩

/-- **C52**: in particular a named field holds the value stored at the sum of the widths of the fields
before it. -/
theorem C52_field_offset (b : Build) (s : StructDef) (hf : FixedSizes s.fields) (ha : AnonOks s.fields)
    (key : Option (Int × Int × Int)) (bytes : Bytes) (sv : StructVal)
    (h : structFromBytes b s key bytes = .ok sv) (pre post : List (Option Str × Ty)) (n : Str) (t : Ty)
    (hs : s.fields = pre ++ (some n, t) :: post) :
    ∃ before after, sv.fields = before ++ (n, valueAt (mem bytes) (widths pre) t) :: after := by
  rw [(C52_fixed_layout b s hf ha key bytes sv h).2.2, hs]
  have key : ∀ (pre : List (Option Str × Ty)) (pos : Nat),
      fieldsAt (mem bytes) pos (pre ++ (some n, t) :: post) =
        fieldsAt (mem bytes) pos pre ++ (n, valueAt (mem bytes) (pos + widths pre) t) ::
          fieldsAt (mem bytes) (pos + widths pre + width t) post := by
    intro pre
    induction pre with
    | nil => intro pos; simp [fieldsAt, asFields, widths]
    | cons f pre ih =>
      intro pos
      obtain ⟨m, u⟩ := f
      simp only [List.cons_append, fieldsAt, ih, widths, List.append_assoc, Nat.add_assoc]
  rw [key pre 0]
  exact ⟨_, _, by rw [Nat.zero_add]⟩

/-- **C52** for every struct of the table, with trailing and dynamic parts: decoding succeeds exactly when
the bytes have the described layout, and gives the fields laid out there. -/
theorem C52_layout_iff (b : Build) (s : StructDef) (hs : s ∈ structs) (key : Option (Int × Int × Int))
    (bytes : Bytes) (hb : bytes.length < 2 ^ 64) (sv : StructVal) :
    structFromBytes b s key bytes = .ok sv ↔
      sv.name = s.name ∧ sv.key = key ∧ ∃ stop, Laid bytes s.fields 0 [] sv.fields stop :=
  structFromBytes_iff b s key bytes hb (structs_wellFormed s hs) sv

/-- witness: `btrfs_key` read from 17 bytes -/
example : structFromBytes ⟨true⟩ BTRFS_KEY none
      [1, 2, 0, 0, 0, 0, 0, 0, 132, 255, 0, 0, 0, 0, 0, 0, 1] =
    .ok ⟨s!' "btrfs_key", none, [(s!' "objectid", .int 513), (s!' "type", .int 132),
      (s!' "offset", .int (255 + 2 ^ 56))]⟩ := by rfl

/-! ### C53: lossless -/

/-- **C53**: encoding the fields of a decoded fixed-size struct (unions included: their largest member
covers them) gives back exactly the bytes it was read from. -/
theorem C53_lossless (b : Build) (s : StructDef) (hf : FixedSizes s.fields) (ha : AnonOks s.fields)
    (key : Option (Int × Int × Int)) (bytes : Bytes) (sv : StructVal)
    (h : structFromBytes b s key bytes = .ok sv) :
    encodeFields s.fields sv.fields = (bytes.take (widths s.fields), []) := by
  have hl : widths s.fields ≤ bytes.length := (C51_fixed_size_iff b s hf ha key bytes).1 ⟨sv, h⟩
  rw [(C52_fixed_layout b s hf ha key bytes sv h).2.2]
  have := encodeFields_fieldsAt (mem bytes) s.fields 0 [] hf ha
  rw [List.append_nil, memBytes_mem _ _ _ (by omega)] at this
  rw [this]
  simp [bytesAt]

/-- **C53**, trailing strings and arrays included (every struct of the table but the two dynamic ones):
encoding gives back the bytes from the start of the struct to the end of its last field. -/
theorem C53_lossless_trailing (b : Build) (s : StructDef) (hs : s ∈ structs)
    (hd : ∀ n cb, (n, Ty.dynamic cb) ∉ s.fields)
    (key : Option (Int × Int × Int)) (bytes : Bytes) (hb : bytes.length < 2 ^ 64) (sv : StructVal)
    (h : structFromBytes b s key bytes = .ok sv) :
    ∃ stop, widths s.fields ≤ stop ∧ stop ≤ bytes.length ∧
      encodeFields s.fields sv.fields = (bytes.take stop, []) := by
  obtain ⟨-, -, stop, hl⟩ := (C52_layout_iff b s hs key bytes hb sv).1 h
  obtain ⟨more, h1, h2, h3⟩ := Laid.encoded hl (structs_wellFormed s hs) hd
  have hbd := Laid.bounds hl (by omega)
  rw [sizeSum_eq_widths] at hbd
  rw [List.nil_append] at h1
  subst h1
  exact ⟨stop, by omega, hbd.2, by rw [h3]; simp [bytesAt]⟩

/-- **C53**: two images that look the same are the same, as far as the struct reaches. -/
theorem C53_injective (b : Build) (s : StructDef) (hs : s ∈ structs)
    (hd : ∀ n cb, (n, Ty.dynamic cb) ∉ s.fields) (key key' : Option (Int × Int × Int)) (bytes bytes' : Bytes)
    (hb : bytes.length < 2 ^ 64) (hb' : bytes'.length < 2 ^ 64) (sv sv' : StructVal)
    (h : structFromBytes b s key bytes = .ok sv) (h' : structFromBytes b s key' bytes' = .ok sv')
    (heq : sv.fields = sv'.fields) :
    ∃ stop, widths s.fields ≤ stop ∧ stop ≤ bytes.length ∧ stop ≤ bytes'.length ∧
      bytes.take stop = bytes'.take stop := by
  obtain ⟨stop, h1, h2, h3⟩ := C53_lossless_trailing b s hs hd key bytes hb sv h
  obtain ⟨stop', h1', h2', h3'⟩ := C53_lossless_trailing b s hs hd key' bytes' hb' sv' h'
  rw [heq, h3'] at h3
  simp only [Prod.mk.injEq, and_true] at h3
  have hlen := congrArg List.length h3
  simp only [List.length_take] at hlen
  have : stop = stop' := by omega
  subst this
  exact ⟨stop, h1, h2, h2', h3.symm⟩

set_option maxRecDepth 100000 in
/-- witness: a struct with unions, read from 136 bytes with distinct contents -/
example : (structFromBytes ⟨false⟩ BTRFS_DISK_BALANCE_ARGS none
      ((List.range 136).map fun i => UInt8.ofNat (7 * i + 1))).isOk = true ∧
    FixedSizes BTRFS_DISK_BALANCE_ARGS.fields ∧ AnonOks BTRFS_DISK_BALANCE_ARGS.fields := by
  refine ⟨by rfl, (allStatic_iff _).1 (by decide), anonsB_ok _ (by decide)⟩

/-! ### C54: trailing parts -/

/-- **C54**: a trailing string is as long as its length field says and is made of the bytes right after
the preceding fields, all within the given bytes. -/
theorem C54_trailing_string (b : Build) (s : StructDef) (hs : s ∈ structs) (key : Option (Int × Int × Int))
    (bytes : Bytes) (hb : bytes.length < 2 ^ 64) (sv : StructVal) (h : structFromBytes b s key bytes = .ok sv)
    (pre post : List (Option Str × Ty)) (name lenField : Str)
    (hf : s.fields = pre ++ (some name, .trailingString lenField) :: post) :
    ∃ (seen : List (Str × Value)) (pos n : Nat) (rest : List (Str × Value)),
      Laid bytes pre 0 [] seen pos ∧ lookup seen lenField = some (.int n) ∧ pos + n ≤ bytes.length ∧
      (bytesAt bytes pos n).length = n ∧
      sv.fields = seen ++ (name, .str (bytesAt bytes pos n)) :: rest := by
  obtain ⟨-, -, stop, hl⟩ := (C52_layout_iff b s hs key bytes hb sv).1 h
  rw [hf] at hl
  obtain ⟨seen, pos, h1, h2⟩ := Laid.split hl
  cases h2 with
  | fixed hfx => simp [FixedSize] at hfx
  | string hn hle r =>
    obtain ⟨rest, hr⟩ := Laid.prefix r
    exact ⟨seen, pos, _, rest, h1, hn, hle, bytesAt_length _ _ _ hle, by rw [hr, List.append_assoc]; rfl⟩

/-- **C54**: a trailing array has as many elements as its count field says, each read at its place. -/
theorem C54_trailing_array (b : Build) (s : StructDef) (hs : s ∈ structs) (key : Option (Int × Int × Int))
    (bytes : Bytes) (hb : bytes.length < 2 ^ 64) (sv : StructVal) (h : structFromBytes b s key bytes = .ok sv)
    (pre post : List (Option Str × Ty)) (name countField : Str) (t : Ty)
    (hf : s.fields = pre ++ (some name, .trailingTypes t countField) :: post) :
    ∃ (seen : List (Str × Value)) (pos n : Nat) (elems : List Value) (rest : List (Str × Value)),
      Laid bytes pre 0 [] seen pos ∧ lookup seen countField = some (.int n) ∧
      pos + n * width t ≤ bytes.length ∧ elems.length = n ∧
      (∀ i, i < n → elems[i]? = some (valueAt (mem bytes) (pos + i * width t) t)) ∧
      sv.fields = seen ++ (name, .array elems false) :: rest := by
  obtain ⟨-, -, stop, hl⟩ := (C52_layout_iff b s hs key bytes hb sv).1 h
  rw [hf] at hl
  obtain ⟨seen, pos, h1, h2⟩ := Laid.split hl
  cases h2 with
  | fixed hfx => simp [FixedSize] at hfx
  | types hn hle r =>
    obtain ⟨rest, hr⟩ := Laid.prefix r
    rename_i n
    refine ⟨seen, pos, n, (List.range n).map fun i => valueAt (mem bytes) (pos + i * width t) t, rest, h1, hn,
      hle, by simp, ?_, by rw [hr, List.append_assoc]; rfl⟩
    intro i hi
    simp [List.getElem?_map, List.getElem?_range hi]

/-- **C54**, in full for `btrfs_inode_ref`: it decodes exactly when the name fits, and then the name is
the `name_len` bytes from position 10. -/
theorem C54_inode_ref (b : Build) (key : Option (Int × Int × Int)) (bytes : Bytes) (hb : bytes.length < 2 ^ 64)
    (sv : StructVal) :
    structFromBytes b struct_btrfs_inode_ref key bytes = .ok sv ↔
      10 ≤ bytes.length ∧ 10 + leAt (mem bytes) 8 2 ≤ bytes.length ∧
      sv = ⟨s!' "btrfs_inode_ref", key, [(s!' "index", .int (leAt (mem bytes) 0 8)),
        (s!' "name_len", .int (leAt (mem bytes) 8 2)),
        (s!' "name", .str (bytesAt bytes 10 (leAt (mem bytes) 8 2)))]⟩ := by
  rw [C52_layout_iff b _ (by simp [structs]) key bytes hb sv]
  have hpre : FixedSizes [((some s!' "index" : Option Str), Ty.u64), (some s!' "name_len", .u16)] := by
    simp [FixedSizes, FixedSize]
  constructor
  · rintro ⟨h1, h2, stop, h3⟩
    have h3' : Laid bytes ([(some s!' "index", Ty.u64), (some s!' "name_len", .u16)] ++
        [(some s!' "name", .trailingString s!' "name_len")]) 0 [] sv.fields stop := h3
    obtain ⟨nm, k, fl⟩ := sv
    simp only at h1 h2 h3'
    subst h1 h2
    obtain ⟨seen, pos, h4, h5⟩ := Laid.split h3'
    obtain ⟨h6, h7, h8⟩ := (laid_fixed hpre (by omega)).1 h4
    simp only [widths, width] at h6 h8
    subst h7 h8
    cases h5 with
    | fixed hfx => simp [FixedSize] at hfx
    | string hn hle r =>
      simp [fieldsAt, valueAt, asFields, lookup, width] at hn
      have hn' := Int.natCast_inj.1 hn
      subst hn'
      cases r with
      | done =>
        refine ⟨by omega, hle, ?_⟩
        simp [fieldsAt, valueAt, asFields, width]
        rfl
  · rintro ⟨h1, h2, rfl⟩
    refine ⟨rfl, rfl, 10 + leAt (mem bytes) 8 2, ?_⟩
    refine .fixed (by simp [FixedSize]) (by simp [width]; omega) ?_
    refine .fixed (by simp [FixedSize]) (by simp [width]; omega) ?_
    refine .string (n := leAt (mem bytes) 8 2) (by simp [asFields, valueAt, lookup, width]) (by simp [width]; omega) ?_
    exact .done _ _

/-- witness: a directory entry with a name and no data -/
example : (structFromBytes ⟨true⟩ struct_btrfs_dir_item none
      (List.replicate 27 0 ++ [2, 0, 1, 104, 105])).map (fun sv => lookup sv.fields s!' "name") =
    .ok (some (.str [104, 105])) := by rfl

/-! ### C55: extent items -/

theorem laid_dynamic {bytes : Bytes} {name : Option Str} {cb : Bytes → Except Fail (List (Option Str × Ty))}
    {out : List (Str × Value)} :
    (∃ stop, Laid bytes [(name, .dynamic cb)] 0 [] out stop) ↔
      ∃ gs, cb bytes = .ok gs ∧ FixedSizes gs ∧ widths gs ≤ bytes.length ∧ out = fieldsAt (mem bytes) 0 gs := by
  constructor
  · rintro ⟨stop, h⟩
    cases h with
    | fixed hf => simp [FixedSize] at hf
    | dynamic hcb hf hl r =>
      cases r
      exact ⟨_, by simpa using hcb, hf, by omega, by simp⟩
  · rintro ⟨gs, h1, h2, h3, rfl⟩
    exact ⟨_, .dynamic (by simpa using h1) h2 (by omega) (by simpa using Laid.done _ _)⟩

theorem extent_header (refs gen flags rest : Bytes) (fs : List (Option Str × Ty)) (h1 : refs.length = 8)
    (h2 : gen.length = 8) (h3 : flags.length = 8) :
    fieldsAt (mem (refs ++ gen ++ flags ++ rest)) 0
        ([(some s!' "refs", .u64), (some s!' "generation", .u64), (some s!' "flags", .u64)] ++ fs) =
      [(s!' "refs", .int (le refs)), (s!' "generation", .int (le gen)), (s!' "flags", .int (le flags))] ++
        fieldsAt (mem rest) 0 fs := by
  have k1 := leAt_mid [] refs (gen ++ flags ++ rest) 0 8 rfl h1
  have k2 := leAt_mid refs gen (flags ++ rest) 8 8 h1 h2
  have k3 := leAt_mid (refs ++ gen) flags rest 16 8 (by simp [h1, h2]) h3
  have k4 := fieldsAt_skip (refs ++ gen ++ flags) rest 24 (by simp [h1, h2, h3]) fs
  simp only [fieldsAt, asFields, valueAt, width, List.cons_append, List.nil_append, List.append_assoc,
    Nat.zero_add, Nat.reduceAdd] at k1 k2 k3 k4 ⊢
  simp only [k1, k2, k3, k4]

/-- **C55**: an extent item decodes exactly when its bytes are a 24 byte header followed by inline
references that fill the rest without a gap or an overlap; it then shows the header and every reference. -/
theorem C55_extent_item_iff (b : Build) (key : Option (Int × Int × Int)) (bytes : Bytes)
    (hb : bytes.length < 2 ^ 64) (sv : StructVal) :
    structFromBytes b struct_btrfs_extent_item key bytes = .ok sv ↔
      ∃ (refs gen flags rest : Bytes) (vs : List (Str × Value)),
        refs.length = 8 ∧ gen.length = 8 ∧ flags.length = 8 ∧ bytes = refs ++ gen ++ flags ++ rest ∧
        InlineRefs rest vs ∧
        sv = ⟨s!' "btrfs_extent_item", key,
          [(s!' "refs", .int (le refs)), (s!' "generation", .int (le gen)), (s!' "flags", .int (le flags))] ++ vs⟩ := by
  rw [C52_layout_iff b _ (by simp [structs]) key bytes hb sv]
  have e0 : struct_btrfs_extent_item.fields = [(none, .dynamic extentItemFields)] := rfl
  have e1 : struct_btrfs_extent_item.name = s!' "btrfs_extent_item" := rfl
  rw [e0, e1, laid_dynamic]
  constructor
  · rintro ⟨h1, h2, gs, h3, h4, h5, h6⟩
    simp only [extentItemFields] at h3
    split at h3
    · rename_i hlen
      split at h3
      · rename_i fs hfs
        simp only [Except.ok.injEq] at h3
        subst h3
        obtain ⟨i1, i2⟩ := spec_of_inlineRefs _ _ _ hfs
        have hd : bytes = bytes.take 8 ++ (bytes.drop 8).take 8 ++ (bytes.drop 16).take 8 ++ bytes.drop 24 := by
          have q1 := List.take_append_drop 8 bytes
          have q2 := List.take_append_drop 8 (bytes.drop 8)
          have q3 := List.take_append_drop 8 (bytes.drop 16)
          simp only [List.drop_drop] at q2 q3
          simp only [List.append_assoc, q1, q2, q3]
        refine ⟨bytes.take 8, (bytes.drop 8).take 8, (bytes.drop 16).take 8, bytes.drop 24, _, by simp; omega,
          by simp; omega, by simp; omega, hd, i1, ?_⟩
        obtain ⟨nm, k, fl⟩ := sv
        simp only at h1 h2 h6
        subst h1 h2 h6
        congr 1
        conv => lhs; rw [hd]
        rw [extent_header _ _ _ _ _ (by simp; omega) (by simp; omega) (by simp; omega)]
      · simp at h3
    · simp at h3
  · rintro ⟨refs, gen, flags, rest, vs, h1, h2, h3, rfl, h5, rfl⟩
    refine ⟨rfl, rfl, ?_⟩
    obtain ⟨fs, i1, i2, i3⟩ := inlineRefs_of_spec h5 ((refs ++ gen ++ flags ++ rest).length + 1)
      (by simp only [List.length_append]; omega)
    refine ⟨[(some s!' "refs", .u64), (some s!' "generation", .u64), (some s!' "flags", .u64)] ++ fs, ?_, ?_, ?_, ?_⟩
    · simp only [extentItemFields]
      rw [if_pos (by simp [h1, h2, h3]; omega)]
      have : (refs ++ gen ++ flags ++ rest).drop 24 = rest :=
        List.drop_left' (by simp [h1, h2, h3])
      rw [this, i1]
    · exact (FixedSizes_append _ fs).2 ⟨by simp [FixedSizes, FixedSize], (inlineRefs_wf _ _ _ i1).1⟩
    · simp [widths, width, i3, h1, h2, h3]
    · rw [extent_header _ _ _ _ _ h1 h2 h3, i2]

/-- **C55**: the scan over the inline references always ends, with the references or an error. -/
theorem C55_scan_terminates (b : Build) (key : Option (Int × Int × Int)) (bytes : Bytes)
    (hb : bytes.length < 2 ^ 63) :
    structFromBytes b struct_btrfs_extent_item key bytes ≠ .error .diverge ∧
    structFromBytes b struct_btrfs_extent_item key bytes ≠ .error .panic := by
  rcases C50_decoding_returns b struct_btrfs_extent_item (by simp [structs]) key bytes hb with ⟨sv, h⟩ | ⟨e, h⟩ <;>
    rw [h] <;> simp

/-- **C53** for extent items: what is shown determines every byte. -/
theorem C53_extent_item_injective (b : Build) (key key' : Option (Int × Int × Int)) (bytes bytes' : Bytes)
    (hb : bytes.length < 2 ^ 64) (hb' : bytes'.length < 2 ^ 64) (sv sv' : StructVal)
    (h : structFromBytes b struct_btrfs_extent_item key bytes = .ok sv)
    (h' : structFromBytes b struct_btrfs_extent_item key' bytes' = .ok sv') (heq : sv.fields = sv'.fields) :
    bytes = bytes' := by
  obtain ⟨refs, gen, flags, rest, vs, h1, h2, h3, rfl, h5, rfl⟩ := (C55_extent_item_iff b key bytes hb sv).1 h
  obtain ⟨refs', gen', flags', rest', vs', g1, g2, g3, rfl, g5, rfl⟩ := (C55_extent_item_iff b key' bytes' hb' sv').1 h'
  simp only [List.cons_append, List.nil_append, List.cons.injEq, Prod.mk.injEq, Value.int.injEq, true_and] at heq
  obtain ⟨e1, e2, e3, rfl⟩ := heq
  rw [le_inj (by omega) e1, le_inj (by omega) e2, le_inj (by omega) e3, inlineRefs_inj h5 g5]

/-- **C53** for file extent items: what is shown determines every byte that is part of the item. -/
theorem C53_file_extent_item_injective (b : Build) (key key' : Option (Int × Int × Int)) (bytes bytes' : Bytes)
    (hb : bytes.length < 2 ^ 64) (hb' : bytes'.length < 2 ^ 64) (sv sv' : StructVal)
    (h : structFromBytes b struct_btrfs_file_extent_item key bytes = .ok sv)
    (h' : structFromBytes b struct_btrfs_file_extent_item key' bytes' = .ok sv') (heq : sv.fields = sv'.fields) :
    bytes.take 21 = bytes'.take 21 ∧ (bytes[20]? = some 1 ∨ bytes[20]? = some 2 → bytes.take 53 = bytes'.take 53) := by
  have key : ∀ (key : Option (Int × Int × Int)) (bytes : Bytes) (sv : StructVal), bytes.length < 2 ^ 64 →
      structFromBytes b struct_btrfs_file_extent_item key bytes = .ok sv →
      ∃ gs, FixedSizes gs ∧ AnonOks gs ∧ widths gs ≤ bytes.length ∧ sv.fields = fieldsAt (mem bytes) 0 gs ∧
        21 ≤ widths gs ∧ gs.length = (if bytes[20]? = some 1 ∨ bytes[20]? = some 2 then 10 else 6) ∧
        (widths gs = if bytes[20]? = some 1 ∨ bytes[20]? = some 2 then 53 else 21) ∧ flatNames gs = gs.filterMap (·.1) ∧
        gs = if bytes[20]? = some 1 ∨ bytes[20]? = some 2 then
          [(some s!' "generation", .u64), (some s!' "ram_bytes", .u64), (some s!' "compression", .u8),
          (some s!' "encryption", .u8), (some s!' "other_encoding", .u16), (some s!' "type", .u8),
          (some s!' "disk_bytenr", .u64), (some s!' "disk_num_bytes", .u64),
          (some s!' "offset", .u64), (some s!' "num_bytes", .u64)] else
          [(some s!' "generation", .u64), (some s!' "ram_bytes", .u64), (some s!' "compression", .u8),
          (some s!' "encryption", .u8), (some s!' "other_encoding", .u16), (some s!' "type", .u8)] := by
    intro key bytes sv hb h
    obtain ⟨-, -, hl⟩ := (C52_layout_iff b _ (by simp [structs]) key bytes hb sv).1 h
    obtain ⟨gs, h1, h2, h3, h4⟩ := laid_dynamic.1 hl
    refine ⟨gs, h2, fileExtentItemFields_good.anon _ _ h1, h3, h4, ?_⟩
    rcases fileExtentItemFields_cases bytes with ⟨-, hc⟩ | ⟨ty, ht, -, ⟨hty, hc⟩ | ⟨hty, hc⟩⟩
    · rw [hc] at h1; simp at h1
    · rw [hc] at h1
      simp only [Except.ok.injEq] at h1
      have : bytes[20]? = some 1 ∨ bytes[20]? = some 2 := by simpa [ht] using hty
      simp only [this, if_true]
      subst h1
      exact ⟨by decide, rfl, rfl, rfl, rfl⟩
    · rw [hc] at h1
      simp only [Except.ok.injEq] at h1
      have : ¬ (bytes[20]? = some 1 ∨ bytes[20]? = some 2) := by simpa [ht] using hty
      simp only [this, if_false]
      subst h1
      exact ⟨by decide, rfl, rfl, rfl, rfl⟩
  obtain ⟨gs, a1, a2, a3, a4, a5, a6, a7, -, a8⟩ := key _ _ _ hb h
  obtain ⟨gs', b1, b2, b3, b4, b5, b6, b7, -, b8⟩ := key _ _ _ hb' h'
  have hlen : ∀ (m : Mem) gs, gs.map (·.1) = (flatNames gs).map some → (fieldsAt m 0 gs).length = gs.length := by
    intro m gs hg
    have := congrArg List.length (fieldsAt_names m gs 0)
    have h2 := congrArg List.length hg
    simp only [List.length_map] at this h2
    omega
  have l1 : (fieldsAt (mem bytes) 0 gs).length = gs.length := by
    apply hlen; rw [a8]; split <;> rfl
  have l2 : (fieldsAt (mem bytes') 0 gs').length = gs'.length := by
    apply hlen; rw [b8]; split <;> rfl
  rw [a4, b4] at heq
  rw [heq] at l1
  have hc : (bytes[20]? = some 1 ∨ bytes[20]? = some 2) ↔ (bytes'[20]? = some 1 ∨ bytes'[20]? = some 2) := by
    rw [l2, a6, b6] at l1
    by_cases c1 : bytes[20]? = some 1 ∨ bytes[20]? = some 2 <;>
      by_cases c2 : bytes'[20]? = some 1 ∨ bytes'[20]? = some 2 <;> simp [c1, c2] at l1 ⊢
  have hg : gs = gs' := by rw [a8, b8]; simp only [hc]
  subst hg
  have e1 := encodeFields_fieldsAt (mem bytes) gs 0 [] a1 a2
  have e2 := encodeFields_fieldsAt (mem bytes') gs 0 [] a1 a2
  rw [heq, e2] at e1
  simp only [Prod.mk.injEq, and_true] at e1
  rw [memBytes_mem _ _ _ (by omega), memBytes_mem _ _ _ (by omega)] at e1
  simp only [bytesAt, List.drop_zero] at e1
  constructor
  · have := congrArg (List.take 21) e1
    rw [List.take_take, List.take_take, Nat.min_eq_left a5] at this
    exact this.symm
  · intro hx
    rw [a7, if_pos hx] at e1
    exact e1.symm

/-- the references of the witnesses below: a tree block reference and a shared data reference -/
theorem twoRefs : InlineRefs ([176, 1, 0, 0, 0, 0, 0, 0, 0] ++ [184, 2, 0, 0, 0, 0, 0, 0, 0, 3, 0, 0, 0])
    [(s!' "inline_ref", .struct s!' "btrfs_extent_inline_ref" none [(s!' "type", .int 176), (s!' "offset", .int 1)]),
     (s!' "inline_ref", .struct s!' "btrfs_extent_inline_ref" none
        [(s!' "type", .int 184), (s!' "offset", .int 2),
         (s!' "shared_data_ref", .struct s!' "btrfs_shared_data_ref" none [(s!' "count", .int 3)])])] :=
  .blockRef (ty := 176) (off := [1, 0, 0, 0, 0, 0, 0, 0]) (.inl rfl) rfl
    (.sharedDataRef (off := [2, 0, 0, 0, 0, 0, 0, 0]) (count := [3, 0, 0, 0]) rfl rfl .nil)

/-- witness: a header followed by two references decodes -/
example : ∃ sv, structFromBytes ⟨true⟩ struct_btrfs_extent_item none
      (List.replicate 8 1 ++ List.replicate 8 2 ++ List.replicate 8 3 ++
        ([176, 1, 0, 0, 0, 0, 0, 0, 0] ++ [184, 2, 0, 0, 0, 0, 0, 0, 0, 3, 0, 0, 0])) = .ok sv :=
  ⟨_, (C55_extent_item_iff _ _ _ (by decide) _).2 ⟨_, _, _, _, _, rfl, rfl, rfl, rfl, twoRefs, rfl⟩⟩

/-! ### C56: fields by name -/

/-- **C56**, for every struct of the table but `btrfs_extent_item`: at every level of a decoded value,
looking up the name of a field finds that field. Missing for the full claim: extent items with several
inline references, see `C56_second_inline_ref_inaccessible`. -/
theorem C56_accessible_partial (b : Build) (s : StructDef) (hs : s ∈ structs)
    (hne : s.name ≠ s!' "btrfs_extent_item") (key : Option (Int × Int × Int)) (bytes : Bytes)
    (hb : bytes.length < 2 ^ 64) (sv : StructVal) (h : structFromBytes b s key bytes = .ok sv) :
    Accessible (.struct sv.name sv.key sv.fields) := by
  obtain ⟨-, -, hl⟩ := (C52_layout_iff b s hs key bytes hb sv).1 h
  simp only [Accessible]
  rcases structs_cases s hs with hd | rfl | rfl
  · have hnd : ∀ n cb, (n, Ty.dynamic cb) ∉ s.fields := by
      intro n cb hm
      simp only [descB, Bool.and_eq_true, Bool.or_eq_true] at hd
      rcases hd.1.1 with ⟨h1, -⟩ | h1
      · have := (allStatic_iff _).1 h1
        have key : ∀ fs : List (Option Str × Ty), FixedSizes fs → (n, Ty.dynamic cb) ∉ fs := by
          intro fs; induction fs with
          | nil => simp
          | cons f fs ih =>
            obtain ⟨m, t⟩ := f
            intro hf hm
            simp only [FixedSizes] at hf
            rcases List.mem_cons.1 hm with h | h
            · simp only [Prod.mk.injEq] at h; rw [← h.2] at hf; simp [FixedSize] at hf
            · exact ih hf.2 h
        exact key _ this hm
      · have key : ∀ fs pre : List (Option Str × Ty), namedB pre fs = true → (n, Ty.dynamic cb) ∉ fs := by
          intro fs; induction fs with
          | nil => simp
          | cons f fs ih =>
            obtain ⟨m, t⟩ := f
            intro pre hf hm
            rcases List.mem_cons.1 hm with h | h
            · simp only [Prod.mk.injEq] at h
              rw [← h.2] at hf
              cases m <;> simp [namedB, Ty.isStatic] at hf
            · cases m with
              | none => simp [namedB] at hf
              | some m => cases t <;> simp only [namedB, Bool.and_eq_true] at hf <;> exact ih _ hf.2 h
        exact key _ _ h1 hm
    obtain ⟨stop, hl⟩ := hl
    simp only [descB, Bool.and_eq_true, decide_eq_true_eq] at hd
    obtain ⟨h1, h2⟩ := Laid.names hl hnd hd.2 (by simp [AccessibleF])
    exact ⟨lookup_of_nodup (by rw [h1]; simpa using hd.1.2), h2⟩
  · exact absurd rfl hne
  · obtain ⟨gs, h1, h2, h3, h4⟩ := laid_dynamic.1 hl
    rw [h4]
    have hd : (flatNames gs).Nodup ∧ distinctsB gs = true := by
      rcases fileExtentItemFields_cases bytes with ⟨-, hc⟩ | ⟨ty, -, -, ⟨-, hc⟩ | ⟨-, hc⟩⟩ <;> rw [hc] at h1
      · simp at h1
      · simp only [Except.ok.injEq] at h1; subst h1; exact ⟨by decide, by decide⟩
      · simp only [Except.ok.injEq] at h1; subst h1; exact ⟨by decide, by decide⟩
    exact ⟨lookup_of_nodup (by rw [fieldsAt_names]; exact hd.1), fieldsAt_accessible _ _ _ hd.2⟩

theorem field_of_lookup (s : StructVal) (n : Str) (v : Value) (h : lookup s.fields n = some v) :
    s.field n = .ok v := by
  have : ∀ fs : List (Str × Value), lookup fs n = some v → fieldLookup fs n = some v := by
    intro fs
    induction fs with
    | nil => simp [lookup]
    | cons f fs ih =>
      obtain ⟨m, w⟩ := f
      simp only [lookup, List.find?_cons, fieldLookup]
      by_cases hm : m = n
      · subst hm; simp
      · simp only [beq_eq_false_iff_ne.2 hm, hm, if_false]
        exact ih
  simp only [StructVal.field, this _ h, orErr]

/-- **C56**: in the language, accessing a field of a value by name gives what the lookup finds. -/
theorem C56_field_access (cfg : Cfg) (st : State) (e : Expr) (name n : Str) (key : Option (Int × Int × Int))
    (fs : List (Str × Value)) (v : Value) (h : evalExpr cfg st e = .ok (.struct name key fs))
    (ha : Accessible (.struct name key fs)) (hm : (n, v) ∈ fs) : evalExpr cfg st (.field e (.ident n)) = .ok v := by
  simp only [Accessible] at ha
  have := ha.1 n v hm
  simp only [evalExpr, h, fieldOp]
  change StructVal.field _ n = _
  exact field_of_lookup _ _ _ this

/-- **C56 is false for extent items**: with two inline references, the name `inline_ref` reaches the first
one only. -/
theorem C56_second_inline_ref_inaccessible :
    ∃ (bytes : Bytes) (sv : StructVal), structFromBytes ⟨true⟩ struct_btrfs_extent_item none bytes = .ok sv ∧
      ¬ Accessible (.struct sv.name sv.key sv.fields) := by
  refine ⟨_, _, (C55_extent_item_iff ⟨true⟩ none (List.replicate 8 1 ++ List.replicate 8 2 ++ List.replicate 8 3 ++
        ([176, 1, 0, 0, 0, 0, 0, 0, 0] ++ [184, 2, 0, 0, 0, 0, 0, 0, 0, 3, 0, 0, 0])) (by decide) _).2
        ⟨_, _, _, _, _, rfl, rfl, rfl, rfl, twoRefs, rfl⟩, ?_⟩
  simp only [Accessible]
  rintro ⟨h, -⟩
  have := h (s!' "inline_ref") (.struct s!' "btrfs_extent_inline_ref" none
        [(s!' "type", .int 184), (s!' "offset", .int 2),
         (s!' "shared_data_ref", .struct s!' "btrfs_shared_data_ref" none [(s!' "count", .int 3)])])
         (by simp)
  simp [lookup] at this

/-- **C56**: in an extent item the header fields are accessible, the first reference is what `inline_ref`
reaches, and inside the references every field is accessible. -/
theorem C56_extent_item_partial (b : Build) (key : Option (Int × Int × Int)) (bytes : Bytes)
    (hb : bytes.length < 2 ^ 64) (sv : StructVal) (h : structFromBytes b struct_btrfs_extent_item key bytes = .ok sv) :
    AccessibleF sv.fields ∧
    ∀ n v, (n, v) ∈ sv.fields → lookup sv.fields n = some v ∨
      n = s!' "inline_ref" ∧ ∃ a as, sv.fields.drop 3 = a :: as ∧ lookup sv.fields n = some a.2 := by
  obtain ⟨refs, gen, flags, rest, vs, h1, h2, h3, rfl, h5, rfl⟩ := (C55_extent_item_iff b key bytes hb sv).1 h
  have hn : ∀ f ∈ vs, f.1 = s!' "inline_ref" := by
    clear h hb
    induction h5 with
    | nil => simp
    | dataRef _ _ _ _ _ ih => simpa using ih
    | sharedDataRef _ _ _ ih => simpa using ih
    | blockRef _ _ _ ih => simpa using ih
  have ha : AccessibleF vs := by
    clear h hb hn
    induction h5 with
    | nil => simp [AccessibleF]
    | dataRef _ _ _ _ _ ih =>
      simp only [AccessibleF, Accessible]
      exact ⟨⟨lookup_of_nodup (by simp), ⟨trivial, ⟨lookup_of_nodup (by simp), by simp⟩, trivial⟩⟩, ih⟩
    | sharedDataRef _ _ _ ih =>
      simp only [AccessibleF, Accessible]
      exact ⟨⟨lookup_of_nodup (by simp), ⟨trivial, trivial, ⟨lookup_of_nodup (by simp), by simp⟩, trivial⟩⟩, ih⟩
    | blockRef _ _ _ ih =>
      simp only [AccessibleF, Accessible]
      exact ⟨⟨lookup_of_nodup (by simp), ⟨trivial, trivial, trivial⟩⟩, ih⟩
  constructor
  · simp only [accessibleF_append]
    exact ⟨by simp [AccessibleF, Accessible], ha⟩
  · intro n v hm
    simp only [List.cons_append, List.nil_append, List.mem_cons] at hm
    rcases hm with hm | hm | hm | hm
    · simp only [Prod.mk.injEq] at hm; obtain ⟨rfl, rfl⟩ := hm; left; simp [lookup]
    · simp only [Prod.mk.injEq] at hm; obtain ⟨rfl, rfl⟩ := hm; left; simp [lookup]
    · simp only [Prod.mk.injEq] at hm; obtain ⟨rfl, rfl⟩ := hm; left; simp [lookup]
    · right
      have e := hn _ hm
      simp only at e
      subst e
      refine ⟨rfl, ?_⟩
      cases vs with
      | nil => simp at hm
      | cons a as =>
        refine ⟨a, as, rfl, ?_⟩
        have := hn a (by simp)
        simp [lookup, this]

end Btrd
