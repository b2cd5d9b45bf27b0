/-
C58, C59: type casts (`src/lang/eval/eval.rs`, `eval_unary_expr`).
-/
import Verif.Props.Decode

namespace Btrd
open Spec

/-! ### C58 -/

set_option maxRecDepth 100000 in
theorem castSpan_le : ∀ s ∈ structs, 0 < castSpan s ∧ castSpan s ≤ 1024 := by
  have : structs.all (fun s => decide (s.size ≤ 1024)) = true := by decide
  intro s hs
  have h := List.all_eq_true.1 this s hs
  simp only [decide_eq_true_eq, StructDef.size, sizeSum_eq_widths] at h
  unfold castSpan
  split <;> omega

theorem findStruct_mem {name : Str} {s : StructDef} (h : findStruct name = some s) : s ∈ structs ∧ s.name = name :=
  ⟨List.mem_of_find?_eq_some h, by simpa using List.find?_some h⟩

set_option maxRecDepth 100000 in
/-- names of structs are unique -/
theorem findStruct_self : ∀ s ∈ structs, findStruct s.name = some s := by
  intro s hs
  simp only [structs, List.mem_cons, List.not_mem_nil, or_false] at hs
  rcases hs with h | h | h | h | h | h | h | h | h | h | h | h | h | h | h | h | h | h | h | h | h | h | h |
    h | h | h | h | h | h | h | h | h | h | h <;> subst h <;> rfl

/-- what a cast at a position below `2^64` does -/
theorem castOp_at (b : Build) (fs : Option Fs) (name : Str) (p : Nat) (hp : p < 2 ^ 64) (s : StructDef)
    (hs : findStruct name = some s) (img : Bytes) (hfs : fs = some (.unmounted img)) (hi : img.length < 2 ^ 64) :
    castOp b fs (.ident name) (.ok (.int p)) =
      if p + castSpan s ≤ img.length then
        match structFromBytes b s none (bytesAt img p (castSpan s)) with
        | .ok sv => .ok (.struct sv.name sv.key sv.fields)
        | .error e => .error e
      else if p + castSpan s < 2 ^ 64 ∨ b.ovfChecks = false then R.err (.bytesRange img.length)
      else R.panic := by
  have hsp := castSpan_le s (findStruct_mem hs).1
  have hus : asUsize (p : Int) = p := by
    simp only [asUsize]
    rw [Int.emod_eq_of_lt (by omega) (by exact_mod_cast hp)]
    rfl
  have hsz : (if s.size = 0 then 1024 else s.size) = castSpan s := by
    simp only [StructDef.size, sizeSum_eq_widths]; rfl
  have e1 : castOp b fs (.ident name) (.ok (.int p)) =
      (usizeAdd b p (castSpan s)).bind fun stop => (Fs.getBytes (.unmounted img) p stop).bind fun bytes =>
        (structFromBytes b s none bytes).bind fun sv => .ok (.struct sv.name sv.key sv.fields) := by
    subst hfs
    simp only [castOp, bind, Except.bind, Value.asInteger, if_neg (show ¬ ((p : Int) < 0) by omega), hus, hs, hsz]
  rw [e1]
  by_cases h1 : p + castSpan s ≤ img.length
  · rw [if_pos h1]
    simp only [usizeAdd, if_pos (show p + castSpan s < 2 ^ 64 by omega), Except.bind, Fs.getBytes]
    rw [if_pos ⟨by omega, h1⟩]
    simp only [Nat.add_sub_cancel_left, bytesAt]
    cases structFromBytes b s none ((img.drop p).take (castSpan s)) <;> rfl
  · rw [if_neg h1]
    by_cases h2 : p + castSpan s < 2 ^ 64
    · rw [if_pos (.inl h2)]
      simp only [usizeAdd, if_pos h2, Except.bind, Fs.getBytes]
      rw [if_neg (fun h => h1 h.2)]
    · cases hb : b.ovfChecks with
      | true =>
        rw [if_neg (by simp [h2])]
        simp only [usizeAdd, if_neg h2, hb, if_true, Except.bind]
      | false =>
        rw [if_pos (.inr rfl)]
        simp only [usizeAdd, if_neg h2, hb, Except.bind, Fs.getBytes]
        have : (p + castSpan s) % 2 ^ 64 = p + castSpan s - 2 ^ 64 := by
          rw [Nat.mod_eq_sub_mod (by omega), Nat.mod_eq_of_lt (by omega)]
        rw [this]
        simp only [Bool.false_eq_true, if_false]
        rw [if_neg (fun h => by omega)]

/-- **C58**: a cast that gives a value has decoded the bytes of the image that start exactly at the given
position, all of them inside the image. Missing for the full claim: positions of `2^64` and more, see
`C58_position_wraps`. -/
theorem C58_cast_reads_position_partial (cfg : Cfg) (st : State) (name : Str) (e : Expr) (v : Value) (pos : Int)
    (img : Bytes) (hi : img.length < 2 ^ 64) (hfs : st.fs = some (.unmounted img))
    (hp : evalExpr cfg st e = .ok (.int pos)) (hlt : pos < 2 ^ 64) :
    evalExpr cfg st (.cast (.ident name) e) = .ok v ↔
      ∃ (s : StructDef) (sv : StructVal) (p : Nat),
        pos = p ∧ s ∈ structs ∧ s.name = name ∧ p + castSpan s ≤ img.length ∧
        structFromBytes cfg.build s none (bytesAt img p (castSpan s)) = .ok sv ∧
        v = .struct sv.name sv.key sv.fields := by
  simp only [evalExpr, hp]
  constructor
  · intro h
    by_cases hneg : pos < 0
    · exact absurd h (by simp [castOp, bind, Except.bind, Value.asInteger, hneg])
    · obtain ⟨p, rfl⟩ : ∃ p : Nat, pos = p := ⟨pos.toNat, by omega⟩
      cases hs : findStruct name with
      | none => exact absurd h (by simp [castOp, bind, Except.bind, Value.asInteger, hs, if_neg hneg])
      | some s =>
        rw [castOp_at cfg.build st.fs name p (by exact_mod_cast hlt) s hs img hfs hi] at h
        split at h
        · rename_i hle
          split at h
          · rename_i sv hsv
            simp only [Except.ok.injEq] at h
            exact ⟨s, sv, p, rfl, (findStruct_mem hs).1, (findStruct_mem hs).2, hle, hsv, h.symm⟩
          · simp at h
        · split at h <;> simp at h
  · rintro ⟨s, sv, p, rfl, hs, rfl, hle, hsv, rfl⟩
    rw [castOp_at cfg.build st.fs s.name p (by exact_mod_cast hlt) s (findStruct_self s hs) img hfs hi, if_pos hle,
      hsv]

/-- **C58**: a negative position is an error. -/
theorem C58_negative_position (cfg : Cfg) (st : State) (ty e : Expr) (pos : Int)
    (hp : evalExpr cfg st e = .ok (.int pos)) (h : pos < 0) :
    evalExpr cfg st (.cast ty e) = .error (.err (.negativeBytenr pos)) := by
  simp [evalExpr, hp, castOp, bind, Except.bind, Value.asInteger, h]

/-- **C58**: a position whose bytes are not all inside the image is an error, never a value. Missing for
the full claim: the last positions below `2^64` in a debug build, see `C58_last_positions_panic`. -/
theorem C58_beyond_end_partial (cfg : Cfg) (st : State) (s : StructDef) (hs : s ∈ structs) (e : Expr) (p : Nat)
    (img : Bytes) (hi : img.length < 2 ^ 64) (hfs : st.fs = some (.unmounted img))
    (hp : evalExpr cfg st e = .ok (.int p)) (h1 : img.length < p + castSpan s)
    (h2 : p + castSpan s < 2 ^ 64 ∨ cfg.build.ovfChecks = false ∧ p < 2 ^ 64) :
    evalExpr cfg st (.cast (.ident s.name) e) = .error (.err (.bytesRange img.length)) := by
  have hp64 : p < 2 ^ 64 := by rcases h2 with h | ⟨-, h⟩ <;> omega
  simp only [evalExpr, hp]
  rw [castOp_at cfg.build st.fs s.name p hp64 s (findStruct_self s hs) img hfs hi, if_neg (by omega), if_pos]
  rcases h2 with h | ⟨h, -⟩
  · exact .inl h
  · exact .inr h

/-- **C58**: without an image file there is nothing to read, and that is an error. -/
theorem C58_no_image (cfg : Cfg) (st : State) (s : StructDef) (hs : s ∈ structs) (e : Expr) (pos : Int)
    (hp : evalExpr cfg st e = .ok (.int pos)) (h0 : 0 ≤ pos) (hfs : st.fs = none) :
    evalExpr cfg st (.cast (.ident s.name) e) = .error (.err .noFilesystem) := by
  simp [evalExpr, hp, castOp, bind, Except.bind, Value.asInteger, show ¬ pos < 0 by omega, findStruct_self s hs, hfs]

/-- **C58 is false for positions of `2^64` and more**: they are taken modulo `2^64`. -/
theorem C58_position_wraps (cfg : Cfg) (st : State) (name : Str) (p : Int) (h : 0 ≤ p) :
    evalExpr cfg st (.cast (.ident name) (.int (p + 2 ^ 64))) = evalExpr cfg st (.cast (.ident name) (.int p)) := by
  have hus : asUsize (p + 2 ^ 64) = asUsize p := by simp [asUsize]
  simp only [evalExpr, castOp, bind, Except.bind, Value.asInteger, if_neg (show ¬ p + 2 ^ 64 < 0 by omega),
    if_neg (show ¬ p < 0 by omega), hus]

/-- **C58 is false for the last positions below `2^64` in a debug build**: the cast panics. -/
theorem C58_last_positions_panic (st : State) (s : StructDef) (hs : s ∈ structs) (img : Bytes)
    (hi : img.length < 2 ^ 64) (hfs : st.fs = some (.unmounted img)) (cfg : Cfg) (hb : cfg.build.ovfChecks = true) :
    evalExpr cfg st (.cast (.ident s.name) (.int (2 ^ 64 - 1))) = .error .panic := by
  have hsp := castSpan_le s hs
  have := castOp_at cfg.build st.fs s.name (2 ^ 64 - 1) (by omega) s (findStruct_self s hs) img hfs hi
  rw [if_neg (by omega), if_neg (by simp [hb]; omega)] at this
  simp only [evalExpr]
  exact this

/-- witness: reading a key at position 3 of an image of 24 bytes -/
example (cfg : Cfg) (st : State) :
    evalExpr cfg { st with fs := some (.unmounted ((List.range 24).map UInt8.ofNat)) }
        (.cast (.ident s!' "btrfs_key") (.int 3)) =
      .ok (.struct s!' "btrfs_key" none [(s!' "objectid", .int 0x0a09080706050403), (s!' "type", .int 11),
        (s!' "offset", .int 0x131211100f0e0d0c)]) := by rfl

/-! ### C59 -/

theorem widths_append (fs gs : List (Option Str × Ty)) : widths (fs ++ gs) = widths fs + widths gs := by
  induction fs with
  | nil => simp [widths]
  | cons f fs ih => obtain ⟨n, t⟩ := f; simp only [List.cons_append, widths, ih]; omega

/-- **C59 is false**: a cast never shows a trailing string that is not empty, whatever the image holds,
because it looks only at the fixed part of the struct. -/
theorem C59_trailing_always_empty (cfg : Cfg) (st : State) (s : StructDef) (hs : s ∈ structs) (e : Expr) (pos : Int)
    (img : Bytes) (hi : img.length < 2 ^ 64) (hfs : st.fs = some (.unmounted img))
    (hp : evalExpr cfg st e = .ok (.int pos)) (hlt : pos < 2 ^ 64)
    (pre post : List (Option Str × Ty)) (name lenField : Str)
    (hf : s.fields = pre ++ (some name, .trailingString lenField) :: post) (hw : widths s.fields ≠ 0) (v : Value)
    (h : evalExpr cfg st (.cast (.ident s.name) e) = .ok v) :
    ∃ before after, v = .struct s.name none (before ++ (name, .str []) :: after) := by
  obtain ⟨s', sv, p, rfl, hs', hn, hle, hd, rfl⟩ :=
    (C58_cast_reads_position_partial cfg st s.name e v pos img hi hfs hp hlt).1 h
  have : s' = s := by
    have h1 := findStruct_self s hs
    rw [← hn, findStruct_self s' hs'] at h1
    simpa using h1
  subst this
  have hsp : castSpan s' = widths s'.fields := by simp [castSpan, hw]
  have hlen : (bytesAt img p (castSpan s')).length = widths s'.fields := by rw [bytesAt_length _ _ _ hle, hsp]
  obtain ⟨h1, h2, stop, hl⟩ := (C52_layout_iff cfg.build s' hs none _ (by omega) sv).1 hd
  have hl2 := hl
  rw [hf] at hl
  obtain ⟨seen, q, l1, l2⟩ := Laid.split hl
  have b1 := Laid.bounds l1 (by omega)
  rw [sizeSum_eq_widths] at b1
  cases l2 with
  | fixed hfx => simp [FixedSize] at hfx
  | @string _ _ _ _ n _ _ _ hn hle' r =>
    have b2 := Laid.bounds r hle'
    rw [sizeSum_eq_widths] at b2
    have hwd : widths s'.fields = widths pre + widths post := by rw [hf, widths_append]; simp [widths, width]
    have hn0 : n = 0 := by omega
    subst hn0
    obtain ⟨rest, hr⟩ := Laid.prefix r
    refine ⟨seen, rest, ?_⟩
    rw [h1, h2, hr]
    simp [bytesAt]

/-- **C59 is false**, concretely: an image that holds an inode reference with the name `hi` at position 0,
so that the struct decodes from it, but the cast fails. -/
theorem C59_cast_of_name_fails (cfg : Cfg) (st : State) :
    ∃ img : Bytes, (∃ sv, structFromBytes cfg.build struct_btrfs_inode_ref none img = .ok sv ∧
        (s!' "name", .str [104, 105]) ∈ sv.fields) ∧
      evalExpr cfg { st with fs := some (.unmounted img) } (.cast (.ident s!' "btrfs_inode_ref") (.int 0)) =
        .error (.err (.shortRead s!' "btrfs_inode_ref" s!' " for string read" 10 12)) := by
  refine ⟨[7, 0, 0, 0, 0, 0, 0, 0, 2, 0, 104, 105], ⟨⟨s!' "btrfs_inode_ref", none,
    [(s!' "index", .int 7), (s!' "name_len", .int 2), (s!' "name", .str [104, 105])]⟩, ?_, by simp⟩, by rfl⟩
  rw [C54_inode_ref _ _ _ (by decide)]
  exact ⟨by decide, by decide, rfl⟩

/-- **C59**, what does hold: a position holding an inode reference with an empty name is decoded; and so is
one holding a file extent item, if 1024 bytes follow. -/
theorem C59_cast_partial (cfg : Cfg) (st : State) (e : Expr) (p : Nat) (img : Bytes) (hi : img.length < 2 ^ 63)
    (hfs : st.fs = some (.unmounted img)) (hp : evalExpr cfg st e = .ok (.int p)) :
    (p + 10 ≤ img.length → leAt (mem img) (p + 8) 2 = 0 →
      evalExpr cfg st (.cast (.ident s!' "btrfs_inode_ref") e) = .ok (.struct s!' "btrfs_inode_ref" none
        [(s!' "index", .int (leAt (mem img) p 8)), (s!' "name_len", .int 0), (s!' "name", .str [])])) ∧
    (p + 1024 ≤ img.length → ∃ fs, evalExpr cfg st (.cast (.ident s!' "btrfs_file_extent_item") e) =
        .ok (.struct s!' "btrfs_file_extent_item" none fs)) := by
  have hmem : ∀ n i, i < n → p + n ≤ img.length → mem (bytesAt img p n) i = mem img (p + i) := by
    intro n i h1 h2
    simp only [mem, bytesAt, List.getD_eq_getElem?_getD, List.getElem?_take, h1, if_true, List.getElem?_drop]
  constructor
  · intro h1 h2
    have hp64 : (p : Int) < 2 ^ 64 := by
      have : p < 2 ^ 64 := by omega
      exact_mod_cast this
    rw [C58_cast_reads_position_partial cfg st _ e _ p img (by omega) hfs hp hp64]
    have hl : (bytesAt img p 10).length = 10 := bytesAt_length _ _ _ h1
    refine ⟨struct_btrfs_inode_ref, ⟨s!' "btrfs_inode_ref", none,
      [(s!' "index", .int (leAt (mem img) p 8)), (s!' "name_len", .int 0), (s!' "name", .str [])]⟩, p, rfl,
      by simp [structs], rfl, h1, ?_, rfl⟩
    have e1 : castSpan struct_btrfs_inode_ref = 10 := rfl
    rw [e1, C54_inode_ref _ _ _ (by omega)]
    have k1 : leAt (mem (bytesAt img p 10)) 8 2 = leAt (mem img) (p + 8) 2 := by
      apply leAt_shift; intro i hi; rw [hmem 10 _ (by omega) h1]; congr 1; omega
    have k2 : leAt (mem (bytesAt img p 10)) 0 8 = leAt (mem img) p 8 := by
      apply leAt_shift; intro i hi; rw [hmem 10 _ (by omega) h1]; congr 1; omega
    rw [k1, k2, h2]
    exact ⟨by omega, by omega, by simp [bytesAt]⟩
  · intro h1
    have hp64 : (p : Int) < 2 ^ 64 := by
      have : p < 2 ^ 64 := by omega
      exact_mod_cast this
    have hl : (bytesAt img p 1024).length = 1024 := bytesAt_length _ _ _ h1
    have e1 : castSpan struct_btrfs_file_extent_item = 1024 := rfl
    have hex : ∃ gs, fileExtentItemFields (bytesAt img p 1024) = .ok gs ∧ widths gs ≤ 1024 := by
      rcases fileExtentItemFields_cases (bytesAt img p 1024) with ⟨hc, -⟩ | ⟨ty, -, -, ⟨-, hc⟩ | ⟨-, hc⟩⟩
      · omega
      · exact ⟨_, hc, by decide⟩
      · exact ⟨_, hc, by decide⟩
    obtain ⟨gs, hg, hw⟩ := hex
    refine ⟨fieldsAt (mem (bytesAt img p 1024)) 0 gs, ?_⟩
    rw [C58_cast_reads_position_partial cfg st _ e _ p img (by omega) hfs hp hp64]
    refine ⟨struct_btrfs_file_extent_item, ⟨s!' "btrfs_file_extent_item", none, _⟩, p, rfl, by simp [structs], rfl, h1,
      ?_, rfl⟩
    rw [e1, C52_layout_iff _ _ (by simp [structs]) _ _ (by omega)]
    exact ⟨rfl, rfl, laid_dynamic.2 ⟨gs, hg, fileExtentItemFields_good.fixed _ _ hg, by omega, rfl⟩⟩

end Btrd
