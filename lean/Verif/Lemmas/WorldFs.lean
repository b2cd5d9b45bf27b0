/-
Opening filesystems and type casts, against the rules of `Spec/World`.
-/
import Verif.Lemmas.WorldRead
import Verif.Props.Search

namespace Btrd
open Spec

/-! ### opening -/

theorem image_iff (img : Bytes) : hasSuperblockMagic img = true ↔ BtrfsImage img := by
  simp only [hasSuperblockMagic, superblockLocs, List.any_cons, List.any_nil, Bool.or_false, Bool.or_eq_true, magic_iff]
  rfl

theorem opens_iff (h : Host) (path : Str) (fs : Fs) : Fs.new h path = .ok fs ↔ OpensAs h path fs := by
  constructor
  · intro hn
    cases hd : h.openDir path with
    | some d =>
      obtain ⟨h1, rfl⟩ := (C63_directory_iff h path d hd fs).1 hn
      exact .mounted hd h1
    | none =>
      rw [Fs.new, hd] at hn
      dsimp only at hn
      cases hf : h.openFile path with
      | none => rw [hf] at hn; cases hn
      | some f =>
        rw [hf] at hn
        cases f with
        | none => cases hn
        | some img =>
          dsimp only [Fs.newUnmounted] at hn
          by_cases hm : hasSuperblockMagic img = true
          · rw [if_pos hm] at hn
            cases hn
            exact .image hd hf ((image_iff img).1 hm)
          · rw [if_neg hm] at hn
            cases hn
  · intro ho
    cases ho with
    | mounted hd ht => exact (C63_directory_iff h path _ hd _).2 ⟨ht, rfl⟩
    | image hd hf hm =>
      rw [Fs.new, hd, hf]
      dsimp only [Fs.newUnmounted]
      rw [if_pos ((image_iff _).2 hm)]

theorem open_fails_iff (h : Host) (path : Str) (m : Option Str) :
    (∃ e, Fs.new h path = R.err e ∧ e.text = m) ↔ OpenFails h path m := by
  constructor
  · rintro ⟨e, hn, rfl⟩
    rw [Fs.new] at hn
    cases hd : h.openDir path with
    | some d =>
      rw [hd] at hn
      dsimp only [Fs.newMounted] at hn
      cases ht : d.fsType with
      | none => rw [ht] at hn; cases hn; exact .statfs hd ht
      | some t =>
        rw [ht] at hn
        dsimp only at hn
        by_cases h9 : t = btrfsFsType
        · rw [if_pos h9] at hn; cases hn
        · rw [if_neg h9] at hn; cases hn; exact .notBtrfs hd ht h9
    | none =>
      rw [hd] at hn
      dsimp only at hn
      cases hf : h.openFile path with
      | none => rw [hf] at hn; cases hn; exact .neither hd hf
      | some f =>
        rw [hf] at hn
        cases f with
        | none => cases hn; exact .mmap hd hf
        | some img =>
          dsimp only [Fs.newUnmounted] at hn
          by_cases hm : hasSuperblockMagic img = true
          · rw [if_pos hm] at hn; cases hn
          · rw [if_neg hm] at hn
            cases hn
            exact .noImage hd hf (fun g => hm ((image_iff img).2 g))
  · intro ho
    cases ho with
    | statfs hd ht => exact ⟨.statfs, by rw [Fs.new, hd]; dsimp only [Fs.newMounted]; rw [ht], rfl⟩
    | notBtrfs hd ht hn =>
      refine ⟨.notBtrfs path, ?_, rfl⟩
      rw [Fs.new, hd]; dsimp only [Fs.newMounted]; rw [ht]; exact if_neg hn
    | mmap hd hf => exact ⟨.mmap, by rw [Fs.new, hd, hf]; rfl, rfl⟩
    | noImage hd hf hm =>
      refine ⟨.badMagic path, ?_, rfl⟩
      rw [Fs.new, hd, hf]; exact if_neg (fun g => hm ((image_iff _).1 g))
    | neither hd hf => exact ⟨.neitherFs path, by rw [Fs.new, hd, hf], rfl⟩

/-! ### casts -/

theorem asUsize_of_start {p : Int} (h : 0 ≤ p) {start : Nat} (hs : (start : Int) = p % 2 ^ 64) : asUsize p = start := by
  have e : asUsize p = (p % 2 ^ 64).toNat := rfl
  rw [e, ← hs]; rfl

theorem start_lt {p : Int} {start : Nat} (hs : (start : Int) = p % 2 ^ 64) : start < 2 ^ 64 := by
  have := Int.emod_lt_of_pos p (show (0 : Int) < 2 ^ 64 by decide)
  have e : ((2 ^ 64 : Nat) : Int) = 2 ^ 64 := rfl
  omega

/-- a cast at a position that is not negative -/
theorem castOp_eq (b : Build) (fs : Fs) (s : StructDef) (hs : s ∈ structs) (p : Int) (hp : 0 ≤ p) {start : Nat}
    (h : (start : Int) = p % 2 ^ 64) :
    castOp b (some fs) (.ident s.name) (.ok (.int p)) =
      (usizeAdd b start (castSpan s)).bind fun stop => (Fs.getBytes fs start stop).bind fun bytes =>
        (structFromBytes b s none bytes).bind fun sv => .ok (.struct sv.name sv.key sv.fields) := by
  have hsz : (if s.size = 0 then 1024 else s.size) = castSpan s := by
    simp only [StructDef.size, sizeSum_eq_widths]; rfl
  simp only [castOp, bind, Except.bind, Value.asInteger, if_neg (show ¬ (p < 0) by omega), asUsize_of_start hp h,
    findStruct_self s hs, hsz]

theorem castOp_name {b : Build} {fs : Option Fs} {name : Str} {p : Int} {v : Value}
    (h : castOp b fs (.ident name) (.ok (.int p)) = .ok v) :
    0 ≤ p ∧ (∃ x, fs = some x) ∧ ∃ s ∈ structs, s.name = name := by
  simp only [castOp, bind, Except.bind, Value.asInteger] at h
  by_cases hp : p < 0
  · rw [if_pos hp] at h; cases h
  · rw [if_neg hp] at h
    cases hf : findStruct name with
    | none => rw [hf] at h; cases h
    | some s =>
      cases fs with
      | none => rw [hf] at h; cases h
      | some x => exact ⟨by omega, ⟨x, rfl⟩, s, (findStruct_mem hf).1, (findStruct_mem hf).2⟩

theorem start_exists (p : Int) : ∃ start : Nat, (start : Int) = p % 2 ^ 64 :=
  ⟨(p % 2 ^ 64).toNat, Int.toNat_of_nonneg (Int.emod_nonneg _ (by decide))⟩

theorem bytesAt_short (img : Bytes) (p n : Nat) : (bytesAt img p n).length ≤ n := by
  simp only [bytesAt, List.length_take]; omega

theorem usizeAdd_fits (b : Build) {a c : Nat} (h : a + c < 2 ^ 64) : usizeAdd b a c = .ok (a + c) := by
  rw [usizeAdd, if_pos h]

theorem usizeAdd_wrap {b : Build} {a c : Nat} (h : 2 ^ 64 ≤ a + c) :
    usizeAdd b a c = if b.ovfChecks then R.panic else .ok ((a + c) % 2 ^ 64) := by
  rw [usizeAdd, if_neg (by omega)]

theorem wrapped_lt {a c : Nat} (ha : a < 2 ^ 64) (hc : c ≤ 1024) (h : 2 ^ 64 ≤ a + c) : (a + c) % 2 ^ 64 < a := by
  rw [Nat.mod_eq_sub_mod (by omega), Nat.mod_eq_of_lt (by omega)]
  omega

theorem cast_iff (b : Build) (fs : Option Fs) (name : Str) (p : Int) (v : Value) :
    castOp b fs (.ident name) (.ok (.int p)) = .ok v ↔ CastGives fs name p v := by
  constructor
  · intro h
    obtain ⟨hp, ⟨x, rfl⟩, s, hs, rfl⟩ := castOp_name h
    obtain ⟨start, hst⟩ := start_exists p
    have hlt := start_lt hst
    have hsp := castSpan_le s hs
    rw [castOp_eq b x s hs p hp hst] at h
    by_cases ho : start + castSpan s < 2 ^ 64
    · rw [usizeAdd_fits b ho] at h
      cases x with
      | mounted k => cases h
      | unmounted img =>
        simp only [Except.bind, Fs.getBytes] at h
        by_cases hr : start + castSpan s ≤ img.length
        · rw [if_pos ⟨by omega, hr⟩] at h
          simp only [Nat.add_sub_cancel_left] at h
          have e : (img.drop start).take (castSpan s) = bytesAt img start (castSpan s) := rfl
          rw [e] at h
          cases hf : structFromBytes b s none (bytesAt img start (castSpan s)) with
          | error e => rw [hf] at h; cases h
          | ok sv =>
            rw [hf] at h
            simp only [Except.ok.injEq] at h
            subst h
            have hlen := bytesAt_short img start (castSpan s)
            obtain ⟨h1, h2, h3⟩ := (read_iff b s hs none _ (by omega) sv).1 hf
            rw [h1, h2]
            exact .mk hs hp hst ho hr h3
        · rw [if_neg (fun g => hr g.2)] at h
          cases h
    · rw [usizeAdd_wrap (by omega)] at h
      cases hb : b.ovfChecks with
      | true => rw [hb] at h; cases h
      | false =>
        rw [hb] at h
        simp only [Bool.false_eq_true, if_false, Except.bind] at h
        have := wrapped_lt hlt hsp.2 (by omega : 2 ^ 64 ≤ start + castSpan s)
        cases x with
        | mounted k => cases h
        | unmounted img =>
          simp only [Fs.getBytes] at h
          rw [if_neg (fun g => by omega)] at h
          cases h
  · intro h
    cases h with
    | @mk img s p out start hs hp hst ho hr hra =>
      have hlen := bytesAt_short img start (castSpan s)
      have hsp := castSpan_le s hs
      rw [castOp_eq b _ s hs p hp hst, usizeAdd_fits b ho]
      simp only [Except.bind, Fs.getBytes]
      rw [if_pos ⟨by omega, hr⟩]
      simp only [Nat.add_sub_cancel_left]
      have e : (img.drop start).take (castSpan s) = bytesAt img start (castSpan s) := rfl
      rw [e, (read_iff b s hs none _ (by omega) ⟨s.name, none, out⟩).2 ⟨rfl, rfl, hra⟩]

theorem range_text (n : Nat) : (Err.bytesRange n).text = some (s!' "Index out of range, max length is " ++ numeral n) := by
  simp only [Err.text, natDisplay, numeral_nat]

theorem cast_fails_iff (b : Build) (fs : Fs) (name : Str) (p : Nat) (m : Option Str) :
    (∃ e, castOp b (some fs) (.ident name) (.ok (.int p)) = R.err e ∧ e.text = m) ↔
      CastFails (b.ovfChecks = false) fs name p m := by
  constructor
  · rintro ⟨e, h, rfl⟩
    have hname : ∃ s ∈ structs, s.name = name := by
      simp only [castOp, bind, Except.bind, Value.asInteger, if_neg (show ¬ ((p : Int) < 0) by omega)] at h
      cases hf : findStruct name with
      | none => rw [hf] at h; cases h
      | some s => exact ⟨s, (findStruct_mem hf).1, (findStruct_mem hf).2⟩
    obtain ⟨s, hs, rfl⟩ := hname
    have hst : ((p % 2 ^ 64 : Nat) : Int) = (p : Int) % 2 ^ 64 := by exact_mod_cast rfl
    generalize hse : p % 2 ^ 64 = start at hst
    have hlt := start_lt hst
    have hsp := castSpan_le s hs
    rw [castOp_eq b fs s hs p (by omega) hst] at h
    by_cases ho : start + castSpan s < 2 ^ 64
    · rw [usizeAdd_fits b ho] at h
      cases fs with
      | mounted k => cases h; exact .mounted hs hse.symm (.inl ho)
      | unmounted img =>
        simp only [Except.bind, Fs.getBytes] at h
        by_cases hr : start + castSpan s ≤ img.length
        · rw [if_pos ⟨by omega, hr⟩] at h
          simp only [Nat.add_sub_cancel_left] at h
          have e : (img.drop start).take (castSpan s) = bytesAt img start (castSpan s) := rfl
          rw [e] at h
          cases hf : structFromBytes b s none (bytesAt img start (castSpan s)) with
          | ok sv => rw [hf] at h; cases h
          | error e' =>
            rw [hf] at h
            simp only [Except.error.injEq] at h
            subst h
            have hlen := bytesAt_short img start (castSpan s)
            obtain ⟨t, h1, h2⟩ := read_fails b s hs none _ (by omega) _ hf
            rw [h1]
            exact .unreadable hs hse.symm ho hr h2
        · rw [if_neg (fun g => hr g.2)] at h
          cases h
          rw [range_text]
          exact .range hs hse.symm (.inl ⟨ho, by omega⟩)
    · rw [usizeAdd_wrap (by omega)] at h
      cases hb : b.ovfChecks with
      | true => rw [hb] at h; cases h
      | false =>
        rw [hb] at h
        simp only [Bool.false_eq_true, if_false, Except.bind] at h
        have := wrapped_lt hlt hsp.2 (by omega : 2 ^ 64 ≤ start + castSpan s)
        cases fs with
        | mounted k => cases h; exact .mounted hs hse.symm (.inr rfl)
        | unmounted img =>
          simp only [Fs.getBytes] at h
          rw [if_neg (fun g => by omega)] at h
          cases h
          rw [range_text]
          exact .range hs hse.symm (.inr ⟨by omega, rfl⟩)
  · intro h
    have hst : ((p % 2 ^ 64 : Nat) : Int) = (p : Int) % 2 ^ 64 := by exact_mod_cast rfl
    cases h with
    | @mounted k s p start hs hse ho =>
      rw [← hse] at hst
      refine ⟨.bytesMounted, ?_, rfl⟩
      rw [castOp_eq b _ s hs p (by omega) hst]
      by_cases h1 : start + castSpan s < 2 ^ 64
      · rw [usizeAdd_fits b h1]; rfl
      · have hw : b.ovfChecks = false := ho.resolve_left h1
        rw [usizeAdd_wrap (by omega), hw]; rfl
    | @range img s p start hs hse ho =>
      rw [← hse] at hst
      refine ⟨.bytesRange img.length, ?_, range_text _⟩
      have hlt := start_lt hst
      have hsp := castSpan_le s hs
      rw [castOp_eq b _ s hs p (by omega) hst]
      rcases ho with ⟨h1, h2⟩ | ⟨h1, hw⟩
      · rw [usizeAdd_fits b h1]
        simp only [Except.bind, Fs.getBytes]
        rw [if_neg (fun g => by omega)]
      · have := wrapped_lt hlt hsp.2 h1
        rw [usizeAdd_wrap h1, hw]
        simp only [Bool.false_eq_true, if_false, Except.bind, Fs.getBytes]
        rw [if_neg (fun g => by omega)]
    | @unreadable img s p t start hs hse ho hr hu =>
      rw [← hse] at hst
      have hsp := castSpan_le s hs
      have hlen := bytesAt_short img start (castSpan s)
      obtain ⟨e, h1, h2⟩ := fails_read b s hs none _ (by omega) _ hu
      refine ⟨e, ?_, h2⟩
      rw [castOp_eq b _ s hs p (by omega) hst, usizeAdd_fits b ho]
      simp only [Except.bind, Fs.getBytes]
      rw [if_pos ⟨by omega, hr⟩]
      simp only [Nat.add_sub_cancel_left]
      have e' : (img.drop start).take (castSpan s) = bytesAt img start (castSpan s) := rfl
      rw [e', h1]

end Btrd
