/-
String literals in every spelling: raw characters, escapes and UTF-16 units.
-/
import Verif.Lemmas.Lexing

namespace Btrd
open P Spec

/-- one character of `char_string` -/
def litChar : P Char := alt (isA (fun c => !(c == '\\' || c == '"'))) escapeSequence

theorem hexVal_digit {d : Nat} {c : Char} (h : HexDigit d c) : hexVal c = some d := by
  have h0 : '0'.toNat = 48 := rfl
  have ha : 'a'.toNat = 97 := rfl
  have hA : 'A'.toNat = 65 := rfl
  have e0 : '0'.val.toNat = 48 := rfl
  have e9 : '9'.val.toNat = 57 := rfl
  have ea : 'a'.val.toNat = 97 := rfl
  have ef : 'f'.val.toNat = 102 := rfl
  have eA : 'A'.val.toNat = 65 := rfl
  have eF : 'F'.val.toNat = 70 := rfl
  have hc : c.toNat = c.val.toNat := rfl
  unfold hexVal
  simp only [Char.le_def, UInt32.le_iff_toNat_le, e0, e9, ea, ef, eA, eF, h0, ha, hA]
  rw [← hc]
  rcases h with ⟨h1, h2⟩ | ⟨h1, h2, h3 | h3⟩
  · rw [if_pos (by omega), h2]; congr 1; omega
  · rw [if_neg (by omega), if_pos (by omega), h3]; congr 1; omega
  · rw [if_neg (by omega), if_neg (by omega), if_pos (by omega), h3]; congr 1; omega

theorem hexDigit_lt {d : Nat} {c : Char} (h : HexDigit d c) : d < 16 := by
  rcases h with ⟨h1, _⟩ | ⟨_, h2, _⟩ <;> omega

/-- a unit is read -/
theorem utf16Char_unit {u : Nat} {t : Str} (h : UnitText u t) (r : Str) : utf16Char (t ++ r) = some (u, r) := by
  obtain ⟨d₁, d₂, d₃, d₄, c₁, c₂, c₃, c₄, h1, h2, h3, h4, rfl, rfl⟩ := h
  have e1 := hexVal_digit h1
  have e2 := hexVal_digit h2
  have e3 := hexVal_digit h3
  have e4 := hexVal_digit h4
  have l1 := hexDigit_lt h1
  have l2 := hexDigit_lt h2
  have l3 := hexDigit_lt h3
  have l4 := hexDigit_lt h4
  have ht : tag s!' "\\u" ('\\' :: 'u' :: c₁ :: c₂ :: c₃ :: c₄ :: r) = some ((), c₁ :: c₂ :: c₃ :: c₄ :: r) :=
    tag_append ['\\', 'u'] _
  have hv : fromHex [c₁, c₂, c₃, c₄] = some (d₁ * 4096 + d₂ * 256 + d₃ * 16 + d₄) := by
    simp only [fromHex, List.foldl, e1, e2, e3, e4, Option.getD_some]
    rw [if_pos (by omega)]; congr 1; omega
  simp only [List.cons_append, List.nil_append, utf16Char, seqR, ht, convert, times, isA, e1, e2, e3, e4,
    Option.isSome_some, if_true, hv]

theorem litChar_unit {u : Nat} {t : Str} (h : UnitText u t) (r : Str) : litChar (t ++ r) = none := by
  obtain ⟨d₁, d₂, d₃, d₄, c₁, c₂, c₃, c₄, h1, h2, h3, h4, rfl, rfl⟩ := h
  simp [litChar, alt, isA, escapeSequence, specialChar, seqR, sym, map]

theorem litChar_eats : Eats litChar := stringChar_eats

theorem litChar_quote (r : Str) : litChar ('"' :: r) = none := stringChar_quote r

theorem utf16Char_quote (r : Str) : utf16Char ('"' :: r) = none := by simp [utf16Char, seqR, tag]

/-- a raw character or an escape -/
def LitPlain (c : Char) (sp : Str) : Prop := ∀ r, litChar (sp ++ r) = some (c, r) ∧ utf16Char (sp ++ r) = none

/-- a character written with UTF-16 units -/
def LitCoded (c : Char) (sp : Str) : Prop := ∃ us, us ≠ [] ∧ us = utf16 c ∧
  ∀ r, litChar (sp ++ r) = none ∧ many utf16Char (sp ++ r) = match many utf16Char r with
    | some (vs, r') => some (us ++ vs, r')
    | none => none

theorem spelling_kind {c : Char} {sp : Str} (h : Spelling c sp) : LitPlain c sp ∨ LitCoded c sp := by
  cases h with
  | raw _ h1 h2 =>
    left
    intro r
    have h3 : (!(c == '\\' || c == '"')) = true := by simp [h1, h2]
    refine ⟨by simp only [List.cons_append, List.nil_append, litChar, alt, isA, h3, if_true], ?_⟩
    have ht : tag s!' "\\u" (c :: ([] ++ r)) = none := tag_ne h2
    simp only [List.cons_append, utf16Char, seqR, ht]
  | escape e _ h =>
    left
    intro r
    simp only [List.mem_cons, Prod.mk.injEq, List.not_mem_nil, or_false] at h
    rcases h with ⟨rfl, rfl⟩ | ⟨rfl, rfl⟩ | ⟨rfl, rfl⟩ | ⟨rfl, rfl⟩ | ⟨rfl, rfl⟩ | ⟨rfl, rfl⟩ | ⟨rfl, rfl⟩ | ⟨rfl, rfl⟩ <;>
      exact ⟨rfl, rfl⟩
  | unit _ u t h1 h2 =>
    right
    refine ⟨[u], by simp, h1.symm, fun r => ⟨litChar_unit h2 r, ?_⟩⟩
    rw [many_some utf16Char_eats (utf16Char_unit h2 r)]
    obtain ⟨⟨vs, r'⟩, hr⟩ := many_total utf16Char r
    rw [hr]; rfl
  | pair _ u v t t' h1 h2 h3 =>
    right
    refine ⟨[u, v], by simp, h1.symm, fun r => ⟨?_, ?_⟩⟩
    · rw [List.append_assoc]; exact litChar_unit h2 _
    · rw [List.append_assoc, many_some utf16Char_eats (utf16Char_unit h2 _), many_some utf16Char_eats (utf16Char_unit h3 r)]
      obtain ⟨⟨vs, r'⟩, hr⟩ := many_total utf16Char r
      rw [hr]; rfl

theorem char_bounds (c : Char) : c.toNat < 0xD800 ∨ (0xDFFF < c.toNat ∧ c.toNat < 0x110000) := by
  have := c.valid
  simp only [UInt32.isValidChar, Nat.isValidChar] at this
  exact this

theorem char_ofNat (c : Char) : Char.ofNat c.toNat = c := by
  simp

/-- the units of a text decode to it, whatever follows -/
theorem decode_utf16 (c : Char) (us : List Nat) : decodeUtf16 (utf16 c ++ us) = c :: decodeUtf16 us := by
  have hb := char_bounds c
  unfold utf16
  split
  · rw [List.cons_append, decodeUtf16.eq_def]
    simp only
    rw [if_pos (by omega), char_ofNat]; rfl
  · rw [List.cons_append, decodeUtf16.eq_def]
    simp only
    rw [if_neg (by omega), if_neg (by omega)]
    simp only [List.cons_append, List.nil_append]
    rw [if_neg (by omega)]
    refine congrArg (· :: decodeUtf16 us) ?_
    have : (0xD800 + (c.toNat - 0x10000) / 1024 - 0xD800) * 1024 + (0xDC00 + (c.toNat - 0x10000) % 1024 - 0xDC00) + 0x10000
        = c.toNat := by omega
    rw [this, char_ofNat]

/-- the parts of a literal: everything up to the closing quote -/
def ReadsLit (s t : Str) : Prop := ∀ r, ∃ gs, many (alt charString utf16String) (t ++ '"' :: r) = some (gs, '"' :: r) ∧ gs.flatten = s

/-- a run of raw characters and escapes -/
theorem run_plain : ∀ {s t : Str}, Spelled s t → ∃ s1 t1 s2 t2, s = s1 ++ s2 ∧ t = t1 ++ t2 ∧ Spelled s2 t2 ∧
    (∀ r, many litChar (t1 ++ (t2 ++ '"' :: r)) = some (s1, t2 ++ '"' :: r)) ∧ s1.length + s2.length = s.length
  | _, _, .nil => ⟨[], [], [], [], rfl, rfl, .nil, fun r => many_none (litChar_quote r), rfl⟩
  | _, _, .cons c s sp t h hs => by
    rcases spelling_kind h with hk | ⟨us, _, _, hk⟩
    · obtain ⟨s1, t1, s2, t2, rfl, rfl, h3, h4, h5⟩ := run_plain hs
      refine ⟨c :: s1, sp ++ t1, s2, t2, rfl, by simp, h3, fun r => ?_, by simp at h5 ⊢; omega⟩
      rw [List.append_assoc, many_some litChar_eats (hk _).1, h4 r]
    · refine ⟨[], [], c :: s, sp ++ t, rfl, rfl, .cons c s sp t h hs, fun r => ?_, by simp⟩
      refine many_none ?_
      rw [List.nil_append, List.append_assoc]; exact (hk _).1

/-- a run of units -/
theorem run_coded : ∀ {s t : Str}, Spelled s t → ∃ us s1 t1 s2 t2, s = s1 ++ s2 ∧ t = t1 ++ t2 ∧ Spelled s2 t2 ∧
    (∀ r, many utf16Char (t1 ++ (t2 ++ '"' :: r)) = some (us, t2 ++ '"' :: r)) ∧ decodeUtf16 us = s1
  | _, _, .nil => ⟨[], [], [], [], [], rfl, rfl, .nil, fun r => many_none (utf16Char_quote r), by simp [decodeUtf16]⟩
  | _, _, .cons c s sp t h hs => by
    rcases spelling_kind h with hk | ⟨vs, _, hv, hk⟩
    · refine ⟨[], [], [], c :: s, sp ++ t, rfl, rfl, .cons c s sp t h hs, fun r => ?_, by simp [decodeUtf16]⟩
      refine many_none ?_
      rw [List.nil_append, List.append_assoc]; exact (hk _).2
    · obtain ⟨us, s1, t1, s2, t2, rfl, rfl, h3, h4, h5⟩ := run_coded hs
      refine ⟨vs ++ us, c :: s1, sp ++ t1, s2, t2, rfl, by simp, h3, fun r => ?_, ?_⟩
      · rw [List.append_assoc, (hk _).2, h4 r]
      · rw [hv, decode_utf16, h5]

theorem readsLit : ∀ (n : Nat) {s t : Str}, s.length ≤ n → Spelled s t → ReadsLit s t
  | 0, s, t, hn, h => by
    have : s = [] := by cases s <;> simp at hn ⊢
    subst this
    cases h
    intro r
    exact ⟨[], many_none (stringPart_quote r), rfl⟩
  | n + 1, s, t, hn, h => by
    cases h with
    | nil => intro r; exact ⟨[], many_none (stringPart_quote r), rfl⟩
    | cons c s sp t h hs =>
      simp only [List.length_cons, Nat.add_le_add_iff_right] at hn
      rcases spelling_kind h with hk | ⟨us, hne, hv, hk⟩
      · obtain ⟨s1, t1, s2, t2, rfl, rfl, h3, h4, h5⟩ := run_plain hs
        intro r
        obtain ⟨gs, hg, hf⟩ := readsLit n (by simp at hn; omega) h3 r
        refine ⟨(c :: s1) :: gs, ?_, by simp [hf]⟩
        have e1 : charString (sp ++ (t1 ++ (t2 ++ '"' :: r))) = some (c :: s1, t2 ++ '"' :: r) := by
          have : many litChar (sp ++ (t1 ++ (t2 ++ '"' :: r))) = some (c :: s1, t2 ++ '"' :: r) := by
            rw [many_some litChar_eats (hk _).1, h4 r]
          rw [litChar] at this
          simp only [charString, many1, this]
        have e2 : alt charString utf16String (sp ++ (t1 ++ (t2 ++ '"' :: r))) = some (c :: s1, t2 ++ '"' :: r) := by
          simp only [alt, e1]
        have hsh : sp ++ (t1 ++ t2) ++ '"' :: r = sp ++ (t1 ++ (t2 ++ '"' :: r)) := by simp
        rw [hsh, many_some stringPart_eats e2, hg]
      · obtain ⟨ws, s1, t1, s2, t2, rfl, rfl, h3, h4, h5⟩ := run_coded hs
        intro r
        obtain ⟨gs, hg, hf⟩ := readsLit n (by simp at hn; omega) h3 r
        refine ⟨(c :: s1) :: gs, ?_, by simp [hf]⟩
        have hl := (hk (t1 ++ (t2 ++ '"' :: r))).1
        rw [litChar] at hl
        have e0 : charString (sp ++ (t1 ++ (t2 ++ '"' :: r))) = none := by
          simp only [charString, many1, many_none hl]
        have e1 : utf16String (sp ++ (t1 ++ (t2 ++ '"' :: r))) = some (c :: s1, t2 ++ '"' :: r) := by
          have h6 : many utf16Char (sp ++ (t1 ++ (t2 ++ '"' :: r))) = some (us ++ ws, t2 ++ '"' :: r) := by
            rw [(hk _).2, h4 r]
          have h7 : decodeUtf16 (us ++ ws) = c :: s1 := by rw [hv, decode_utf16, h5]
          rw [← h7]
          cases us with
          | nil => exact absurd rfl hne
          | cons u us =>
            simp only [utf16String, map, many1, h6, List.cons_append]
        have e2 : alt charString utf16String (sp ++ (t1 ++ (t2 ++ '"' :: r))) = some (c :: s1, t2 ++ '"' :: r) := by
          simp only [alt, e0, e1]
        have hsh : sp ++ (t1 ++ t2) ++ '"' :: r = sp ++ (t1 ++ (t2 ++ '"' :: r)) := by simp
        rw [hsh, many_some stringPart_eats e2, hg]

/-- a literal in any spelling -/
theorem stringLit_spelled {s t : Str} (h : Spelled s t) (r : Str) : stringLit ('"' :: (t ++ '"' :: r)) = some (s, r) := by
  obtain ⟨gs, h1, h2⟩ := readsLit s.length (Nat.le_refl _) h r
  simp only [stringLit, map, seqL, seqR, sym_cons, h1, h2]

end Btrd
