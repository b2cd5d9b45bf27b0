/-
How the lexical rules of the grammar read blanks, words, numbers and string literals.
-/
import Verif.Lemmas.ParserFuel
import Verif.Spec.Grammar
import Verif.Spec.Ints
import Verif.Lemmas.Arith

namespace Btrd
open P Spec

/-! ### characters -/

theorem isSpaceChar_iff (c : Char) : isSpaceChar c = true ↔ c = ' ' ∨ c = '\t' ∨ c = '\r' ∨ c = '\n' := by
  simp [isSpaceChar, or_assoc]

theorem isIdentStart_iff (c : Char) : isIdentStart c = true ↔ Letter c := by
  simp [isIdentStart, Letter, or_assoc]

theorem isDigitChar_iff (c : Char) : isDigitChar c = true ↔ '0' ≤ c ∧ c ≤ '9' := by
  simp [isDigitChar]

theorem isIdentChar_iff (c : Char) : isIdentChar c = true ↔ WordChar c := by
  simp [isIdentChar, WordChar, isIdentStart_iff, isDigitChar_iff]

/-- the head of `r`, if there is one, fails the test -/
def NoHead (f : Char → Bool) (r : Str) : Prop := ∀ c, r.head? = some c → f c = false

theorem noHead_nil (f : Char → Bool) : NoHead f [] := by intro c h; simp at h

theorem noHead_cons {f : Char → Bool} {c : Char} {r : Str} : NoHead f (c :: r) ↔ f c = false := by
  constructor
  · intro h; exact h c rfl
  · intro h d hd
    simp only [List.head?_cons, Option.some.injEq] at hd
    rw [← hd]; exact h

theorem many_isA {f : Char → Bool} : ∀ {w r : Str}, (∀ c ∈ w, f c = true) → NoHead f r →
    many (isA f) (w ++ r) = some (w, r)
  | [], r, _, hr => by
    refine many_none ?_
    cases r with
    | nil => rfl
    | cons c r => simp only [List.nil_append, isA, noHead_cons.1 hr, Bool.false_eq_true, if_false]
  | c :: w, r, hw, hr => by
    have h1 : isA f (c :: w ++ r) = some (c, w ++ r) := by
      simp only [List.cons_append, isA, hw c (by simp), if_true]
    rw [many_some (isA_eats f) h1, many_isA (fun d hd => hw d (by simp [hd])) hr]

theorem space_blank {w r : Str} (hw : Blank w) (hr : NoHead isSpaceChar r) : space (w ++ r) = some ((), r) := by
  simp only [space, map]
  rw [many_isA (fun c hc => (isSpaceChar_iff c).2 (hw c hc)) hr]

theorem space_none {r : Str} (hr : NoHead isSpaceChar r) : space r = some ((), r) :=
  space_blank (w := []) (by intro c hc; simp at hc) hr

theorem blank_nil : Blank [] := by intro c hc; simp at hc

theorem blank_append {a b : Str} (ha : Blank a) (hb : Blank b) : Blank (a ++ b) := by
  intro c hc
  rcases List.mem_append.1 hc with h | h
  · exact ha c h
  · exact hb c h

theorem tag_append (t r : Str) : tag t (t ++ r) = some ((), r) := by
  induction t with
  | nil => rfl
  | cons c t ih => simp only [List.cons_append, tag, if_true, ih]

theorem sym_cons (c : Char) (r : Str) : sym c (c :: r) = some (c, r) := by simp [sym, isA]

theorem sym_ne {c d : Char} {r : Str} (h : d ≠ c) : sym c (d :: r) = none := by simp [sym, isA, h]

theorem tag_ne {c d : Char} {t r : Str} (h : d ≠ c) : tag (c :: t) (d :: r) = none := by simp [tag, h]

theorem tag_none_of {t s : Str} (h : ¬ t <+: s) : tag t s = none := by
  cases hs : tag t s with
  | none => rfl
  | some r =>
    exfalso; apply h
    exact ⟨r.2, (tag_inv t s r.1 r.2 (by rw [hs])).symm⟩

/-! ### words -/

theorem ident_name {x r : Str} (hx : Name x) (hr : NoHead isIdentChar r) : ident (x ++ r) = some (.ident x, r) := by
  obtain ⟨c, cs, rfl, hc, hcs⟩ := hx
  have h1 : isA isIdentStart (c :: (cs ++ r)) = some (c, cs ++ r) := by
    simp only [isA, (isIdentStart_iff c).2 hc, if_true]
  simp only [ident, map, seq, List.cons_append, h1]
  rw [many_isA (fun d hd => (isIdentChar_iff d).2 (hcs d hd)) hr]

theorem ident_none {r : Str} (hr : NoHead isIdentStart r) : ident r = none := by
  cases r with
  | nil => rfl
  | cons c r =>
    simp only [ident, map, seq, isA, noHead_cons.1 hr, Bool.false_eq_true, if_false]

theorem letter_not_space {c : Char} (h : Letter c) : isSpaceChar c = false := by
  rw [Bool.eq_false_iff]
  intro hs
  rw [isSpaceChar_iff] at hs
  rcases hs with rfl | rfl | rfl | rfl <;> revert h <;> unfold Letter <;> decide

theorem word_not_space {c : Char} (h : WordChar c) : isSpaceChar c = false := by
  rw [Bool.eq_false_iff]
  intro hs
  rw [isSpaceChar_iff] at hs
  rcases hs with rfl | rfl | rfl | rfl <;> revert h <;> unfold WordChar Letter <;> decide

theorem letter_not_digit {c : Char} (h : Letter c) : isDigitChar c = false := by
  rw [Bool.eq_false_iff]
  intro hs
  rw [isDigitChar_iff] at hs
  unfold Letter at h
  have h0 : '0'.val.toNat = 48 := rfl
  have h9 : '9'.val.toNat = 57 := rfl
  have ha : 'a'.val.toNat = 97 := rfl
  have hA : 'A'.val.toNat = 65 := rfl
  simp only [Char.le_def, UInt32.le_iff_toNat_le] at hs h
  rcases h with h | h | h
  · omega
  · omega
  · subst h
    have : '_'.val.toNat = 95 := rfl
    omega

/-! ### numbers -/

theorem integer_numeral {ds r : Str} (h : Numeral ds) (hr : NoHead isDigitChar r) :
    integer (ds ++ r) = some (ds, r) := by
  obtain ⟨hne, hd, hz⟩ := h
  cases ds with
  | nil => exact absurd rfl hne
  | cons c cs =>
    simp only [List.mem_cons, forall_eq_or_imp] at hd
    by_cases hc : c = '0'
    · subst hc
      have := hz rfl
      simp only [List.cons.injEq, true_and] at this
      subst this
      have h1 : isA (fun c => isDigitChar c && c != '0') ('0' :: r) = none := by simp [isA]
      simp only [integer, alt, map, seq, List.cons_append, List.nil_append, h1, sym_cons]
    · have h1 : isA (fun c => isDigitChar c && c != '0') (c :: (cs ++ r)) = some (c, cs ++ r) := by
        simp only [isA, (isDigitChar_iff c).2 hd.1, Bool.true_and, bne_iff_ne, ne_eq, hc, not_false_eq_true, if_true]
      simp only [integer, alt, map, seq, List.cons_append, h1]
      rw [many_isA (fun d h => (isDigitChar_iff d).2 (hd.2 d h)) hr]

theorem integer_none {r : Str} (hr : NoHead isDigitChar r) : integer r = none := by
  cases r with
  | nil => rfl
  | cons c r =>
    have hc := noHead_cons.1 hr
    have h0 : c ≠ '0' := by rintro rfl; simp [isDigitChar] at hc
    have h1 : isA (fun c => isDigitChar c && c != '0') (c :: r) = none := by simp [isA, hc]
    simp only [integer, alt, map, seq, h1, sym_ne h0]

theorem digit_ne_minus {c : Char} (h : '0' ≤ c ∧ c ≤ '9') : c ≠ '-' := by
  rintro rfl; revert h; decide

/-- what the parser makes of a numeral: its value if it fits, otherwise a failure -/
theorem number_numeral {ds r : Str} (h : Numeral ds) (hr : NoHead isDigitChar r) :
    number (ds ++ r) = if (digitsVal ds : Int) < 2 ^ 127 then some ((digitsVal ds : Int), r) else none := by
  have hm : opt (sym '-') (ds ++ r) = some (none, ds ++ r) := by
    obtain ⟨hne, hd, _⟩ := h
    cases ds with
    | nil => exact absurd rfl hne
    | cons c cs =>
      have := digit_ne_minus (hd c (by simp))
      simp only [List.cons_append, opt, sym_ne this]
  simp only [number, convert, seq, hm, integer_numeral h hr, i128FromParts, Option.isSome_none,
    Bool.false_eq_true, if_false]
  by_cases hf : (digitsVal ds : Int) < 2 ^ 127
  · have h2 : inI128 (digitsVal ds : Int) = true := by
      rw [inI128_iff]
      exact ⟨by omega, hf⟩
    rw [if_pos h2, if_pos hf]
  · have h2 : ¬ inI128 (digitsVal ds : Int) = true := by
      rw [inI128_iff]
      rintro ⟨_, h3⟩
      exact hf h3
    rw [if_neg h2, if_neg hf]

theorem number_none {r : Str} (h1 : NoHead isDigitChar r) (h2 : NoHead (· == '-') r) : number r = none := by
  have hm : opt (sym '-') r = some (none, r) := by
    cases r with
    | nil => rfl
    | cons c cs =>
      have := noHead_cons.1 h2
      simp only [beq_eq_false_iff_ne] at this
      simp only [opt, sym_ne this]
  simp only [number, convert, seq, hm, integer_none h1]

theorem digitsVal_toDigits (n : Nat) : digitsVal (Nat.toDigits 10 n) = n := by
  have h := Nat.ofDigitChars_ten_toDigits (n := n)
  rw [Nat.ofDigitChars_eq_foldl] at h
  rw [digitsVal]
  have h2 : (fun (acc : Nat) (c : Char) => acc * 10 + (c.toNat - '0'.toNat)) =
      (fun acc c => 10 * acc + (c.toNat - '0'.toNat)) := by
    funext a c; rw [Nat.mul_comm]
  rw [h2]; exact h

theorem digit_of_isDigit {c : Char} (h : c.isDigit = true) : '0' ≤ c ∧ c ≤ '9' := by
  simp only [Char.isDigit, ge_iff_le, Bool.and_eq_true, decide_eq_true_eq] at h
  exact ⟨h.1, h.2⟩

theorem toDigits_head_ne (n : Nat) (hn : 0 < n) : (Nat.toDigits 10 n).head? ≠ some '0' := by
  induction n using Nat.strongRecOn with
  | ind n ih =>
    by_cases h : n < 10
    · rw [Nat.toDigits_of_lt_base h]
      have : n = 1 ∨ n = 2 ∨ n = 3 ∨ n = 4 ∨ n = 5 ∨ n = 6 ∨ n = 7 ∨ n = 8 ∨ n = 9 := by omega
      rcases this with rfl | rfl | rfl | rfl | rfl | rfl | rfl | rfl | rfl <;> decide
    · rw [Nat.toDigits_of_base_le (by decide) (by omega)]
      have h2 := ih (n / 10) (by omega) (by omega)
      have h3 : Nat.toDigits 10 (n / 10) ≠ [] := Nat.toDigits_ne_nil
      cases hd : Nat.toDigits 10 (n / 10) with
      | nil => exact absurd hd h3
      | cons c cs => rw [hd] at h2; simpa using h2

theorem numeral_toDigits (n : Nat) : Numeral (Nat.toDigits 10 n) := by
  refine ⟨Nat.toDigits_ne_nil, ?_, ?_⟩
  · intro c hc
    exact digit_of_isDigit (Nat.isDigit_of_mem_toDigits (by decide) (by decide) hc)
  · intro h
    rcases Nat.eq_zero_or_pos n with rfl | hp
    · exact Nat.toDigits_zero _
    · exact absurd h (toDigits_head_ne n hp)

/-! ### string literals -/

/-- the characters of `char_string`: raw, or a backslash and a letter -/
theorem stringChar_quoted (c : Char) (r : Str) :
    alt (isA (fun c => !(c == '\\' || c == '"'))) escapeSequence (quotedChar c ++ r) = some (c, r) := by
  unfold quotedChar
  split
  · rename_i h; subst h; rfl
  split
  · rename_i h; subst h; rfl
  split
  · rename_i h; subst h; rfl
  split
  · rename_i h; subst h; rfl
  split
  · rename_i h; subst h; rfl
  split
  · rename_i h
    have : c = '\x08' := Char.toNat_inj.1 h
    subst this; rfl
  split
  · rename_i h
    have : c = '\x0C' := Char.toNat_inj.1 h
    subst this; rfl
  · rename_i h1 h2 _ _ _ _ _
    have h3 : (!(c == '\\' || c == '"')) = true := by simp [h1, h2]
    simp only [List.cons_append, List.nil_append, alt, isA, h3, if_true]

theorem stringChar_quote (r : Str) :
    alt (isA (fun c => !(c == '\\' || c == '"'))) escapeSequence ('"' :: r) = none := by
  simp [alt, isA, escapeSequence, seqR, sym]

theorem many_stringChar (s r : Str) :
    many (alt (isA (fun c => !(c == '\\' || c == '"'))) escapeSequence) (s.flatMap quotedChar ++ '"' :: r) =
      some (s, '"' :: r) := by
  induction s with
  | nil => exact many_none (stringChar_quote r)
  | cons c s ih =>
    have h1 := stringChar_quoted c (s.flatMap quotedChar ++ '"' :: r)
    rw [List.flatMap_cons, List.append_assoc, many_some stringChar_eats h1, ih]

theorem stringPart_quote (r : Str) : alt charString utf16String ('"' :: r) = none := by
  have h1 : charString ('"' :: r) = none := by
    simp only [charString, many1, many_none (stringChar_quote r)]
  have h2 : utf16String ('"' :: r) = none := by
    have h3 : utf16Char ('"' :: r) = none := by simp [utf16Char, seqR, tag]
    simp only [utf16String, map, many1, many_none h3]
  simp only [alt, h1, h2]

theorem stringLit_quoted (s r : Str) : stringLit (quoted s ++ r) = some (s, r) := by
  have h0 : quoted s ++ r = '"' :: (s.flatMap quotedChar ++ '"' :: r) := by simp [quoted]
  rw [h0]
  cases s with
  | nil =>
    simp only [stringLit, map, seqL, seqR, sym_cons, List.flatMap_nil, List.nil_append,
      many_none (stringPart_quote r), List.flatten_nil]
  | cons c s =>
    have h1 : charString ((c :: s).flatMap quotedChar ++ '"' :: r) = some (c :: s, '"' :: r) := by
      simp only [charString, many1, many_stringChar]
    have h2 : alt charString utf16String ((c :: s).flatMap quotedChar ++ '"' :: r) = some (c :: s, '"' :: r) := by
      simp only [alt, h1]
    simp only [stringLit, map, seqL, seqR, sym_cons]
    rw [many_some stringPart_eats h2, many_none (stringPart_quote r)]
    simp only [sym_cons, List.flatten_cons, List.flatten_nil, List.append_nil]

theorem string_quoted (s r : Str) : string (quoted s ++ r) = some (.str s, r) := by
  simp only [string, map, stringLit_quoted]

theorem string_none {r : Str} (h : NoHead (· == '"') r) : string r = none := by
  have h1 : sym '"' r = none := by
    cases r with
    | nil => rfl
    | cons c r =>
      have := noHead_cons.1 h
      simp only [beq_eq_false_iff_ne] at this
      exact sym_ne this
  simp only [string, stringLit, map, seqL, seqR, h1]

end Btrd
