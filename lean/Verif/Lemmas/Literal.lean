/-
Lexical rules read backwards, and string literals in every spelling.
-/
import Verif.Lemmas.Spelling
import Verif.Spec.Accept

namespace Btrd
open P Spec

/-! ### lexical rules -/

theorem isA_inv {f : Char → Bool} {s : Str} {c : Char} {s' : Str} (h : isA f s = some (c, s')) : s = c :: s' ∧ f c = true := by
  cases s with
  | nil => simp [isA] at h
  | cons d s =>
    simp only [isA] at h
    split at h
    · rename_i hf
      simp only [Option.some.injEq, Prod.mk.injEq] at h
      obtain ⟨rfl, rfl⟩ := h
      exact ⟨rfl, hf⟩
    · simp at h

theorem sym_inv {d : Char} {s : Str} {c : Char} {s' : Str} (h : sym d s = some (c, s')) : s = d :: s' := by
  obtain ⟨h1, h2⟩ := isA_inv h
  simp only [beq_iff_eq] at h2
  rw [h1, h2]

theorem many_isA_inv {f : Char → Bool} {s w s' : Str} (h : many (isA f) s = some (w, s')) :
    s = w ++ s' ∧ (∀ c ∈ w, f c = true) ∧ NoHead f s' := by
  induction s generalizing w s' with
  | nil =>
    rw [many_none (by rfl)] at h
    simp only [Option.some.injEq, Prod.mk.injEq] at h
    obtain ⟨rfl, rfl⟩ := h
    exact ⟨rfl, by simp, noHead_nil _⟩
  | cons c s ih =>
    by_cases hc : f c = true
    · have h1 : isA f (c :: s) = some (c, s) := by simp only [isA, hc, if_true]
      rw [many_some (isA_eats f) h1] at h
      obtain ⟨⟨w2, s2⟩, hr⟩ := many_total (isA f) s
      rw [hr] at h
      simp only [Option.some.injEq, Prod.mk.injEq] at h
      obtain ⟨rfl, rfl⟩ := h
      obtain ⟨e1, e2, e3⟩ := ih hr
      refine ⟨by rw [e1]; rfl, ?_, e3⟩
      intro d hd
      rcases List.mem_cons.1 hd with rfl | hd
      · exact hc
      · exact e2 d hd
    · have h1 : isA f (c :: s) = none := by simp only [isA, hc]; rfl
      rw [many_none h1] at h
      simp only [Option.some.injEq, Prod.mk.injEq] at h
      obtain ⟨rfl, rfl⟩ := h
      exact ⟨rfl, by simp, noHead_cons.2 (by simpa using hc)⟩

theorem space_stops {s s' : Str} {u : Unit} (h : space s = some (u, s')) :
    ∃ w, Blank w ∧ s = w ++ s' ∧ NoHead isSpaceChar s' := by
  obtain ⟨w, hw, -⟩ := map_some h
  obtain ⟨h1, h2, h3⟩ := many_isA_inv hw
  exact ⟨w, fun c hc => (isSpaceChar_iff c).1 (h2 c hc), h1, h3⟩

theorem ident_inv {s s' : Str} {e : Expr} (h : ident s = some (e, s')) :
    ∃ x, e = .ident x ∧ Name x ∧ s = x ++ s' ∧ NoHead isIdentChar s' := by
  obtain ⟨⟨c, cs⟩, hh, rfl⟩ := map_some h
  obtain ⟨s1, h1, h2⟩ := seq_some hh
  obtain ⟨rfl, hc⟩ := isA_inv h1
  obtain ⟨rfl, h3, h4⟩ := many_isA_inv h2
  exact ⟨_, rfl, ⟨c, cs, rfl, (isIdentStart_iff c).1 hc, fun d hd => (isIdentChar_iff d).1 (h3 d hd)⟩, rfl, h4⟩

theorem integer_inv {s ds s' : Str} (h : integer s = some (ds, s')) : Numeral ds ∧ s = ds ++ s' := by
  rcases alt_some h with h | ⟨-, h⟩
  · obtain ⟨⟨c, cs⟩, hh, rfl⟩ := map_some h
    obtain ⟨s1, h1, h2⟩ := seq_some hh
    obtain ⟨rfl, hc⟩ := isA_inv h1
    obtain ⟨rfl, h3, h4⟩ := many_isA_inv h2
    simp only [Bool.and_eq_true, bne_iff_ne, ne_eq] at hc
    refine ⟨⟨by simp, ?_, ?_⟩, rfl⟩
    · intro d hd
      rcases List.mem_cons.1 hd with rfl | hd
      · exact (isDigitChar_iff _).1 hc.1
      · exact (isDigitChar_iff _).1 (h3 d hd)
    · intro h0
      simp only [List.head?_cons, Option.some.injEq] at h0
      exact absurd h0 hc.2
  · obtain ⟨c, hh, rfl⟩ := map_some h
    obtain ⟨h1, h2⟩ := isA_inv hh
    simp only [beq_iff_eq] at h2
    subst h2
    exact ⟨⟨by simp, by simp, by simp⟩, h1⟩

/-! ### string literals -/

theorem hexVal_inv {c : Char} {d : Nat} (h : hexVal c = some d) : HexDigit d c := by
  have h0 : '0'.toNat = 48 := rfl
  have ha : 'a'.toNat = 97 := rfl
  have hA : 'A'.toNat = 65 := rfl
  have e0 : '0'.val.toNat = 48 := rfl
  have e9 : '9'.val.toNat = 57 := rfl
  have ea : 'a'.val.toNat = 97 := rfl
  have ef : 'f'.val.toNat = 102 := rfl
  have eA : 'A'.val.toNat = 65 := rfl
  have eF : 'F'.val.toNat = 70 := rfl
  have hc : c.toNat = c.val.toNat := rfl
  unfold hexVal at h
  simp only [Char.le_def, UInt32.le_iff_toNat_le, e0, e9, ea, ef, eA, eF, h0, ha, hA] at h
  rw [← hc] at h
  unfold HexDigit
  split at h
  · simp only [Option.some.injEq] at h; omega
  split at h
  · simp only [Option.some.injEq] at h; omega
  split at h
  · simp only [Option.some.injEq] at h; omega
  · simp at h

theorem hex_isSome {c : Char} (h : (hexVal c).isSome = true) : ∃ d, hexVal c = some d := Option.isSome_iff_exists.1 h

theorem utf16Char_inv {s s' : Str} {u : Nat} (h : utf16Char s = some (u, s')) : ∃ t, UnitText u t ∧ s = t ++ s' := by
  obtain ⟨a, s1, h1, h2⟩ := seqR_some h
  have h1 := tag_inv _ _ _ _ h1
  obtain ⟨ds, h3, h4⟩ := convert_some h2
  simp only [times] at h3
  cases e1 : isA (fun c => (hexVal c).isSome) s1 with
  | none => rw [e1] at h3; simp at h3
  | some r1 =>
  obtain ⟨c1, s2⟩ := r1
  rw [e1] at h3; simp only at h3
  cases e2 : isA (fun c => (hexVal c).isSome) s2 with
  | none => rw [e2] at h3; simp at h3
  | some r2 =>
  obtain ⟨c2, s3⟩ := r2
  rw [e2] at h3; simp only at h3
  cases e3 : isA (fun c => (hexVal c).isSome) s3 with
  | none => rw [e3] at h3; simp at h3
  | some r3 =>
  obtain ⟨c3, s4⟩ := r3
  rw [e3] at h3; simp only at h3
  cases e4 : isA (fun c => (hexVal c).isSome) s4 with
  | none => rw [e4] at h3; simp at h3
  | some r4 =>
  obtain ⟨c4, s5⟩ := r4
  rw [e4] at h3
  simp only [Option.some.injEq, Prod.mk.injEq] at h3
  obtain ⟨rfl, rfl⟩ := h3
  obtain ⟨rfl, f1⟩ := isA_inv e1
  obtain ⟨rfl, f2⟩ := isA_inv e2
  obtain ⟨rfl, f3⟩ := isA_inv e3
  obtain ⟨rfl, f4⟩ := isA_inv e4
  obtain ⟨d1, g1⟩ := hex_isSome f1
  obtain ⟨d2, g2⟩ := hex_isSome f2
  obtain ⟨d3, g3⟩ := hex_isSome f3
  obtain ⟨d4, g4⟩ := hex_isSome f4
  simp only [fromHex, List.foldl, g1, g2, g3, g4, Option.getD_some] at h4
  split at h4
  · simp only [Option.some.injEq] at h4
    refine ⟨['\\', 'u', c1, c2, c3, c4], ⟨d1, d2, d3, d4, c1, c2, c3, c4, hexVal_inv g1, hexVal_inv g2, hexVal_inv g3,
      hexVal_inv g4, by omega, rfl⟩, by rw [h1]; rfl⟩
  · simp at h4

/-- a run of units, read to its end -/
theorem many_units_inv : ∀ (n : Nat) {s s' : Str} {us : List Nat}, s.length ≤ n → many utf16Char s = some (us, s') →
    ∃ xs, List.Forall₂ UnitText us xs ∧ s = xs.flatten ++ s' ∧ utf16Char s' = none
  | n, s, s', us, hn, h => by
    cases hu : utf16Char s with
    | none =>
      rw [many_none hu] at h
      simp only [Option.some.injEq, Prod.mk.injEq] at h
      obtain ⟨rfl, rfl⟩ := h
      exact ⟨[], .nil, rfl, hu⟩
    | some r =>
      obtain ⟨u, s1⟩ := r
      have hlt := utf16Char_eats.lt hu
      rw [many_some utf16Char_eats hu] at h
      obtain ⟨⟨vs, s2⟩, hm⟩ := many_total utf16Char s1
      rw [hm] at h
      simp only [Option.some.injEq, Prod.mk.injEq] at h
      obtain ⟨rfl, rfl⟩ := h
      cases n with
      | zero => omega
      | succ n =>
        obtain ⟨xs, h1, h2, h3⟩ := many_units_inv n (by omega) hm
        obtain ⟨t, ht, e⟩ := utf16Char_inv hu
        exact ⟨t :: xs, .cons ht h1, by rw [e, h2]; simp, h3⟩

theorem unit_lt {u : Nat} {t : Str} (h : UnitText u t) : u < 65536 := by
  obtain ⟨d₁, d₂, d₃, d₄, c₁, c₂, c₃, c₄, h1, h2, h3, h4, rfl, rfl⟩ := h
  have := hexDigit_lt h1
  have := hexDigit_lt h2
  have := hexDigit_lt h3
  have := hexDigit_lt h4
  omega

theorem units_lt {us : List Nat} {xs : List Str} (h : List.Forall₂ UnitText us xs) : ∀ u ∈ us, u < 65536 := by
  induction h with
  | nil => simp
  | cons h _ ih =>
    intro v hv
    rcases List.mem_cons.1 hv with rfl | hv
    · exact unit_lt h
    · exact ih v hv

theorem char_toNat_ofNat {n : Nat} (h : n < 0xD800 ∨ (0xDFFF < n ∧ n < 0x110000)) : (Char.ofNat n).toNat = n := by
  have hv : n.isValidChar := by simp only [Nat.isValidChar]; omega
  simp only [Char.ofNat, dif_pos hv]
  rfl

theorem decoded_decode : ∀ (n : Nat) (us : List Nat), us.length ≤ n → (∀ u ∈ us, u < 65536) → Decoded us (decodeUtf16 us)
  | _, [], _, _ => by rw [decodeUtf16.eq_def]; exact .nil
  | 0, u :: us, h, _ => by simp at h
  | n + 1, u :: us, hn, hu => by
    simp only [List.length_cons, Nat.add_le_add_iff_right] at hn
    simp only [List.mem_cons, forall_eq_or_imp] at hu
    have ih := decoded_decode n us hn hu.2
    rw [decodeUtf16.eq_def]
    simp only
    by_cases h1 : u < 0xD800 ∨ 0xDFFF < u
    · rw [if_pos h1]
      have hc : (Char.ofNat u).toNat = u := char_toNat_ofNat (by omega)
      have he : utf16 (Char.ofNat u) = [u] := by unfold utf16; rw [hc, if_pos hu.1]
      have := Decoded.char (Char.ofNat u) us _ ih
      rwa [he] at this
    rw [if_neg h1]
    by_cases h2 : 0xDC00 ≤ u
    · rw [if_pos h2]; exact .low u us _ h2 (by omega) ih
    rw [if_neg h2]
    cases us with
    | nil => exact .high u [] [] (by omega) (by omega) (by simp) .nil
    | cons v vs =>
      simp only [List.mem_cons, forall_eq_or_imp] at hu
      simp only
      by_cases h3 : v < 0xDC00 ∨ 0xDFFF < v
      · rw [if_pos h3]
        refine .high u (v :: vs) _ (by omega) (by omega) ?_ ih
        intro w hw
        simp only [List.head?_cons, Option.some.injEq] at hw
        omega
      · rw [if_neg h3]
        have hc : (Char.ofNat ((u - 0xD800) * 1024 + (v - 0xDC00) + 0x10000)).toNat =
            (u - 0xD800) * 1024 + (v - 0xDC00) + 0x10000 := char_toNat_ofNat (by omega)
        have he : utf16 (Char.ofNat ((u - 0xD800) * 1024 + (v - 0xDC00) + 0x10000)) = [u, v] := by
          unfold utf16
          rw [hc, if_neg (by omega)]
          have a1 : 0xD800 + ((u - 0xD800) * 1024 + (v - 0xDC00) + 0x10000 - 0x10000) / 1024 = u := by omega
          have a2 : 0xDC00 + ((u - 0xD800) * 1024 + (v - 0xDC00) + 0x10000 - 0x10000) % 1024 = v := by omega
          rw [a1, a2]
        simp only [List.length_cons] at hn
        have ih2 := decoded_decode n vs (by omega) hu.2.2
        have := Decoded.char (Char.ofNat ((u - 0xD800) * 1024 + (v - 0xDC00) + 0x10000)) vs _ ih2
        rwa [he] at this

theorem decode_decoded {us : List Nat} {s : Str} (h : Decoded us s) : decodeUtf16 us = s := by
  induction h with
  | nil => simp [decodeUtf16]
  | char c us s _ ih => rw [decode_utf16, ih]
  | low u us s h1 h2 _ ih =>
    rw [decodeUtf16.eq_def]; simp only
    rw [if_neg (by omega), if_pos h1, ih]
  | high u us s h1 h2 h3 _ ih =>
    rw [decodeUtf16.eq_def]; simp only
    rw [if_neg (by omega), if_neg (by omega)]
    cases us with
    | nil =>
      simp only [decodeUtf16] at ih
      subst ih; rfl
    | cons v vs =>
      have := h3 v rfl
      simp only
      rw [if_pos (by omega), ih]

/-- a run of raw characters and escapes, in front of any body -/
theorem many_plain_inv : ∀ (n : Nat) {s s' cs : Str}, s.length ≤ n → many litChar s = some (cs, s') →
    ∃ t, s = t ++ s' ∧ litChar s' = none ∧ ∀ b bt, Body b bt → Body (cs ++ b) (t ++ bt)
  | n, s, s', cs, hn, h => by
    cases hu : litChar s with
    | none =>
      rw [many_none hu] at h
      simp only [Option.some.injEq, Prod.mk.injEq] at h
      obtain ⟨rfl, rfl⟩ := h
      exact ⟨[], rfl, hu, fun b bt h => h⟩
    | some r =>
      obtain ⟨c, s1⟩ := r
      have hlt := litChar_eats.lt hu
      rw [many_some litChar_eats hu] at h
      obtain ⟨⟨vs, s2⟩, hm⟩ := many_total litChar s1
      rw [hm] at h
      simp only [Option.some.injEq, Prod.mk.injEq] at h
      obtain ⟨rfl, rfl⟩ := h
      cases n with
      | zero => omega
      | succ n =>
        obtain ⟨t, rfl, h2, h3⟩ := many_plain_inv n (by omega) hm
        rcases alt_some hu with hu | ⟨-, hu⟩
        · obtain ⟨rfl, hc⟩ := isA_inv hu
          simp only [Bool.not_eq_true', Bool.or_eq_false_iff, beq_eq_false_iff_ne] at hc
          exact ⟨c :: t, rfl, h2, fun b bt hb => .raw _ _ _ hc.2 hc.1 (h3 b bt hb)⟩
        · obtain ⟨a, s3, g1, g2⟩ := seqR_some hu
          have g1 := sym_inv g1
          subst g1
          have key : ∃ e, s3 = e :: (t ++ s2) ∧ (e, c) ∈ [('\\', '\\'), ('/', '/'), ('"', '"'), ('b', Char.ofNat 8),
              ('f', Char.ofNat 12), ('n', '\n'), ('r', '\r'), ('t', '\t')] := by
            simp only [specialChar] at g2
            rcases alt_some g2 with g | ⟨-, g2⟩
            · obtain ⟨g3, g4⟩ := isA_inv g
              simp only [beq_iff_eq] at g4
              exact ⟨_, g3, by simp [g4]⟩
            rcases alt_some g2 with g | ⟨-, g2⟩
            · obtain ⟨g3, g4⟩ := isA_inv g
              simp only [beq_iff_eq] at g4
              exact ⟨_, g3, by simp [g4]⟩
            rcases alt_some g2 with g | ⟨-, g2⟩
            · obtain ⟨g3, g4⟩ := isA_inv g
              simp only [beq_iff_eq] at g4
              exact ⟨_, g3, by simp [g4]⟩
            rcases alt_some g2 with g | ⟨-, g2⟩
            · obtain ⟨d, gg, rfl⟩ := map_some g
              exact ⟨_, sym_inv gg, by decide⟩
            rcases alt_some g2 with g | ⟨-, g2⟩
            · obtain ⟨d, gg, rfl⟩ := map_some g
              exact ⟨_, sym_inv gg, by decide⟩
            rcases alt_some g2 with g | ⟨-, g2⟩
            · obtain ⟨d, gg, rfl⟩ := map_some g
              exact ⟨_, sym_inv gg, by decide⟩
            rcases alt_some g2 with g | ⟨-, g2⟩
            · obtain ⟨d, gg, rfl⟩ := map_some g
              exact ⟨_, sym_inv gg, by decide⟩
            · obtain ⟨d, g, rfl⟩ := map_some g2
              exact ⟨_, sym_inv g, by decide⟩
          obtain ⟨e, rfl, he⟩ := key
          exact ⟨'\\' :: e :: t, rfl, h2, fun b bt hb => .escape _ _ _ _ he (h3 b bt hb)⟩

/-- the text of a body goes on to the quote -/
theorem parts_inv : ∀ (n : Nat) {s s' : Str} {gs : List Str}, s.length ≤ n →
    many (alt charString utf16String) s = some (gs, '"' :: s') → ∃ t, s = t ++ '"' :: s' ∧ Body gs.flatten t
  | n, s, s', gs, hn, h => by
    cases hu : alt charString utf16String s with
    | none =>
      rw [many_none hu] at h
      simp only [Option.some.injEq, Prod.mk.injEq] at h
      obtain ⟨rfl, rfl⟩ := h
      exact ⟨[], rfl, .nil⟩
    | some r =>
      obtain ⟨cs, s1⟩ := r
      have hlt := stringPart_eats.lt hu
      rw [many_some stringPart_eats hu] at h
      obtain ⟨⟨vs, s2⟩, hm⟩ := many_total (alt charString utf16String) s1
      rw [hm] at h
      simp only [Option.some.injEq, Prod.mk.injEq] at h
      obtain ⟨rfl, rfl⟩ := h
      cases n with
      | zero => omega
      | succ n =>
        obtain ⟨t, rfl, h2⟩ := parts_inv n (by omega) hm
        rcases alt_some hu with hu | ⟨-, hu⟩
        · obtain ⟨-, hu⟩ := many1_some hu
          obtain ⟨t2, e, -, h4⟩ := many_plain_inv s.length (Nat.le_refl _) hu
          exact ⟨t2 ++ t, by rw [e]; simp, h4 _ _ h2⟩
        · obtain ⟨us, hw, rfl⟩ := map_some hu
          obtain ⟨hne, hv⟩ := many1_some hw
          obtain ⟨xs, h4, e, h5⟩ := many_units_inv s.length (Nat.le_refl _) hv
          refine ⟨xs.flatten ++ t, by rw [e]; simp, ?_⟩
          refine .units us xs _ _ t hne h4 (decoded_decode _ us (Nat.le_refl _) (units_lt h4)) ?_ h2
          rintro u x r hx rfl
          rw [List.append_assoc, utf16Char_unit hx] at h5
          simp at h5

theorem stringLit_inv {s s' a : Str} (h : stringLit s = some (a, s')) : ∃ t, Literal a t ∧ s = t ++ s' := by
  obtain ⟨gs, hh, rfl⟩ := map_some h
  obtain ⟨c, s1, h1, h2⟩ := seqL_some hh
  obtain ⟨d, s2, h3, h4⟩ := seqR_some h1
  have h2 := sym_inv h2
  have h3 := sym_inv h3
  subst h2; subst h3
  obtain ⟨t, rfl, hb⟩ := parts_inv _ (Nat.le_refl _) h4
  exact ⟨'"' :: (t ++ ['"']), ⟨t, hb, rfl⟩, by simp⟩

theorem string_inv {s s' : Str} {e : Expr} (h : string s = some (e, s')) : ∃ a t, e = .str a ∧ Literal a t ∧ s = t ++ s' := by
  obtain ⟨a, hh, rfl⟩ := map_some h
  obtain ⟨t, h1, h2⟩ := stringLit_inv hh
  exact ⟨a, t, rfl, h1, h2⟩

/-! ### every body is read -/

theorem litChar_raw {c : Char} (h1 : c ≠ '"') (h2 : c ≠ '\\') (r : Str) : litChar (c :: r) = some (c, r) := by
  have h3 : (!(c == '\\' || c == '"')) = true := by simp [h1, h2]
  simp only [litChar, alt, isA, h3, if_true]

theorem litChar_escape {e c : Char} (h : (e, c) ∈ [('\\', '\\'), ('/', '/'), ('"', '"'), ('b', Char.ofNat 8),
    ('f', Char.ofNat 12), ('n', '\n'), ('r', '\r'), ('t', '\t')]) (r : Str) :
    litChar ('\\' :: e :: r) = some (c, r) := by
  simp only [List.mem_cons, Prod.mk.injEq, List.not_mem_nil, or_false] at h
  rcases h with ⟨rfl, rfl⟩ | ⟨rfl, rfl⟩ | ⟨rfl, rfl⟩ | ⟨rfl, rfl⟩ | ⟨rfl, rfl⟩ | ⟨rfl, rfl⟩ | ⟨rfl, rfl⟩ | ⟨rfl, rfl⟩ <;> rfl

theorem body_plain {s t : Str} (h : Body s t) : ∃ s1 t1 s2 t2, s = s1 ++ s2 ∧ t = t1 ++ t2 ∧ Body s2 t2 ∧
    ∀ r, many litChar (t1 ++ (t2 ++ '"' :: r)) = some (s1, t2 ++ '"' :: r) := by
  induction h with
  | nil => exact ⟨[], [], [], [], rfl, rfl, .nil, fun r => many_none (litChar_quote r)⟩
  | raw c s t h1 h2 _ ih =>
    obtain ⟨s1, t1, s2, t2, rfl, rfl, h3, h4⟩ := ih
    refine ⟨c :: s1, c :: t1, s2, t2, rfl, rfl, h3, fun r => ?_⟩
    rw [List.cons_append, many_some litChar_eats (litChar_raw h1 h2 _), h4 r]
  | escape e c s t he _ ih =>
    obtain ⟨s1, t1, s2, t2, rfl, rfl, h3, h4⟩ := ih
    refine ⟨c :: s1, '\\' :: e :: t1, s2, t2, rfl, rfl, h3, fun r => ?_⟩
    rw [List.cons_append, List.cons_append, many_some litChar_eats (litChar_escape he _), h4 r]
  | units us xs cs s t hne hx hd ht hb ih =>
    refine ⟨[], [], cs ++ s, xs.flatten ++ t, rfl, rfl, .units us xs cs s t hne hx hd ht hb, fun r => ?_⟩
    refine many_none ?_
    cases hx with
    | nil => exact absurd rfl hne
    | cons h1 _ =>
      simp only [List.flatten_cons, List.nil_append, List.append_assoc]
      exact litChar_unit h1 _

/-- a unit read from a text and a quote lies before the quote -/
theorem unit_before_quote {t r : Str} (h : ∀ u x r, UnitText u x → t ≠ x ++ r) : utf16Char (t ++ '"' :: r) = none := by
  cases hu : utf16Char (t ++ '"' :: r) with
  | none => rfl
  | some a =>
    exfalso
    obtain ⟨u, s'⟩ := a
    obtain ⟨x, hx, e⟩ := utf16Char_inv hu
    have hq : '"' ∉ x := by
      obtain ⟨d₁, d₂, d₃, d₄, c₁, c₂, c₃, c₄, h1, h2, h3, h4, _, rfl⟩ := hx
      have hn : ∀ {d : Nat} {c : Char}, HexDigit d c → '"' ≠ c := by
        rintro d c h rfl
        have : '"'.toNat = 34 := rfl
        unfold HexDigit at h
        omega
      simp [hn h1, hn h2, hn h3, hn h4]
    rcases List.append_eq_append_iff.1 e with ⟨a, h1, h2⟩ | ⟨a, h1, h2⟩
    · cases a with
      | nil => exact h u x [] hx (by rw [h1]; simp)
      | cons c a =>
        simp only [List.cons_append, List.cons.injEq] at h2
        apply hq
        rw [h1, ← h2.1]; simp
    · exact h u x a hx h1

theorem many_units {us : List Nat} {xs : List Str} (h : List.Forall₂ UnitText us xs) {r : Str} (hr : utf16Char r = none) :
    many utf16Char (xs.flatten ++ r) = some (us, r) := by
  induction h with
  | nil => exact many_none hr
  | cons h _ ih =>
    rw [List.flatten_cons, List.append_assoc, many_some utf16Char_eats (utf16Char_unit h _), ih]

theorem many1_of {α : Type} {p : P α} {s : Str} {as : List α} {s' : Str} (h : many p s = some (as, s')) (hne : as ≠ []) :
    many1 p s = some (as, s') := by
  simp only [many1, h]
  cases as with
  | nil => exact absurd rfl hne
  | cons => rfl

theorem readsBody : ∀ (n : Nat) {s t : Str}, t.length ≤ n → Body s t → ReadsLit s t
  | n, s, t, hn, h => by
    intro r
    have plain : ∀ {c : Char} {s t sp : Str}, Body s t → litChar (sp ++ (t ++ '"' :: r)) = some (c, t ++ '"' :: r) →
        t.length < n →
        ∃ gs, many (alt charString utf16String) (sp ++ (t ++ '"' :: r)) = some (gs, '"' :: r) ∧ gs.flatten = c :: s := by
      intro c s t sp hb hl hlt
      obtain ⟨s1, t1, s2, t2, rfl, rfl, h3, h4⟩ := body_plain hb
      cases n with
      | zero => omega
      | succ n =>
        obtain ⟨gs, hg, hf⟩ := readsBody n (by simp at hlt; omega) h3 r
        have e0 : many litChar (sp ++ (t1 ++ t2 ++ '"' :: r)) = some (c :: s1, t2 ++ '"' :: r) := by
          rw [many_some litChar_eats hl, List.append_assoc, h4 r]
        have e1 : charString (sp ++ (t1 ++ t2 ++ '"' :: r)) = some (c :: s1, t2 ++ '"' :: r) := many1_of e0 (by simp)
        have e2 : alt charString utf16String (sp ++ (t1 ++ t2 ++ '"' :: r)) = some (c :: s1, t2 ++ '"' :: r) := by
          simp only [alt, e1]
        exact ⟨(c :: s1) :: gs, by rw [many_some stringPart_eats e2, hg], by simp [hf]⟩
    cases h with
    | nil => exact ⟨[], many_none (stringPart_quote r), rfl⟩
    | raw c s t h1 h2 hb => exact plain (sp := [c]) hb (litChar_raw h1 h2 _) (by simp at hn; omega)
    | escape e c s t he hb => exact plain (sp := ['\\', e]) hb (litChar_escape he _) (by simp at hn; omega)
    | units us xs cs s t hne hx hd ht hb =>
      have hnone := unit_before_quote (r := r) ht
      have h6 := many_units hx hnone
      have hlen : t.length < n := by
        cases hx with
        | nil => exact absurd rfl hne
        | cons h1 _ =>
          obtain ⟨d₁, d₂, d₃, d₄, c₁, c₂, c₃, c₄, _, _, _, _, _, rfl⟩ := h1
          simp at hn; omega
      have hl : litChar (xs.flatten ++ (t ++ '"' :: r)) = none := by
        cases hx with
        | nil => exact absurd rfl hne
        | cons h1 _ => rw [List.flatten_cons, List.append_assoc]; exact litChar_unit h1 _
      cases n with
      | zero => omega
      | succ n =>
        obtain ⟨gs, hg, hf⟩ := readsBody n (by omega) hb r
        rw [litChar] at hl
        have e0 : charString (xs.flatten ++ (t ++ '"' :: r)) = none := by
          simp only [charString, many1, many_none hl]
        have e1 : utf16String (xs.flatten ++ (t ++ '"' :: r)) = some (cs, t ++ '"' :: r) := by
          rw [← decode_decoded hd]
          simp only [utf16String, map, many1_of h6 hne]
        have e2 : alt charString utf16String (xs.flatten ++ (t ++ '"' :: r)) = some (cs, t ++ '"' :: r) := by
          simp only [alt, e0, e1]
        exact ⟨cs :: gs, by rw [List.append_assoc, many_some stringPart_eats e2, hg], by simp [hf]⟩

/-- a string literal is read as what it denotes -/
theorem stringLit_literal {s t : Str} (h : Literal s t) (r : Str) : stringLit (t ++ r) = some (s, r) := by
  obtain ⟨b, hb, rfl⟩ := h
  obtain ⟨gs, h1, h2⟩ := readsBody b.length (Nat.le_refl _) hb r
  have : '"' :: (b ++ ['"']) ++ r = '"' :: (b ++ '"' :: r) := by simp
  rw [this]
  simp only [stringLit, map, seqL, seqR, sym_cons, h1, h2]

/-! ### the short spelling -/

theorem spelled_body : ∀ s : Str, Body s (s.flatMap quotedChar)
  | [] => .nil
  | c :: s => by
    rw [List.flatMap_cons]
    have ih := spelled_body s
    unfold quotedChar
    split
    · rename_i h; subst h; exact .escape '"' _ _ _ (by simp) ih
    split
    · rename_i h; subst h; exact .escape '\\' _ _ _ (by simp) ih
    split
    · rename_i h; subst h; exact .escape 'n' _ _ _ (by simp) ih
    split
    · rename_i h; subst h; exact .escape 'r' _ _ _ (by simp) ih
    split
    · rename_i h; subst h; exact .escape 't' _ _ _ (by simp) ih
    split
    · rename_i h
      have : c = Char.ofNat 8 := Char.toNat_inj.1 h
      subst this; exact .escape 'b' _ _ _ (by simp) ih
    split
    · rename_i h
      have : c = Char.ofNat 12 := Char.toNat_inj.1 h
      subst this; exact .escape 'f' _ _ _ (by simp) ih
    · rename_i h1 h2 _ _ _ _ _
      exact .raw c _ _ h1 h2 ih

theorem literal_quoted (s : Str) : Literal s (quoted s) := ⟨_, spelled_body s, by simp [quoted]⟩

theorem digitsVal_from : ∀ (ds : Str) (a : Nat), ds.foldl (fun acc c => acc * 10 + (c.toNat - '0'.toNat)) a =
    a * 10 ^ ds.length + decimal ds
  | [], a => by simp [decimal]
  | c :: cs, a => by
    have h0 : '0'.toNat = 48 := rfl
    rw [List.foldl_cons, digitsVal_from cs, decimal, List.length_cons, h0, Nat.add_mul, Nat.pow_succ]
    rw [Nat.mul_assoc, Nat.mul_comm 10, Nat.add_assoc]

theorem digitsVal_eq (ds : Str) : digitsVal ds = decimal ds := by
  rw [digitsVal, digitsVal_from]; simp

/-! ### the plain tokens are among the tokens in any spelling -/

mutual
theorem exprText_tokens : ∀ e, Ladder e → ExprText e (tokens e)
  | .ident x, h => by simp only [Ladder] at h; rw [tokens]; exact .ident x h.1
  | .int i, h => by
    simp only [Ladder] at h
    have hn : Numeral (Nat.toDigits 10 i.natAbs) ∧ decimal (Nat.toDigits 10 i.natAbs) = i.natAbs :=
      ⟨numeral_toDigits _, by rw [← digitsVal_eq, digitsVal_toDigits]⟩
    have := ExprText.int (Nat.toDigits 10 i.natAbs) hn.1 (by rw [hn.2]; omega)
    rw [hn.2] at this
    have hi : (i.natAbs : Int) = i := by omega
    rw [hi] at this
    rw [tokens]; exact this
  | .bool b, _ => by rw [tokens]; exact .bool b
  | .str s, _ => by rw [tokens]; exact .str s _ (literal_quoted s)
  | .paren e, h => by simp only [Ladder] at h; rw [tokens]; exact .paren e _ (exprText_tokens e h.1)
  | .field e f, h => by
    simp only [Ladder] at h
    obtain ⟨-, h1, x, rfl, hx⟩ := h
    rw [tokens]; exact .field e _ x (exprText_tokens e h1) hx
  | .index e i, h => by
    simp only [Ladder] at h
    rw [tokens]; exact .index e i _ _ (exprText_tokens e h.2.1) (exprText_tokens i h.2.2)
  | .call f args, h => by
    simp only [Ladder] at h
    rw [tokens]; exact .call f args _ _ (exprText_tokens f h.2.1) (argsText_tokens args h.2.2)
  | .bin op l r, h => by
    simp only [Ladder] at h
    rw [tokens]; exact .bin op l r _ _ (exprText_tokens l h.2.2.1) (exprText_tokens r h.2.2.2)
  | .un op e, h => by
    simp only [Ladder] at h
    rw [tokens]; exact .un op e _ (exprText_tokens e h.2)
  | .cast ty e, h => by
    simp only [Ladder] at h
    obtain ⟨-, h1, x, rfl, hx⟩ := h
    rw [tokens]; exact .cast x e _ hx (exprText_tokens e h1)
theorem argsText_tokens : ∀ es, LadderArgs es → ArgsText es (argTokens es)
  | [], _ => by rw [argTokens]; exact .nil
  | [e], h => by simp only [LadderArgs] at h; rw [argTokens]; exact .one e _ (exprText_tokens e h.1)
  | e :: e' :: es, h => by
    rw [LadderArgs] at h
    have : argTokens (e :: e' :: es) = tokens e ++ [','] :: argTokens (e' :: es) := by rw [argTokens]; simp
    rw [this]
    exact .cons e e' es _ _ (exprText_tokens e h.1) (argsText_tokens (e' :: es) h.2)
end

theorem written_tokens {e : Expr} (h : Ladder e) : Written e (tokens e) := ⟨exprText_tokens e h, h⟩

mutual
/-- the texts of C06 have the form of C73 -/
theorem stmtForm_of_text : ∀ {s : Stmt} {ts : List Str}, StmtText s ts → StmtForm s ts
  | _, _, .assign l r h1 h2 _ => .assign l r _ _ (written_tokens h1) (written_tokens h2) trivial
  | _, _, .plusEq l r h1 h2 _ => .plusEq l r _ _ (written_tokens h1) (written_tokens h2) trivial
  | _, _, .minusEq l r h1 h2 _ => .minusEq l r _ _ (written_tokens h1) (written_tokens h2) trivial
  | _, _, .ite c t tt h1 h2 => .ite c t _ tt (written_tokens h1) (progForm_of_text h2)
  | _, _, .iteElse c t f tt ft h1 h2 h3 => .iteElse c t f _ tt ft (written_tokens h1) (progForm_of_text h2) (progForm_of_text h3)
  | _, _, .while c b bt h1 h2 => .while c b _ bt (written_tokens h1) (progForm_of_text h2)
  | _, _, .for x r b bt hx h1 h2 => .for x x r b _ bt hx rfl (written_tokens h1) (progForm_of_text h2)
  | _, _, .brk => .brk
  | _, _, .cont => .cont
  | _, _, .help => .help
  | _, _, .quit => .quit
  | _, _, .filesystem s => .filesystem s _ (literal_quoted s)
  | _, _, .print e h => .print e _ (written_tokens h)
  | _, _, .expr e h _ => .expr e _ (written_tokens h) trivial
  | _, _, .semi s ts h => .semi s ts (stmtForm_of_text h)
theorem progForm_of_text : ∀ {p : List Stmt} {ts : List Str}, ProgText p ts → ProgForm p ts
  | _, _, .nil => .nil
  | _, _, .cons s ss a b h1 h2 => .cons s ss a b (stmtForm_of_text h1) (progForm_of_text h2)
end

end Btrd
