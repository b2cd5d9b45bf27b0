/-
Statements that begin with `if`, `while` or `for` are first tried as expression statements. These lemmas
show where that attempt ends: before a character that ends no statement.
-/
import Verif.Lemmas.RoundTrip

namespace Btrd
open P Spec

/-- the text does not go on with `;`, `=`, `+=` or `-=` -/
def NoEnd (s : Str) : Prop := ∃ w c r, s = w ++ c :: r ∧ Blank w ∧ isSpaceChar c = false ∧
  c ≠ ';' ∧ c ≠ '=' ∧ c ≠ '+' ∧ c ≠ '-'

/-! ### the ways an expression begins -/

/-- it begins with a parenthesis -/
def LeadParen : Expr → Prop
  | .paren _ => True
  | .field e _ => LeadParen e
  | .index e _ => LeadParen e
  | .call e _ => LeadParen e
  | .bin _ l _ => LeadParen l
  | _ => False

/-- it begins with a minus sign -/
def LeadMinus : Expr → Prop
  | .un .minus _ => True
  | .bin _ l _ => LeadMinus l
  | _ => False

/-- it begins with a cast -/
def LeadCast : Expr → Prop
  | .cast _ _ => True
  | .bin _ l _ => LeadCast l
  | _ => False

/-- it begins with a word or a number -/
def LeadWord : Expr → Prop
  | .ident _ => True
  | .int _ => True
  | .bool _ => True
  | .field e _ => LeadWord e
  | .index e _ => LeadWord e
  | .call e _ => LeadWord e
  | .bin _ l _ => LeadWord l
  | _ => False

theorem level_bin_gt (op : BinOp) (l r : Expr) : ¬ level (.bin op l r) ≤ 1 := by
  have := opLevel_ge op
  simp only [level]; omega

/-- how the first token can begin otherwise -/
def LeadOther (ts : List Str) : Prop :=
    (∃ e' us vs, ExprText e' us ∧ ts = ['!'] :: (us ++ vs)) ∨
    (∃ c cs us, ts = (c :: cs) :: us ∧ starts c = true ∧ continues c = false ∧ isIdentChar c = false)

theorem LeadOther.append {ts : List Str} (h : LeadOther ts) (us : List Str) : LeadOther (ts ++ us) := by
  rcases h with ⟨e', vs, ws, he, rfl⟩ | ⟨c, cs, vs, rfl, h2⟩
  · exact .inl ⟨e', vs, _, he, by rw [List.cons_append, List.append_assoc]⟩
  · exact .inr ⟨c, cs, _, rfl, h2⟩

theorem not_lead_prefix {e : Expr} (h : level e ≤ 1) : ¬ LeadMinus e ∧ ¬ LeadCast e := by
  cases e with
  | un o e => simp [level] at h
  | cast x e => simp [level] at h
  | bin op l r => exact absurd h (level_bin_gt op l r)
  | _ => simp [LeadMinus, LeadCast]

theorem lead_kinds : ∀ {e : Expr} {ts : List Str}, ExprText e ts → Ladder e →
    LeadParen e ∨ LeadMinus e ∨ LeadCast e ∨ LeadWord e ∨ LeadOther ts
  | _, _, .ident x hx, _ => .inr (.inr (.inr (.inl (by simp only [LeadWord]))))
  | _, _, .int ds hn _, _ => .inr (.inr (.inr (.inl (by simp only [LeadWord]))))
  | _, _, .bool b, _ => .inr (.inr (.inr (.inl (by simp only [LeadWord]))))
  | _, _, .str s t hl, _ => by
    obtain ⟨b, _, rfl⟩ := hl
    exact .inr (.inr (.inr (.inr (.inr ⟨'"', _, [], rfl, by decide, by decide, by decide⟩))))
  | _, _, .paren e _ _, _ => .inl (by simp only [LeadParen])
  | _, _, .field e ts f te _, h => by
    simp only [Ladder] at h
    rcases lead_kinds te h.2.1 with h1 | h1 | h1 | h1 | h1
    · left; simpa only [LeadParen] using h1
    · exact absurd h1 (not_lead_prefix h.1).1
    · exact absurd h1 (not_lead_prefix h.1).2
    · exact .inr (.inr (.inr (.inl (by simpa only [LeadWord] using h1))))
    · exact .inr (.inr (.inr (.inr (h1.append _))))
  | _, _, .index e i ts us te _, h => by
    simp only [Ladder] at h
    rcases lead_kinds te h.2.1 with h1 | h1 | h1 | h1 | h1
    · left; simpa only [LeadParen] using h1
    · exact absurd h1 (not_lead_prefix h.1).1
    · exact absurd h1 (not_lead_prefix h.1).2
    · exact .inr (.inr (.inr (.inl (by simpa only [LeadWord] using h1))))
    · exact .inr (.inr (.inr (.inr (h1.append _))))
  | _, _, .call e a ts us te _, h => by
    simp only [Ladder] at h
    rcases lead_kinds te h.2.1 with h1 | h1 | h1 | h1 | h1
    · left; simpa only [LeadParen] using h1
    · exact absurd h1 (not_lead_prefix h.1).1
    · exact absurd h1 (not_lead_prefix h.1).2
    · exact .inr (.inr (.inr (.inl (by simpa only [LeadWord] using h1))))
    · exact .inr (.inr (.inr (.inr (h1.append _))))
  | _, _, .bin op l r ts us te _, h => by
    simp only [Ladder] at h
    rcases lead_kinds te h.2.2.1 with h1 | h1 | h1 | h1 | h1
    · left; simpa only [LeadParen] using h1
    · right; left; simpa only [LeadMinus] using h1
    · exact .inr (.inr (.inl (by simpa only [LeadCast] using h1)))
    · exact .inr (.inr (.inr (.inl (by simpa only [LeadWord] using h1))))
    · exact .inr (.inr (.inr (.inr (h1.append _))))
  | _, _, .un op e ts te, h => by
    cases op with
    | bitNot => exact .inr (.inr (.inr (.inr (.inr ⟨'~', [], _, rfl, by decide, by decide, by decide⟩))))
    | not => exact .inr (.inr (.inr (.inr (.inl ⟨e, ts, [], te, by rw [List.append_nil]; rfl⟩))))
    | minus => exact .inr (.inl (by simp only [LeadMinus]))
  | _, _, .cast x e ts hx _, h => .inr (.inr (.inl (by simp only [LeadCast])))

/-! ### something in front of an expression -/

/-- the head becomes the function called -/
def graftParen (H : Expr) : Expr → Expr
  | .paren p => .call H [p]
  | .field e f => .field (graftParen H e) f
  | .index e i => .index (graftParen H e) i
  | .call e a => .call (graftParen H e) a
  | .bin op l r => .bin op (graftParen H l) r
  | e => e

/-- without its leading minus sign -/
def strip : Expr → Expr
  | .un _ e => e
  | .bin op l r => .bin op (strip l) r
  | e => e

/-- the head becomes the left operand of the minus sign -/
def graftMinus (H : Expr) : Expr → Expr
  | .bin op l r => if opLevel op ≤ 3 then .bin .minus H (strip (.bin op l r)) else .bin op (graftMinus H l) r
  | e => .bin .minus H (strip e)

/-- without its leading cast -/
def unCast : Expr → Expr
  | .cast _ e => e
  | .bin op l r => .bin op (unCast l) r
  | e => e

/-- with another word at its beginning -/
def graftWord (t : Str) : Expr → Expr
  | .field e f => .field (graftWord t e) f
  | .index e i => .index (graftWord t e) i
  | .call e a => .call (graftWord t e) a
  | .bin op l r => .bin op (graftWord t l) r
  | _ => .ident t

section
variable {H : Expr} {hs : List Str} (hkw : Ladder H) (hkt : ExprText H hs) (hkl : level H ≤ 1)
include hkw hkt hkl

theorem graftParen_ok : ∀ {e : Expr} {ts : List Str}, ExprText e ts → Ladder e → LeadParen e → Ladder (graftParen H e) ∧
    ExprText (graftParen H e) (hs ++ ts) ∧ level (graftParen H e) ≤ max 1 (level e)
  | _, _, .paren p ts te, h, _ => by
    simp only [Ladder] at h
    refine ⟨?_, ?_, ?_⟩
    · simp only [graftParen, Ladder, LadderArgs] at *
      exact ⟨hkl, hkw, h.1, trivial⟩
    · exact .call H [p] hs ts hkt (.one p ts te)
    · simp only [graftParen, level]; omega
  | _, _, .field e ts f te hx, h, hl => by
    simp only [Ladder] at h
    simp only [LeadParen] at hl
    obtain ⟨h1, h2, h3⟩ := graftParen_ok te h.2.1 hl
    refine ⟨?_, ?_, ?_⟩
    · simp only [graftParen, Ladder]; exact ⟨by omega, h1, h.2.2⟩
    · rw [← List.append_assoc]; exact .field _ _ f h2 hx
    · simp only [graftParen, level]; omega
  | _, _, .index e i ts us te ti, h, hl => by
    simp only [Ladder] at h
    simp only [LeadParen] at hl
    obtain ⟨h1, h2, h3⟩ := graftParen_ok te h.2.1 hl
    refine ⟨?_, ?_, ?_⟩
    · simp only [graftParen, Ladder]; exact ⟨by omega, h1, h.2.2⟩
    · rw [← List.append_assoc]; exact .index _ i _ us h2 ti
    · simp only [graftParen, level]; omega
  | _, _, .call e a ts us te ta, h, hl => by
    simp only [Ladder] at h
    simp only [LeadParen] at hl
    obtain ⟨h1, h2, h3⟩ := graftParen_ok te h.2.1 hl
    refine ⟨?_, ?_, ?_⟩
    · simp only [graftParen, Ladder]; exact ⟨by omega, h1, h.2.2⟩
    · rw [← List.append_assoc]; exact .call _ a _ us h2 ta
    · simp only [graftParen, level]; omega
  | _, _, .bin op l r ts us te tr, h, hl => by
    simp only [Ladder] at h
    simp only [LeadParen] at hl
    obtain ⟨h1, h2, h3⟩ := graftParen_ok te h.2.2.1 hl
    have hll : 3 ≤ leftLevel op := by cases op <;> simp [leftLevel, opLevel]
    refine ⟨?_, ?_, ?_⟩
    · simp only [graftParen, Ladder]; exact ⟨by omega, h.2.1, h1, h.2.2.2⟩
    · rw [← List.append_assoc]; exact .bin op _ r _ us h2 tr
    · simp only [graftParen, level]; omega
  | _, _, .ident .., _, hl => by simp [LeadParen] at hl
  | _, _, .int .., _, hl => by simp [LeadParen] at hl
  | _, _, .bool _, _, hl => by simp [LeadParen] at hl
  | _, _, .str .., _, hl => by simp [LeadParen] at hl
  | _, _, .un .., _, hl => by simp [LeadParen] at hl
  | _, _, .cast .., _, hl => by simp [LeadParen] at hl

omit hkw hkt hkl in
theorem strip_ok : ∀ {e : Expr} {ts : List Str}, ExprText e ts → Ladder e → LeadMinus e → level e ≤ 3 → Ladder (strip e) ∧
    (∃ us, ExprText (strip e) us ∧ ts = ['-'] :: us) ∧ level (strip e) ≤ 3
  | _, _, .un op e ts te, h, hm, _ => by
    simp only [Ladder] at h
    cases op with
    | minus =>
      refine ⟨h.2, ⟨ts, te, rfl⟩, ?_⟩
      simp only [strip]; omega
    | _ => simp [LeadMinus] at hm
  | _, _, .bin op l r ts us tl tr, h, hm, hl => by
    simp only [Ladder] at h
    simp only [LeadMinus] at hm
    simp only [level] at hl
    have hge := opLevel_ge op
    have hlo := leftLevel_le op
    have hll : 3 ≤ leftLevel op := by cases op <;> simp [leftLevel, opLevel]
    obtain ⟨h1, ⟨vs, h2, rfl⟩, h3⟩ := strip_ok tl h.2.2.1 hm (by omega)
    refine ⟨?_, ⟨vs ++ opText op :: us, .bin op _ r vs us h2 tr, rfl⟩, ?_⟩
    · simp only [strip, Ladder]; exact ⟨by omega, h.2.1, h1, h.2.2.2⟩
    · simp only [strip, level]; omega
  | _, _, .ident .., _, hm, _ => by simp [LeadMinus] at hm
  | _, _, .int .., _, hm, _ => by simp [LeadMinus] at hm
  | _, _, .bool _, _, hm, _ => by simp [LeadMinus] at hm
  | _, _, .str .., _, hm, _ => by simp [LeadMinus] at hm
  | _, _, .paren .., _, hm, _ => by simp [LeadMinus] at hm
  | _, _, .field .., _, hm, _ => by simp [LeadMinus] at hm
  | _, _, .index .., _, hm, _ => by simp [LeadMinus] at hm
  | _, _, .call .., _, hm, _ => by simp [LeadMinus] at hm
  | _, _, .cast .., _, hm, _ => by simp [LeadMinus] at hm

theorem graft_strip {e : Expr} {ts : List Str} (ht : ExprText e ts) (h : Ladder e) (hm : LeadMinus e) (hl : level e ≤ 3) :
    Ladder (.bin .minus H (strip e)) ∧ ExprText (.bin .minus H (strip e)) (hs ++ ts) := by
  obtain ⟨h1, ⟨us, h2, rfl⟩, h3⟩ := strip_ok ht h hm hl
  refine ⟨?_, .bin .minus _ _ hs us hkt h2⟩
  simp only [Ladder]
  exact ⟨by simp only [leftLevel, opLevel]; omega, by simp only [opLevel]; omega, hkw, h1⟩

theorem graftMinus_ok : ∀ {e : Expr} {ts : List Str}, ExprText e ts → Ladder e → LeadMinus e → Ladder (graftMinus H e) ∧
    ExprText (graftMinus H e) (hs ++ ts) ∧ level (graftMinus H e) ≤ max 4 (level e)
  | _, _, .un op e ts te, h, hm => by
    obtain ⟨h1, h2⟩ := graft_strip hkw hkt hkl (.un op e ts te) h hm (by simp [level])
    exact ⟨by simpa only [graftMinus] using h1, by simpa only [graftMinus] using h2, by simp only [graftMinus, level, opLevel]; omega⟩
  | _, _, .bin op l r ts us tl tr, h, hm => by
    by_cases h3 : opLevel op ≤ 3
    · obtain ⟨h1, h2⟩ := graft_strip hkw hkt hkl (.bin op l r ts us tl tr) h hm (by simpa only [level] using h3)
      simp only [graftMinus, if_pos h3]
      exact ⟨h1, h2, by simp only [level, opLevel]; omega⟩
    · simp only [Ladder] at h
      simp only [LeadMinus] at hm
      obtain ⟨h1, h2, h4⟩ := graftMinus_ok tl h.2.2.1 hm
      have hll : 4 ≤ leftLevel op := by cases op <;> simp [opLevel] at h3 <;> simp [leftLevel, opLevel]
      simp only [graftMinus, if_neg h3]
      refine ⟨?_, by rw [← List.append_assoc]; exact .bin op _ r _ us h2 tr, ?_⟩
      · simp only [Ladder]; exact ⟨by omega, h.2.1, h1, h.2.2.2⟩
      · simp only [level]; omega
  | _, _, .ident .., _, hm => by simp [LeadMinus] at hm
  | _, _, .int .., _, hm => by simp [LeadMinus] at hm
  | _, _, .bool _, _, hm => by simp [LeadMinus] at hm
  | _, _, .str .., _, hm => by simp [LeadMinus] at hm
  | _, _, .paren .., _, hm => by simp [LeadMinus] at hm
  | _, _, .field .., _, hm => by simp [LeadMinus] at hm
  | _, _, .index .., _, hm => by simp [LeadMinus] at hm
  | _, _, .call .., _, hm => by simp [LeadMinus] at hm
  | _, _, .cast .., _, hm => by simp [LeadMinus] at hm

end

theorem unCast_ok : ∀ {e : Expr} {ts : List Str}, ExprText e ts → Ladder e → LeadCast e → Ladder (unCast e) ∧
    (∃ x us, Name x ∧ ExprText (unCast e) us ∧ ts = ['('] :: s!' "struct" :: x :: [')'] :: us) ∧ level (unCast e) ≤ level e
  | _, _, .cast x e ts hx te, h, _ => by
    simp only [Ladder] at h
    exact ⟨h.2.1, ⟨x, ts, hx, te, rfl⟩, h.1⟩
  | _, _, .bin op l r ts us tl tr, h, hm => by
    simp only [Ladder] at h
    simp only [LeadCast] at hm
    obtain ⟨h1, ⟨x, vs, hx, h2, rfl⟩, h3⟩ := unCast_ok tl h.2.2.1 hm
    refine ⟨?_, ⟨x, vs ++ opText op :: us, hx, .bin op _ r vs us h2 tr, rfl⟩, ?_⟩
    · simp only [unCast, Ladder]; exact ⟨by omega, h.2.1, h1, h.2.2.2⟩
    · simp only [unCast, level]; omega
  | _, _, .ident .., _, hm => by simp [LeadCast] at hm
  | _, _, .int .., _, hm => by simp [LeadCast] at hm
  | _, _, .bool _, _, hm => by simp [LeadCast] at hm
  | _, _, .str .., _, hm => by simp [LeadCast] at hm
  | _, _, .paren .., _, hm => by simp [LeadCast] at hm
  | _, _, .field .., _, hm => by simp [LeadCast] at hm
  | _, _, .index .., _, hm => by simp [LeadCast] at hm
  | _, _, .call .., _, hm => by simp [LeadCast] at hm
  | _, _, .un .., _, hm => by simp [LeadCast] at hm

/-- the first token of an expression that begins with a word, and the same with another word -/
theorem graftWord_ok : ∀ {e : Expr} {ts : List Str}, ExprText e ts → Ladder e → LeadWord e →
    ∃ u us, ts = u :: us ∧ (∀ c ∈ u, WordChar c) ∧ u ≠ [] ∧
      ∀ t, Ladder (.ident t) → Ladder (graftWord t e) ∧ ExprText (graftWord t e) (t :: us) ∧ level (graftWord t e) ≤ level e
  | _, _, .ident x hx, _, _ => by
    refine ⟨x, [], rfl, (name_chars hx).1, (name_chars hx).2, fun t ht => ⟨ht, .ident t ?_, by simp only [graftWord, level]; omega⟩⟩
    simp only [Ladder] at ht; exact ht.1
  | _, _, .int ds hn _, _, _ => by
    refine ⟨ds, [], rfl, fun c hc => .inr (hn.2.1 c hc), hn.1, fun t ht => ⟨ht, .ident t ?_, by simp only [graftWord, level]; omega⟩⟩
    simp only [Ladder] at ht; exact ht.1
  | _, _, .bool b, _, _ => by
    refine ⟨_, [], rfl, ?_, ?_, fun t ht => ⟨ht, .ident t ?_, by simp only [graftWord, level]; omega⟩⟩
    · cases b
      · exact false_word
      · exact true_word
    · cases b <;> simp
    · simp only [Ladder] at ht; exact ht.1
  | _, _, .field e ts f te hx, h, hl => by
    simp only [Ladder] at h
    simp only [LeadWord] at hl
    obtain ⟨u, us, rfl, h1, h2, h3⟩ := graftWord_ok te h.2.1 hl
    refine ⟨u, _, rfl, h1, h2, fun t ht => ?_⟩
    obtain ⟨h4, h5, h6⟩ := h3 t ht
    refine ⟨?_, .field _ _ f h5 hx, by simp only [graftWord, level]; omega⟩
    simp only [graftWord, Ladder]; exact ⟨by omega, h4, h.2.2⟩
  | _, _, .index e i ts vs te ti, h, hl => by
    simp only [Ladder] at h
    simp only [LeadWord] at hl
    obtain ⟨u, us, rfl, h1, h2, h3⟩ := graftWord_ok te h.2.1 hl
    refine ⟨u, _, rfl, h1, h2, fun t ht => ?_⟩
    obtain ⟨h4, h5, h6⟩ := h3 t ht
    refine ⟨?_, .index _ i _ vs h5 ti, by simp only [graftWord, level]; omega⟩
    simp only [graftWord, Ladder]; exact ⟨by omega, h4, h.2.2⟩
  | _, _, .call e a ts vs te ta, h, hl => by
    simp only [Ladder] at h
    simp only [LeadWord] at hl
    obtain ⟨u, us, rfl, h1, h2, h3⟩ := graftWord_ok te h.2.1 hl
    refine ⟨u, _, rfl, h1, h2, fun t ht => ?_⟩
    obtain ⟨h4, h5, h6⟩ := h3 t ht
    refine ⟨?_, .call _ a _ vs h5 ta, by simp only [graftWord, level]; omega⟩
    simp only [graftWord, Ladder]; exact ⟨by omega, h4, h.2.2⟩
  | _, _, .bin op l r ts vs te tr, h, hl => by
    simp only [Ladder] at h
    simp only [LeadWord] at hl
    obtain ⟨u, us, rfl, h1, h2, h3⟩ := graftWord_ok te h.2.2.1 hl
    refine ⟨u, _, rfl, h1, h2, fun t ht => ?_⟩
    obtain ⟨h4, h5, h6⟩ := h3 t ht
    refine ⟨?_, .bin op _ r _ vs h5 tr, by simp only [graftWord, level]; omega⟩
    simp only [graftWord, Ladder]; exact ⟨by omega, h.2.1, h4, h.2.2.2⟩
  | _, _, .str .., _, hl => by simp [LeadWord] at hl
  | _, _, .paren .., _, hl => by simp [LeadWord] at hl
  | _, _, .un .., _, hl => by simp [LeadWord] at hl
  | _, _, .cast .., _, hl => by simp [LeadWord] at hl

theorem ladder_struct : Ladder (.ident s!' "struct") := by
  simp only [Ladder]
  refine ⟨⟨'s', s!' "truct", rfl, by unfold Letter; decide, ?_⟩, by decide, by decide⟩
  intro d hd
  exact struct_word d (by simp at hd ⊢; exact .inr hd)

theorem letter_not_continues {c : Char} (h : Letter c) : continues c = false := by
  rw [Bool.eq_false_iff]; intro hx
  have := continues_not_ident hx
  rw [(isIdentChar_iff c).2 (.inl h)] at this; simp at this

/-- a word, blanks, another word: the expression ends after the first -/
theorem closed_word {w : Str} (hw : Blank w) (hne : w ≠ []) {c : Char} {r : Str} (hc : Letter c) : Closed (w ++ c :: r) :=
  ⟨blank_not_ident hw (fun h => absurd h hne), fun k _ => stop_char hw (letter_not_space hc) (letter_not_continues hc) k⟩

theorem word_last {x : Str} (h : ∀ c ∈ x, WordChar c) (hne : x ≠ []) : ∃ c, x.getLast? = some c ∧ WordChar c := by
  cases hx : x.getLast? with
  | none => exact absurd (List.getLast?_eq_none_iff.1 hx) hne
  | some c => exact ⟨c, rfl, h c (List.mem_of_getLast? hx)⟩

theorem name_word {x : Str} (h : Name x) : (∀ c ∈ x, WordChar c) ∧ x ≠ [] := by
  obtain ⟨c, cs, rfl, hc, hcs⟩ := h
  refine ⟨?_, by simp⟩
  intro d hd
  rcases List.mem_cons.1 hd with rfl | h
  · exact .inl hc
  · exact hcs d h

theorem glue_names {x y : Str} (hx : Name x) (hy : Name y) : Glue x y := by
  obtain ⟨h1, h2⟩ := name_word hx
  obtain ⟨c, cs, rfl, hc, _⟩ := hy
  exact ⟨word_last h1 h2, c, rfl, .inl hc⟩

/-- a cast after a word is not read as a call -/
theorem stop_cast {w w1 w2 x z : Str} (hw : Blank w) (hw1 : Blank w1) (hw2 : Blank w2) (hne : w2 ≠ []) (hx : Name x) (k : Nat) :
    Stop k (w ++ '(' :: (w1 ++ (s!' "struct" ++ (w2 ++ (x ++ z))))) := by
  obtain ⟨c, cs, rfl, hc, _⟩ := hx
  have hno : opsAt k ('(' :: (w1 ++ (s!' "struct" ++ (w2 ++ (c :: cs ++ z))))) = none := by
    unfold opsAt
    split <;> simp [alt, opTag, map, tag, sym, isA]
  rcases stop_ops (k := k) hw (noHead_cons.2 (by decide)) hno with rfl | h
  · refine stop_one hw (noHead_cons.2 (by decide)) ?_
    have hcl : Closed (w2 ++ (c :: cs ++ z)) := closed_word hw2 hne hc
    have htk : ExprText (.ident s!' "struct") [s!' "struct"] := .ident _ (by have := ladder_struct; simp only [Ladder] at this; exact this.1)
    have h1 := (parses htk ladder_struct _ (.one _)).expr htk (.one _) hw1 hcl
    have hns : NoHead isSpaceChar (c :: cs ++ z) := noHead_cons.2 (letter_not_space hc)
    have hcomma : c ≠ ',' := by rintro rfl; revert hc; unfold Letter; decide
    have hclose : c ≠ ')' := by rintro rfl; revert hc; unfold Letter; decide
    have hcomma' : sym ',' (c :: cs ++ z) = none := sym_ne hcomma
    have hclose' : sym ')' (c :: cs ++ z) = none := sym_ne hclose
    have h2 : seqR (seqR space (sym ',')) expr (w2 ++ (c :: cs ++ z)) = none := by
      simp only [seqR, space_blank hw2 hns, hcomma']
    have h3 : list expr (seqR space (sym ',')) (w1 ++ (s!' "struct" ++ (w2 ++ (c :: cs ++ z)))) =
        some ([.ident s!' "struct"], w2 ++ (c :: cs ++ z)) := by
      simp only [list, h1, many_none h2]
    have hn1 : ('(' : Char) ≠ '[' := by decide
    have hn2 : ('(' : Char) ≠ '.' := by decide
    simp only [postfixOp, alt, map, seqL, seqR, sym_cons, sym_ne hn1, sym_ne hn2]
    rw [h3]
    simp only [space_blank hw2 hns, hclose']
  · exact h

/-- one token instead of two -/
theorem packed_glue : ∀ {a : List Str} {t u : Str} {b : List Str} {text : Str}, Packed (a ++ t :: u :: b) text →
    ∃ x w r, Blank w ∧ (a = [] → x = []) ∧ Packed (u :: b) r ∧ text = x ++ t ++ (w ++ r) ∧ (a ≠ [] → ∃ y w', Blank w' ∧ Packed a y ∧ x = y ++ w') ∧
      (w = [] → Packed (a ++ (t ++ u) :: b) text) := by
  intro a
  induction a with
  | nil =>
    intro t u b text h
    obtain ⟨w, r, rfl, hw, hr⟩ := packed_cons h
    refine ⟨[], w, r, hw, fun _ => rfl, hr, by simp, fun h => absurd rfl h, ?_⟩
    rintro rfl
    cases b with
    | nil => rw [packed_one hr]; exact .one _
    | cons v b =>
      obtain ⟨w2, r2, rfl, hw2, hr2⟩ := packed_cons hr
      have := Packed.cons (t ++ u) w2 v b r2 hw2 hr2
      simpa using this
  | cons s a ih =>
    intro t u b text h
    cases a with
    | nil =>
      obtain ⟨w0, r0, rfl, hw0, hr0⟩ := packed_cons h
      obtain ⟨x, w, r, h1, h2, h3, h4, h5, h6⟩ := ih hr0
      have hx := h2 rfl
      subst hx
      refine ⟨s ++ w0, w, r, h1, by simp, h3, by rw [h4]; simp, fun _ => ⟨s, w0, hw0, .one s, rfl⟩, fun h0 => ?_⟩
      have := Packed.cons s w0 (t ++ u) b r0 hw0 (h6 h0)
      simpa using this
    | cons s' a =>
      obtain ⟨w0, r0, rfl, hw0, hr0⟩ := packed_cons h
      obtain ⟨x, w, r, h1, h2, h3, h4, h5, h6⟩ := ih hr0
      obtain ⟨y, w', hy, hy2, rfl⟩ := h5 (by simp)
      refine ⟨s ++ (w0 ++ (y ++ w')), w, r, h1, by simp, h3, by rw [h4]; simp, fun _ => ⟨s ++ w0 ++ y, w', hy, .cons s w0 s' a y hw0 hy2, by simp⟩, fun h0 => ?_⟩
      have := Packed.cons s w0 s' (a ++ (t ++ u) :: b) r0 hw0 (h6 h0)
      simpa using this

/-- the text ends with the last token -/
theorem packed_last : ∀ {ts : List Str} {text t : Str}, Packed ts text → ts.getLast? = some t → ∃ a, text = a ++ t
  | _, _, t, .one s, h => ⟨[], by simp at h; simp [h]⟩
  | _, _, t, .cons s w u ts r _ hr, h => by
    obtain ⟨a, rfl⟩ := packed_last hr (by simpa using h)
    exact ⟨s ++ (w ++ a), by simp⟩

/-- the words that the head of a statement can be -/
def KeyWord (kw : Str) : Prop := ∀ z, (∀ c ∈ z, WordChar c) → Ladder (.ident (kw ++ z))

/-- Reading a head (a key word, or a call) and the expression after it as one expression stops at the end of the
expression or between the two. -/
theorem head_expr : ∀ (n : Nat) {H : Expr} {hd : List Str} (_ : Ladder H) (_ : ExprText H hd) (_ : level H ≤ 1)
    (_ : (∃ kw, H = .ident kw ∧ hd = [kw] ∧ KeyWord kw) ∨ hd.getLast? = some [')'])
    {e : Expr} {us : List Str} (_ : ExprText e us) (_ : Ladder e) (_ : us.length ≤ n)
    {text : Str} (_ : Packed (hd ++ us) text) {w r : Str} (_ : Blank w),
    ∃ e' s', expr (text ++ (w ++ '{' :: r)) = some (e', s') ∧ NoEnd s' := by
  intro n
  induction n with
  | zero =>
    intro H hd _ _ _ _ e us ht _ hn text _ w r _
    have := text_ne ht
    cases us with
    | nil => exact absurd rfl this
    | cons u us => simp at hn
  | succ n ih =>
  intro H hd hL hT hl hK e us ht he hn text hs w r hw
  have hbrace : Closed (w ++ '{' :: r) := closed_char hw (by decide) (by decide) (by decide)
  have hend : NoEnd (w ++ '{' :: r) := ⟨w, '{', r, rfl, hw, by decide, by decide, by decide, by decide, by decide⟩
  have graft : ∀ e' ts, Ladder e' → ExprText e' ts → Packed ts text → ∃ e' s', expr (text ++ (w ++ '{' :: r)) = some (e', s') ∧ NoEnd s' := by
    intro e' ts h1 h2 h3
    exact ⟨e', _, (parses h2 h1 text h3).expr0 h2 h3 hbrace, hend⟩
  have split : ∀ th tail, Packed hd th → Fits th tail → (∀ k, k ≤ 12 → Stop k tail) → NoEnd tail → text ++ (w ++ '{' :: r) = th ++ tail →
      ∃ e' s', expr (text ++ (w ++ '{' :: r)) = some (e', s') ∧ NoEnd s' := by
    intro th tail h0 h1 h1' h2 h3
    rw [h3]
    exact ⟨H, tail, (parses hT hL th h0).exprF hT h0 h1 h1', h2⟩
  have hhd : hd ≠ [] := text_ne hT
  rcases lead_kinds ht he with h | h | h | h | ⟨e', vs, ts, he', h⟩ | ⟨c, cs, ts, h, h2, h3, h4⟩
  · obtain ⟨h1, h2, _⟩ := graftParen_ok hL hT hl ht he h
    exact graft _ _ h1 h2 hs
  · obtain ⟨h1, h2, _⟩ := graftMinus_ok hL hT hl ht he h
    exact graft _ _ h1 h2 hs
  · obtain ⟨h1, ⟨x, vs, hx, h2, rfl⟩, h3⟩ := unCast_ok ht he h
    have hs' : Packed ((hd ++ [['(']]) ++ s!' "struct" :: x :: ([')'] :: vs)) text := by simpa using hs
    obtain ⟨y, w3, r3, hw3, -, hr3, htx, hy, hglue⟩ := packed_glue hs'
    by_cases h0 : w3 = []
    · -- the cast is read as an argument
      have hg := hglue h0
      have hsx : Ladder (.ident (s!' "struct" ++ x)) := by
        simp only [Ladder]
        refine ⟨⟨'s', s!' "truct" ++ x, rfl, by unfold Letter; decide, ?_⟩, ?_, ?_⟩
        · intro d hd
          rcases List.mem_append.1 hd with h | h
          · exact struct_word d (by simp at h ⊢; exact .inr h)
          · exact (name_chars hx).1 d h
        · rintro ⟨z, hz⟩; simp at hz
        · rintro ⟨z, hz⟩; simp at hz
      have hsn : Name (s!' "struct" ++ x) := by simp only [Ladder] at hsx; exact hsx.1
      have hC : Ladder (.call H [.ident (s!' "struct" ++ x)]) := by
        simp only [Ladder, LadderArgs] at hsx ⊢
        exact ⟨hl, hL, hsx, trivial⟩
      have hCT := ExprText.call H [.ident (s!' "struct" ++ x)] hd [s!' "struct" ++ x] hT (.one _ _ (.ident _ hsn))
      refine ih hC hCT (by simp [level]) (.inr (by simp)) h2 h1 (by simp at hn; omega) (text := text) ?_ hw
      simpa using hg
    · obtain ⟨y', w', hw', hy', rfl⟩ := hy (by simp)
      obtain ⟨th, w1, tb, rfl, hth, htb, hw1⟩ := packed_append hhd hy'
      rw [packed_one htb] at htx hy'
      obtain ⟨more, rfl⟩ := packed_head hr3
      refine split th (w1 ++ '(' :: (w' ++ (s!' "struct" ++ (w3 ++ (x ++ (more ++ (w ++ '{' :: r))))))) hth (fits ?_) ?_ ?_ ?_
      · exact blank_not_ident hw1 (fun _ => noHead_cons.2 (by decide))
      · intro k _; exact stop_cast hw1 hw' hw3 h0 hx k
      · exact ⟨w1, '(', _, rfl, hw1, by decide, by decide, by decide, by decide, by decide⟩
      · rw [htx]; simp
  · obtain ⟨u, us', rfl, h1, h2, h3⟩ := graftWord_ok ht he h
    obtain ⟨th, w1, tb, htx, hth, htb, hw1⟩ := packed_append hhd hs
    obtain ⟨more, rfl⟩ := packed_head htb
    obtain ⟨c, cs, rfl⟩ : ∃ c cs, u = c :: cs := by
      cases u with
      | nil => exact absurd rfl h2
      | cons c cs => exact ⟨c, cs, rfl⟩
    have hc := (isIdentChar_iff c).2 (h1 c (by simp))
    have hsp := word_not_space (h1 c (by simp))
    have hnc : continues c = false := by
      rw [Bool.eq_false_iff]; intro hx
      rw [continues_not_ident hx] at hc
      simp at hc
    have stop : Fits th (w1 ++ (c :: (cs ++ (more ++ (w ++ '{' :: r))))) → ∃ e' s', expr (text ++ (w ++ '{' :: r)) = some (e', s') ∧ NoEnd s' := by
      intro hf
      refine split th _ hth hf (fun k _ => stop_char hw1 hsp hnc k) ?_ (by rw [htx]; simp)
      refine ⟨w1, c, _, rfl, hw1, hsp, ?_, ?_, ?_, ?_⟩ <;> rintro rfl <;> revert hc <;> decide
    rcases hK with ⟨kw, rfl, rfl, hkw⟩ | hlast
    · by_cases h0 : w1 = []
      · obtain ⟨h4, h5, -⟩ := h3 (kw ++ (c :: cs)) (hkw _ h1)
        refine graft _ _ h4 h5 ?_
        rw [packed_one hth] at htx
        subst h0
        rw [htx]
        cases us' with
        | nil =>
          have := packed_one htb
          rw [this]
          exact .one _
        | cons v us' =>
          obtain ⟨w2, r2, h6, hw2, hr2⟩ := packed_cons htb
          rw [h6]
          have := Packed.cons (kw ++ (c :: cs)) w2 v us' r2 hw2 hr2
          simpa using this
      · exact stop (fits (blank_not_ident hw1 (fun h => absurd h h0)))
    · refine stop ?_
      obtain ⟨a, rfl⟩ := packed_last hth hlast
      intro d hd hi
      simp at hd
      subst hd
      exact absurd hi (by decide)
  · rw [h] at hs
    obtain ⟨th, w1, r1, rfl, hth, hr1, hw1⟩ := packed_append hhd hs
    obtain ⟨t, ts2, c, cs, e1, rfl, hc⟩ := lead_head (lead he')
    rw [e1] at hr1
    obtain ⟨w2, r2, rfl, hw2, hr2⟩ := packed_open (by simp) hr1
    obtain ⟨more, rfl⟩ := packed_head hr2
    have ho : Opens (w2 ++ (c :: cs ++ (more ++ (w ++ '{' :: r)))) := by
      cases w2 with
      | nil => exact ⟨c, _, rfl, .inr hc⟩
      | cons d w2 => exact ⟨d, _, rfl, .inl ((isSpaceChar_iff d).2 (hw2 d (by simp)))⟩
    refine split th (w1 ++ '!' :: (w2 ++ (c :: cs ++ (more ++ (w ++ '{' :: r))))) hth (fits ?_) ?_ ?_ (by simp)
    · exact blank_not_ident hw1 (fun _ => noHead_cons.2 (by decide))
    · intro k _; exact stop_bang hw1 ho k
    · exact ⟨w1, '!', _, rfl, hw1, by decide, by decide, by decide, by decide, by decide⟩
  · rw [h] at hs
    obtain ⟨th, w1, r1, rfl, hth, hr1, hw1⟩ := packed_append hhd hs
    obtain ⟨more, rfl⟩ := packed_head hr1
    have hsp := starts_not_space h2
    refine split th (w1 ++ (c :: (cs ++ (more ++ (w ++ '{' :: r))))) hth (fits ?_) (fun k _ => stop_char hw1 hsp h3 k) ?_ (by simp)
    · exact blank_not_ident hw1 (fun _ => noHead_cons.2 h4)
    · refine ⟨w1, c, _, rfl, hw1, hsp, ?_, ?_, ?_, ?_⟩
      · rintro rfl; simp [starts, isIdentChar, isIdentStart, isDigitChar] at h2
      · rintro rfl; simp [starts, isIdentChar, isIdentStart, isDigitChar] at h2
      · rintro rfl; simp [continues] at h3
      · rintro rfl; simp [continues] at h3

/-- Reading a key word and the expression after it as one expression stops at the end of the expression or
between the two. -/
theorem keyword_expr {kw : Str} (hkw : KeyWord kw) {e : Expr} {us : List Str} (ht : ExprText e us) (he : Ladder e)
    {text : Str} (hs : Packed (kw :: us) text) {w r : Str} (hw : Blank w) :
    ∃ e' s', expr (text ++ (w ++ '{' :: r)) = some (e', s') ∧ NoEnd s' := by
  have h0 : Ladder (.ident kw) := by simpa using hkw [] (by simp)
  have hn : Name kw := by simp only [Ladder] at h0; exact h0.1
  exact head_expr _ h0 (.ident kw hn) (by simp [level]) (.inl ⟨kw, rfl, rfl, hkw⟩) ht he (Nat.le_refl _) (text := text) hs hw

end Btrd
