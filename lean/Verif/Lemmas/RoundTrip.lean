/-
Reading back the written form of an expression, with its literals in any spelling.
-/
import Verif.Lemmas.Levels
import Verif.Lemmas.Literal

namespace Btrd
open P Spec

/-! ### spaced tokens -/

/-- Text made of the tokens in order, with any blanks between two of them. -/
inductive Packed : List Str → Str → Prop
  | nil : Packed [] []
  | one (t : Str) : Packed [t] t
  | cons (t w t' : Str) (ts : List Str) (rest : Str) : Blank w → Packed (t' :: ts) rest → Packed (t :: t' :: ts) (t ++ w ++ rest)

theorem Spec.Spaced.packed {ts : List Str} {text : Str} (h : Spaced ts text) : Packed ts text := by
  induction h with
  | nil => exact .nil
  | one t => exact .one t
  | cons t w t' ts rest hw _ _ ih => exact .cons t w t' ts rest hw ih

/-- loosely spaced tokens, without the blanks around them -/
theorem Spec.Loose.packed {ts : List Str} {s : Str} (h : Loose ts s) : ∃ w text w2, Blank w ∧ Blank w2 ∧ Packed ts text ∧ s = w ++ text ++ w2 := by
  induction h with
  | nil w hw => exact ⟨w, [], [], hw, by simp [Blank], .nil, by simp⟩
  | cons w t ts r hw _ ih =>
    obtain ⟨w1, text, w2, h1, h2, h3, rfl⟩ := ih
    cases ts with
    | nil =>
      cases h3
      refine ⟨w, t, w1 ++ w2, hw, ?_, .one t, by simp⟩
      intro c hc
      rcases List.mem_append.1 hc with h | h
      · exact h1 c h
      · exact h2 c h
    | cons t' ts => exact ⟨w, t ++ w1 ++ text, w2, hw, h2, .cons t w1 t' ts text h1 h3, by simp⟩

theorem packed_cons {t t' : Str} {ts : List Str} {text : Str} (h : Packed (t :: t' :: ts) text) :
    ∃ w rest, text = t ++ (w ++ rest) ∧ Blank w ∧ Packed (t' :: ts) rest := by
  cases h with
  | cons _ w _ _ rest hw hr => exact ⟨w, rest, by simp, hw, hr⟩

theorem packed_one {t text : Str} (h : Packed [t] text) : text = t := by
  cases h; rfl

theorem packed_head {t : Str} {ts : List Str} {text : Str} (h : Packed (t :: ts) text) : ∃ more, text = t ++ more := by
  cases ts with
  | nil => exact ⟨[], by rw [packed_one h]; simp⟩
  | cons t' ts => obtain ⟨w, rest, rfl, _⟩ := packed_cons h; exact ⟨_, rfl⟩

/-- splitting tokens -/
theorem packed_append : ∀ {a : List Str} {t' : Str} {b : List Str} {text : Str}, a ≠ [] → Packed (a ++ t' :: b) text →
    ∃ ta w tb, text = ta ++ (w ++ tb) ∧ Packed a ta ∧ Packed (t' :: b) tb ∧ Blank w
  | [], _, _, _, h, _ => absurd rfl h
  | [t], t', b, text, _, h => by
    obtain ⟨w, rest, rfl, hw, hr⟩ := packed_cons h
    exact ⟨t, w, rest, rfl, .one t, hr, hw⟩
  | t :: t2 :: a, t', b, text, _, h => by
    obtain ⟨w, rest, rfl, hw, hr⟩ := packed_cons h
    obtain ⟨ta, w2, tb, rfl, h1, h2, h3⟩ := packed_append (a := t2 :: a) (by simp) hr
    refine ⟨t ++ (w ++ ta), w2, tb, by simp, ?_, h2, h3⟩
    have := Packed.cons t w t2 a ta hw h1
    rwa [List.append_assoc] at this

theorem spaced_cons {t t' : Str} {ts : List Str} {text : Str} (h : Spaced (t :: t' :: ts) text) :
    ∃ w rest, text = t ++ (w ++ rest) ∧ Blank w ∧ (w = [] → ¬ Glue t t') ∧ Spaced (t' :: ts) rest := by
  cases h with
  | cons _ w _ _ rest hw hg hr => exact ⟨w, rest, by simp, hw, hg, hr⟩

theorem spaced_one {t text : Str} (h : Spaced [t] text) : text = t := by
  cases h; rfl

theorem spaced_head {t : Str} {ts : List Str} {text : Str} (h : Spaced (t :: ts) text) : ∃ more, text = t ++ more :=
  packed_head h.packed

/-- splitting spaced tokens -/
theorem spaced_append : ∀ {a : List Str} {t' : Str} {b : List Str} {text : Str}, a ≠ [] → Spaced (a ++ t' :: b) text →
    ∃ ta w tb, text = ta ++ (w ++ tb) ∧ Spaced a ta ∧ Spaced (t' :: b) tb ∧ Blank w
  | [], _, _, _, h, _ => absurd rfl h
  | [t], t', b, text, _, h => by
    obtain ⟨w, rest, rfl, hw, hg, hr⟩ := spaced_cons h
    exact ⟨t, w, rest, rfl, .one t, hr, hw⟩
  | t :: t2 :: a, t', b, text, _, h => by
    obtain ⟨w, rest, rfl, hw, hg, hr⟩ := spaced_cons h
    obtain ⟨ta, w2, tb, rfl, h1, h2, h3⟩ := spaced_append (a := t2 :: a) (by simp) hr
    refine ⟨t ++ (w ++ ta), w2, tb, by simp, ?_, h2, h3⟩
    have := Spaced.cons t w t2 a ta hw hg h1
    rwa [List.append_assoc] at this

/-! ### the first token -/

theorem letter_starts {c : Char} (h : Letter c) : starts c = true := by
  simp [starts, (isIdentChar_iff c).2 (.inl h)]

theorem name_head {x : Str} (h : Name x) : ∃ c cs, x = c :: cs ∧ starts c = true := by
  obtain ⟨c, cs, rfl, hc, _⟩ := h; exact ⟨c, cs, rfl, letter_starts hc⟩

theorem name_chars {x : Str} (h : Name x) : (∀ c ∈ x, WordChar c) ∧ x ≠ [] := by
  obtain ⟨c, cs, rfl, hc, hcs⟩ := h
  refine ⟨?_, by simp⟩
  intro d hd
  rcases List.mem_cons.1 hd with rfl | h
  · exact .inl hc
  · exact hcs d h

theorem digits_head (n : Nat) : ∃ c cs, Nat.toDigits 10 n = c :: cs ∧ '0' ≤ c ∧ c ≤ '9' := by
  obtain ⟨h1, h2, _⟩ := numeral_toDigits n
  cases h : Nat.toDigits 10 n with
  | nil => exact absurd h h1
  | cons c cs => rw [h] at h2; exact ⟨c, cs, rfl, h2 c (by simp)⟩

theorem digit_not_letter {c : Char} (h : '0' ≤ c ∧ c ≤ '9') : ¬ Letter c := by
  intro hl
  have := letter_not_digit hl
  rw [(isDigitChar_iff c).2 h] at this
  simp at this

theorem name_true : Name s!' "true" := ⟨'t', s!' "rue", rfl, by unfold Letter; decide, by
  intro d hd
  simp only [List.mem_cons, List.not_mem_nil, or_false] at hd
  rcases hd with rfl | rfl | rfl <;> unfold WordChar Letter <;> decide⟩

theorem name_false : Name s!' "false" := ⟨'f', s!' "alse", rfl, by unfold Letter; decide, by
  intro d hd
  simp only [List.mem_cons, List.not_mem_nil, or_false] at hd
  rcases hd with rfl | rfl | rfl | rfl <;> unfold WordChar Letter <;> decide⟩

/-- What can be said of the tokens of an expression from its beginning: it is a single word, or it is a word
followed by an operator, or it does not begin with a letter. -/
def Lead (e : Expr) (all : List Str) : Prop := ∃ t ts, all = t :: ts ∧
  ((ts = [] ∧ Name t ∧ (e = .ident t ∨ ∃ b, e = .bool b)) ∨
   (Name t ∧ ∃ c cs ts', ts = (c :: cs) :: ts' ∧ continues c = true) ∨
   (∃ c cs, t = c :: cs ∧ ¬ Letter c ∧ starts c = true))

theorem lead_append {e e' : Expr} {us : List Str} {c : Char} {cs : Str} {ts : List Str} (h : Lead e us)
    (hc : continues c = true) : Lead e' (us ++ (c :: cs) :: ts) := by
  obtain ⟨t, ts1, rfl, h⟩ := h
  refine ⟨t, ts1 ++ (c :: cs) :: ts, rfl, ?_⟩
  rcases h with ⟨rfl, hn, _⟩ | ⟨hn, c2, cs2, ts2, rfl, h2⟩ | h
  · exact .inr (.inl ⟨hn, c, cs, ts, rfl, hc⟩)
  · exact .inr (.inl ⟨hn, c2, cs2, _, rfl, h2⟩)
  · exact .inr (.inr h)

theorem opText_head (op : BinOp) : ∃ c cs, opText op = c :: cs ∧ continues c = true := by
  cases op <;> exact ⟨_, _, rfl, by decide⟩

/-- the first character of a numeral -/
theorem numeral_head {ds : Str} (h : Numeral ds) : ∃ c cs, ds = c :: cs ∧ '0' ≤ c ∧ c ≤ '9' := by
  cases ds with
  | nil => exact absurd rfl h.1
  | cons c cs => exact ⟨c, cs, rfl, h.2.1 c (by simp)⟩

theorem lead : ∀ {e : Expr} {ts : List Str}, ExprText e ts → Lead e ts
  | _, _, .ident x h => ⟨x, [], rfl, .inl ⟨rfl, h, .inl rfl⟩⟩
  | _, _, .int ds h _ => by
    obtain ⟨c, cs, rfl, hd⟩ := numeral_head h
    refine ⟨_, [], rfl, .inr (.inr ⟨c, cs, rfl, digit_not_letter hd, ?_⟩)⟩
    simp [starts, (isIdentChar_iff c).2 (.inr hd)]
  | _, _, .bool b => by
    refine ⟨if b then s!' "true" else s!' "false", [], rfl, .inl ⟨rfl, ?_, .inr ⟨b, rfl⟩⟩⟩
    cases b
    · exact name_false
    · exact name_true
  | _, _, .str s t h => by
    obtain ⟨b, _, rfl⟩ := h
    exact ⟨_, [], rfl, .inr (.inr ⟨'"', _, rfl, by unfold Letter; decide, by decide⟩)⟩
  | _, _, .paren e ts h => ⟨['('], _, rfl, .inr (.inr ⟨'(', [], rfl, by unfold Letter; decide, by decide⟩)⟩
  | _, _, .field e ts x h _ => lead_append (c := '.') (cs := x) (ts := []) (lead h) (by decide)
  | _, _, .index e i ts us h _ => lead_append (c := '[') (cs := []) (lead h) (by decide)
  | _, _, .call f args ts us h _ => lead_append (c := '(') (cs := []) (lead h) (by decide)
  | _, _, .bin op l r ts us h _ => by
    obtain ⟨c, cs, e, hc⟩ := opText_head op
    rw [e]
    exact lead_append (c := c) (cs := cs) (lead h) hc
  | _, _, .un op e ts h => by
    refine ⟨unText op, ts, rfl, .inr (.inr ?_)⟩
    cases op <;> exact ⟨_, _, rfl, by unfold Letter; decide, by decide⟩
  | _, _, .cast x e ts hx h => ⟨['('], _, rfl, .inr (.inr ⟨'(', [], rfl, by unfold Letter; decide, by decide⟩)⟩

theorem lead_head {e : Expr} {us : List Str} (h : Lead e us) : ∃ t ts c cs, us = t :: ts ∧ t = c :: cs ∧ starts c = true := by
  obtain ⟨t, ts, e1, h⟩ := h
  rcases h with ⟨_, hn, _⟩ | ⟨hn, _⟩ | ⟨c, cs, rfl, _, hc⟩
  · obtain ⟨c, cs, rfl, hc⟩ := name_head hn; exact ⟨_, ts, c, cs, e1, rfl, hc⟩
  · obtain ⟨c, cs, rfl, hc⟩ := name_head hn; exact ⟨_, ts, c, cs, e1, rfl, hc⟩
  · exact ⟨_, ts, c, cs, e1, rfl, hc⟩

theorem text_ne {e : Expr} {ts : List Str} (h : ExprText e ts) : ts ≠ [] := by
  obtain ⟨t, ts, c, cs, rfl, _⟩ := lead_head (lead h)
  simp

theorem tokens_ne {e : Expr} (h : Ladder e) : tokens e ≠ [] := text_ne (exprText_tokens e h)

/-- the text of an expression begins with a character that can begin an expression -/
theorem text_head {e : Expr} {ts : List Str} (h : ExprText e ts) {text : Str} (hs : Packed ts text) :
    ∃ c cs, text = c :: cs ∧ starts c = true := by
  obtain ⟨t, ts, c, cs, rfl, rfl, hc⟩ := lead_head (lead h)
  obtain ⟨more, rfl⟩ := packed_head hs
  exact ⟨c, cs ++ more, rfl, hc⟩

theorem text_noSpace {e : Expr} {ts : List Str} (h : ExprText e ts) {text : Str} (hs : Packed ts text) (rest : Str) :
    NoHead isSpaceChar (text ++ rest) := by
  obtain ⟨c, cs, rfl, hc⟩ := text_head h hs
  exact noHead_cons.2 (starts_not_space hc)

theorem text_opens {e : Expr} {ts : List Str} (h : ExprText e ts) {text : Str} (hs : Packed ts text) {w : Str} (hw : Blank w)
    (rest : Str) : Opens (w ++ (text ++ rest)) := by
  obtain ⟨c, cs, rfl, hc⟩ := text_head h hs
  cases w with
  | nil => exact ⟨c, _, rfl, .inr hc⟩
  | cons d w => exact ⟨d, _, rfl, .inl ((isSpaceChar_iff d).2 (hw d (by simp)))⟩

/-! ### what may follow an expression -/

theorem continues_not_space {c : Char} (h : continues c = true) : isSpaceChar c = false := by
  simp only [continues, List.elem_eq_mem, decide_eq_true_eq, List.mem_cons, List.not_mem_nil, or_false] at h
  rcases h with rfl | rfl | rfl | rfl | rfl | rfl | rfl | rfl | rfl | rfl | rfl | rfl | rfl | rfl | rfl <;> decide

theorem continues_not_ident {c : Char} (h : continues c = true) : isIdentChar c = false := by
  simp only [continues, List.elem_eq_mem, decide_eq_true_eq, List.mem_cons, List.not_mem_nil, or_false] at h
  rcases h with rfl | rfl | rfl | rfl | rfl | rfl | rfl | rfl | rfl | rfl | rfl | rfl | rfl | rfl | rfl <;> decide

theorem blank_not_ident {w r : Str} (hw : Blank w) (h : w = [] → NoHead isIdentChar r) : NoHead isIdentChar (w ++ r) := by
  cases w with
  | nil => exact h rfl
  | cons d w =>
    refine noHead_cons.2 ?_
    have := hw d (by simp)
    rcases this with rfl | rfl | rfl | rfl <;> decide

theorem ident_of_not_char {r : Str} (h : NoHead isIdentChar r) : NoHead isDigitChar r := by
  intro c hc
  have := h c hc
  simp only [isIdentChar, Bool.or_eq_false_iff] at this
  exact this.2

/-- the text after a complete expression -/
def Closed (rest : Str) : Prop := NoHead isIdentChar rest ∧ ∀ k, k ≤ 12 → Stop k rest

theorem closed_char {w : Str} (hw : Blank w) {c : Char} {r : Str} (hsp : isSpaceChar c = false)
    (hi : isIdentChar c = false) (h : continues c = false) : Closed (w ++ c :: r) :=
  ⟨blank_not_ident hw (fun _ => noHead_cons.2 hi), fun k _ => stop_char hw hsp h k⟩

theorem closed_nil {w : Str} (hw : Blank w) : Closed w := by
  refine ⟨?_, fun k _ => stop_nil hw k⟩
  rw [← List.append_nil w]
  exact blank_not_ident hw (fun _ => noHead_nil _)

theorem closed_assign {w tail : Str} (hw : Blank w) (ht : Opens tail) : Closed (w ++ '=' :: tail) :=
  ⟨blank_not_ident hw (fun _ => noHead_cons.2 (by decide)), fun k _ => stop_assign hw ht k⟩

theorem closed_compound {w tail : Str} (hw : Blank w) {c : Char} (hc : c = '+' ∨ c = '-') :
    Closed (w ++ c :: '=' :: tail) :=
  ⟨blank_not_ident hw (fun _ => noHead_cons.2 (by rcases hc with rfl | rfl <;> decide)),
    fun k hk => stop_compound hw hc k hk⟩

/-! ### no cast where a parenthesis is meant -/

/-- a word in front of a character that is no part of it -/
theorem prefix_word {k t z : Str} (hk : ∀ c ∈ k, WordChar c) (hz : NoHead isIdentChar z)
    (h : k <+: t ++ z) : k <+: t := by
  induction k generalizing t with
  | nil => exact List.nil_prefix
  | cons c k ih =>
    cases t with
    | nil =>
      exfalso
      obtain ⟨u, hu⟩ := h
      have := hz c (by rw [List.nil_append] at hu; rw [← hu]; rfl)
      rw [(isIdentChar_iff c).2 (hk c (by simp))] at this
      simp at this
    | cons d t =>
      rw [List.cons_append, List.cons_prefix_cons] at h
      rw [List.cons_prefix_cons]
      exact ⟨h.1, ih (fun x hx => hk x (by simp [hx])) h.2⟩

theorem struct_word : ∀ c ∈ s!' "struct", WordChar c := by
  intro c hc
  simp only [List.mem_cons, List.not_mem_nil, or_false] at hc
  rcases hc with rfl | rfl | rfl | rfl | rfl | rfl <;> unfold WordChar Letter <;> decide

/-- the rule for casts -/
def castP : P Expr := seqL (seqL (seqR (seqR (tag s!' "(") space) typeSpecifier) space) (tag s!' ")")

/-- the rule for casts after the opening parenthesis -/
def castTail : P Expr := seqL (seqL typeSpecifier space) (tag s!' ")")

/-- after `struct`: no identifier, or an identifier that no closing parenthesis follows -/
theorem cast_word {y w z : Str} {c : Char} (hw : Blank w) (hy : ∀ d ∈ y, WordChar d) (hi : isIdentChar c = false)
    (hsp : isSpaceChar c = false) (hne : c = ')' → ∀ d ds, y = d :: ds → ¬ Letter d) :
    castTail (s!' "struct" ++ (y ++ (w ++ c :: z))) = none := by
  have hst : isIdentStart c = false := by
    simp only [isIdentChar, Bool.or_eq_false_iff] at hi; exact hi.1
  simp only [castTail, typeSpecifier, seqR, seqL, tag_append]
  cases y with
  | nil =>
    simp only [List.nil_append, space_blank hw (noHead_cons.2 hsp), ident_none (noHead_cons.2 hst)]
  | cons d y =>
    simp only [List.mem_cons, forall_eq_or_imp] at hy
    rw [List.cons_append, space_none (noHead_cons.2 (word_not_space hy.1))]
    simp only
    by_cases hl : Letter d
    · have hn : Name (d :: y) := ⟨d, y, rfl, hl, hy.2⟩
      have h1 := ident_name (x := d :: y) hn (blank_not_ident hw (fun _ => noHead_cons.2 hi) : NoHead isIdentChar (w ++ c :: z))
      rw [List.cons_append] at h1
      rw [h1]
      simp only [space_blank hw (noHead_cons.2 hsp)]
      have hp : c ≠ ')' := fun e => hne e d y rfl hl
      rw [tag_ne hp]
    · have : isIdentStart d = false := by rw [Bool.eq_false_iff]; intro h; exact hl ((isIdentStart_iff d).1 h)
      rw [ident_none (noHead_cons.2 this)]

/-- an expression in parentheses, or one that something else follows, is no cast -/
theorem castP_char {e : Expr} {all : List Str} (ht : ExprText e all) {x : Char} (hi : isIdentChar x = false)
    (hsp : isSpaceChar x = false) (hst : x = ')' → ∀ c cs, e = .ident (s!' "struct" ++ c :: cs) → ¬ Letter c)
    {inner w1 w2 rest : Str} (hs : Packed all inner)
    (hw1 : Blank w1) (hw2 : Blank w2) : castP ('(' :: (w1 ++ (inner ++ (w2 ++ x :: rest)))) = none := by
  have h1 : tag s!' "(" ('(' :: (w1 ++ (inner ++ (w2 ++ x :: rest)))) = some ((), w1 ++ (inner ++ (w2 ++ x :: rest))) := by
    simp [tag]
  have key : ∀ s, inner ++ (w2 ++ x :: rest) = s →
      castTail s = none := by
    intro s hse
    by_cases hp : s!' "struct" <+: s
    · obtain ⟨t, ts, e1, hl⟩ := lead ht
      rw [e1] at hs
      rcases hl with ⟨rfl, hn, hcase⟩ | ⟨hn, c, cs, ts', rfl, hc⟩ | ⟨c, cs, rfl, hc, _⟩
      · have := packed_one hs
        subst this
        have hz : NoHead isIdentChar (w2 ++ x :: rest) := blank_not_ident hw2 (fun _ => noHead_cons.2 hi)
        rw [← hse] at hp
        obtain ⟨y, hy⟩ := prefix_word struct_word hz hp
        have hwd : ∀ d ∈ y, WordChar d := by
          obtain ⟨c, cs, e2, hc, hcs⟩ := hn
          intro d hd
          have : d ∈ inner := by rw [← hy]; simp [hd]
          rw [e2] at this
          rcases List.mem_cons.1 this with rfl | h
          · exact .inl hc
          · exact hcs d h
        have hcw := cast_word (z := rest) (c := x) hw2 hwd hi hsp (by
          intro hx d ds hyd hld
          rcases hcase with rfl | ⟨b, rfl⟩
          · exact hst hx d ds (by rw [← hy, hyd]) hld
          · have e2 : inner = if b then s!' "true" else s!' "false" := by
              subst e1; cases ht; rfl
            rw [e2] at hy
            cases b <;> simp at hy)
        rw [← hse, ← hy, List.append_assoc]
        exact hcw
      · obtain ⟨w, r2, rfl, hw, hr⟩ := packed_cons hs
        obtain ⟨more, rfl⟩ := packed_head hr
        have hz : NoHead isIdentChar (w ++ (c :: cs ++ more) ++ (w2 ++ x :: rest)) := by
          rw [List.append_assoc]
          exact blank_not_ident hw (fun _ => noHead_cons.2 (continues_not_ident hc))
        rw [← hse, List.append_assoc] at hp
        obtain ⟨y, hy⟩ := prefix_word struct_word hz hp
        have hwd : ∀ d ∈ y, WordChar d := by
          obtain ⟨c, cs, e2, hc, hcs⟩ := hn
          intro d hd
          have : d ∈ t := by rw [← hy]; simp [hd]
          rw [e2] at this
          rcases List.mem_cons.1 this with rfl | h
          · exact .inl hc
          · exact hcs d h
        have hcw := cast_word (z := cs ++ more ++ (w2 ++ x :: rest)) (c := c) hw hwd (continues_not_ident hc)
          (continues_not_space hc) (by rintro rfl; simp [continues] at hc)
        rw [← hse, ← hy]
        simpa only [List.append_assoc, List.cons_append] using hcw
      · exfalso
        obtain ⟨more, rfl⟩ := packed_head hs
        rw [← hse] at hp
        simp only [List.cons_append, List.cons_prefix_cons] at hp
        apply hc
        rw [← hp.1]
        unfold Letter; decide
    · have h2 : typeSpecifier s = none := by
        simp only [typeSpecifier, seqR, seqL, tag_none_of hp]
      simp only [castTail, seqL, h2]
  simp only [castP, seqL, seqR, h1, space_blank hw1 (text_noSpace ht hs _)]
  have := key _ rfl
  simpa only [castTail, seqL] using this

theorem castP_paren {e : Expr} {all : List Str} (ht : ExprText e all) (h : Ladder (.paren e)) {inner w1 w2 rest : Str}
    (hs : Packed all inner)
    (hw1 : Blank w1) (hw2 : Blank w2) : castP ('(' :: (w1 ++ (inner ++ (w2 ++ ')' :: rest)))) = none := by
  simp only [Ladder] at h
  exact castP_char ht (by decide) (by decide) (fun _ => h.2) hs hw1 hw2

/-- primary and postfix expressions do not begin with a prefix operator -/
theorem noPrefix : ∀ {e : Expr} {ts : List Str}, ExprText e ts → Ladder e → level e ≤ 1 → ∀ text, Packed ts text →
    ∀ rest, prefixOp (text ++ rest) = none
  | _, _, .ident x hx, _, _, text, hs, rest => by
    rw [packed_one hs]
    obtain ⟨c, cs, rfl, hc, _⟩ := hx
    refine prefixOp_none ?_ ?_ ?_ ?_ <;> rintro rfl <;> revert hc <;> unfold Letter <;> decide
  | _, _, .int ds hd _, _, _, text, hs, rest => by
    rw [packed_one hs]
    obtain ⟨c, cs, rfl, hc⟩ := numeral_head hd
    refine prefixOp_none ?_ ?_ ?_ ?_ <;> rintro rfl <;> revert hc <;> decide
  | _, _, .bool b, _, _, text, hs, rest => by
    rw [packed_one hs]
    cases b
    · exact prefixOp_none (by decide) (by decide) (by decide) (by decide)
    · exact prefixOp_none (by decide) (by decide) (by decide) (by decide)
  | _, _, .str s t hl, _, _, text, hs, rest => by
    rw [packed_one hs]
    obtain ⟨b, _, rfl⟩ := hl
    exact prefixOp_none (by decide) (by decide) (by decide) (by decide)
  | _, _, .paren e ts he, h, _, text, hs, rest => by
    obtain ⟨w1, r1, rfl, hw1, _, hr1⟩ : ∃ w rest, text = ['('] ++ (w ++ rest) ∧ Blank w ∧ True ∧ Packed (ts ++ [[')']]) rest := by
      cases htk : ts with
      | nil => exact absurd htk (text_ne he)
      | cons t ts =>
        rw [htk] at hs
        obtain ⟨w, r, h1, h2, h4⟩ := packed_cons hs
        exact ⟨w, r, h1, h2, trivial, h4⟩
    obtain ⟨ti, w2, tb, rfl, hti, htb, hw2⟩ := packed_append (text_ne he) hr1
    rw [packed_one htb]
    have hc := castP_paren he h (rest := rest) hti hw1 hw2
    have hn1 : ('(' : Char) ≠ '~' := by decide
    have hn2 : ('(' : Char) ≠ '!' := by decide
    have hn3 : ('(' : Char) ≠ '-' := by decide
    have hcast : prefixOp ('(' :: (w1 ++ (ti ++ (w2 ++ ')' :: rest)))) =
        map PrefixOp.cast castP ('(' :: (w1 ++ (ti ++ (w2 ++ ')' :: rest)))) := by
      simp only [prefixOp, alt, map, tag_ne hn1, tag_ne hn2, tag_ne hn3, castP]
    have hshape : ['('] ++ (w1 ++ (ti ++ (w2 ++ [')']))) ++ rest = '(' :: (w1 ++ (ti ++ (w2 ++ ')' :: rest))) := by simp
    rw [hshape, hcast]
    simp only [map, hc]
  | _, _, .field e ts x he _, h, _, text, hs, rest => by
    simp only [Ladder] at h
    obtain ⟨ta, w, tb, rfl, hta, _⟩ := packed_append (text_ne he) hs
    rw [List.append_assoc]
    exact noPrefix he h.2.1 h.1 ta hta _
  | _, _, .index e i ts us he _, h, _, text, hs, rest => by
    simp only [Ladder] at h
    obtain ⟨ta, w, tb, rfl, hta, _⟩ := packed_append (text_ne he) hs
    rw [List.append_assoc]
    exact noPrefix he h.2.1 h.1 ta hta _
  | _, _, .call e args ts us he _, h, _, text, hs, rest => by
    simp only [Ladder] at h
    obtain ⟨ta, w, tb, rfl, hta, _⟩ := packed_append (text_ne he) hs
    rw [List.append_assoc]
    exact noPrefix he h.2.1 h.1 ta hta _
  | _, _, .bin op _ _ _ _ _ _, _, hl, _, _, _ => by exfalso; simp only [level] at hl; cases op <;> simp [opLevel] at hl
  | _, _, .un _ _ _ _, _, hl, _, _, _ => by simp [level] at hl
  | _, _, .cast _ _ _ _ _, _, hl, _, _, _ => by simp [level] at hl

/-! ### reading an expression at every level -/

/-- a word at the end of the text does not go on in what follows -/
def Fits (text rest : Str) : Prop := ∀ c, text.getLast? = some c → isIdentChar c = true → NoHead isIdentChar rest

theorem fits {text rest : Str} (h : NoHead isIdentChar rest) : Fits text rest := fun _ _ _ => h

/-- only the end of the text counts -/
theorem Fits.right {a b rest : Str} (h : Fits (a ++ b) rest) (hb : b ≠ []) : Fits b rest := by
  intro c hc hi
  refine h c ?_ hi
  rw [List.getLast?_append, hc]; rfl

/-- a text that ends with a word -/
theorem Fits.word {a x rest : Str} (h : Fits (a ++ x) rest) (hx : ∀ c ∈ x, WordChar c) (hne : x ≠ []) : NoHead isIdentChar rest := by
  cases hl : x.getLast? with
  | none => exact absurd (List.getLast?_eq_none_iff.1 hl) hne
  | some c => exact (h.right hne) c hl ((isIdentChar_iff c).2 (hx c (List.mem_of_getLast? hl)))

/-- the text is read as the expression by every level loose enough for it -/
structure Parses (e : Expr) (text : Str) : Prop where
  a : ∀ k, k ≤ 12 → level e ≤ k → ¬ (k = 7 ∧ level e = 7) → ∀ rest, Fits text rest →
    (∀ j, j < k → Stop j rest) → lv k (text ++ rest) = loop k e rest
  b : ∀ k, k ≤ 12 → level e ≤ k → ∀ rest, Fits text rest →
    (∀ j, j ≤ k → Stop j rest) → lv k (text ++ rest) = some (e, rest)

theorem level_le (e : Expr) : level e ≤ 12 := by
  cases e <;> simp only [level] <;> try omega
  rename_i op _ _
  cases op <;> simp [opLevel]

/-- It is enough to read it at its own level. -/
theorem climb {e : Expr} {ts : List Str} {text : Str} (ht : ExprText e ts) (he : Ladder e) (hs : Packed ts text)
    (h7 : level e = 7 → ∀ rest, Fits text rest → (∀ j, j < 7 → Stop j rest) → lv 7 (text ++ rest) = some (e, rest))
    (h : level e ≠ 7 → ∀ rest, Fits text rest → (∀ j, j < level e → Stop j rest) →
      lv (level e) (text ++ rest) = loop (level e) e rest) : Parses e text := by
  have hb0 : ∀ rest, Fits text rest → (∀ j, j ≤ level e → Stop j rest) →
      lv (level e) (text ++ rest) = some (e, rest) := by
    intro rest hr hst
    by_cases hk : level e = 7
    · rw [hk]; exact h7 hk rest hr (fun j hj => hst j (by omega))
    · rw [h hk rest hr (fun j hj => hst j (by omega)), loop_stop e (hst _ (by omega))]
  have step : ∀ k, k ≤ 12 → level e < k →
      (∀ rest, Fits text rest → (∀ j, j ≤ k - 1 → Stop j rest) → lv (k - 1) (text ++ rest) = some (e, rest)) →
      ∀ rest, Fits text rest → (∀ j, j < k → Stop j rest) → lv k (text ++ rest) = loop k e rest := by
    intro k hk hlt hprev rest hr hst
    have hp := hprev rest hr (fun j hj => hst j (by omega))
    by_cases h2 : k = 2
    · subst h2
      rw [unary_none (noPrefix ht he (by omega) text hs rest) (text_noSpace ht hs rest)]
      change lv 1 (text ++ rest) = _ at hp
      rw [hp]; rfl
    · rw [lv_step (by omega) h2 hk, hp]
  have hb : ∀ k, k ≤ 12 → level e ≤ k → ∀ rest, Fits text rest →
      (∀ j, j ≤ k → Stop j rest) → lv k (text ++ rest) = some (e, rest) := by
    intro k
    induction k with
    | zero => intro hk hl rest hr hst; have : level e = 0 := by omega
              rw [← this]; exact hb0 rest hr (by rw [this]; exact hst)
    | succ k ih =>
      intro hk hl rest hr hst
      by_cases he : level e = k + 1
      · rw [← he]; exact hb0 rest hr (by rw [he]; exact hst)
      · rw [step (k + 1) hk (by omega) (fun rest hr hst => ih (by omega) (by omega) rest hr hst) rest hr
          (fun j hj => hst j (by omega)), loop_stop e (hst _ (by omega))]
  refine ⟨?_, hb⟩
  intro k hk hl hn rest hr hst
  by_cases hek : level e = k
  · subst hek
    exact h (fun h7 => hn ⟨h7, h7⟩) rest hr hst
  · exact step k hk (by omega) (fun rest hr hst => hb (k - 1) (by omega) (by omega) rest hr hst) rest hr hst

/-- the whole rule for expressions, with blanks in front -/
theorem Parses.expr {e : Expr} {ts : List Str} {text : Str} (h : Parses e text) (he : ExprText e ts) (hs : Packed ts text)
    {w rest : Str} (hw : Blank w) (hr : Closed rest) : expr (w ++ (text ++ rest)) = some (e, rest) := by
  rw [expr_eq]
  simp only [seqR, space_blank hw (text_noSpace he hs rest)]
  exact h.b 12 (by omega) (level_le e) rest (fits hr.1) hr.2

theorem Parses.exprF {e : Expr} {ts : List Str} {text : Str} (h : Parses e text) (he : ExprText e ts) (hs : Packed ts text)
    {rest : Str} (hf : Fits text rest) (hr : ∀ k, k ≤ 12 → Stop k rest) : Btrd.expr (text ++ rest) = some (e, rest) := by
  rw [expr_eq]
  have := space_blank blank_nil (text_noSpace he hs rest)
  rw [List.nil_append] at this
  simp only [seqR, this]
  exact h.b 12 (by omega) (level_le e) rest hf hr

theorem Parses.expr0 {e : Expr} {ts : List Str} {text : Str} (h : Parses e text) (he : ExprText e ts) (hs : Packed ts text)
    {rest : Str} (hr : Closed rest) : Btrd.expr (text ++ rest) = some (e, rest) := by
  have := h.expr he hs blank_nil hr
  rwa [List.nil_append] at this

theorem loop_zero (e : Expr) (s : Str) : loop 0 e s = some (e, s) := rfl
theorem loop_two (e : Expr) (s : Str) : loop 2 e s = some (e, s) := rfl

theorem number_word_none {c : Char} {r : Str} (h : Letter c) : number (c :: r) = none := by
  refine number_none (noHead_cons.2 (letter_not_digit h)) (noHead_cons.2 ?_)
  rw [beq_eq_false_iff_ne]
  rintro rfl
  revert h; unfold Letter; decide

theorem true_word : ∀ c ∈ s!' "true", WordChar c := by
  intro c hc
  simp only [List.mem_cons, List.not_mem_nil, or_false] at hc
  rcases hc with rfl | rfl | rfl | rfl <;> unfold WordChar Letter <;> decide

theorem false_word : ∀ c ∈ s!' "false", WordChar c := by
  intro c hc
  simp only [List.mem_cons, List.not_mem_nil, or_false] at hc
  rcases hc with rfl | rfl | rfl | rfl | rfl <;> unfold WordChar Letter <;> decide

theorem primary_ident {x r : Str} (hn : Name x) (h1 : ¬ s!' "true" <+: x) (h2 : ¬ s!' "false" <+: x)
    (hr : NoHead isIdentChar r) : lv 0 (x ++ r) = some (.ident x, r) := by
  have e0 : number (x ++ r) = none := by
    obtain ⟨c, cs, rfl, hc, _⟩ := hn; exact number_word_none hc
  have e1 : tag s!' "true" (x ++ r) = none := tag_none_of fun h => h1 (prefix_word true_word hr h)
  have e2 : tag s!' "false" (x ++ r) = none := tag_none_of fun h => h2 (prefix_word false_word hr h)
  change primaryExpr expr (x ++ r) = _
  simp only [primaryExpr, constant, alt, map, e0, e1, e2, ident_name hn hr]

theorem primary_int {ds : Str} (h : Numeral ds) (h1 : decimal ds < 2 ^ 127) {r : Str} (hr : NoHead isIdentChar r) :
    lv 0 (ds ++ r) = some (.int (decimal ds), r) := by
  have e0 := number_numeral h (ident_of_not_char hr)
  rw [digitsVal_eq, if_pos (by omega)] at e0
  change primaryExpr expr _ = _
  simp only [primaryExpr, constant, alt, map, e0]

theorem primary_bool (b : Bool) (r : Str) :
    lv 0 ((if b then s!' "true" else s!' "false") ++ r) = some (.bool b, r) := by
  change primaryExpr expr _ = _
  cases b
  · have e0 : number (s!' "false" ++ r) = none := number_word_none (by unfold Letter; decide)
    have e1 : tag s!' "true" (s!' "false" ++ r) = none := tag_ne (by decide)
    simp only [Bool.false_eq_true, if_false, primaryExpr, constant, alt, map, e0, e1, tag_append]
  · have e0 : number (s!' "true" ++ r) = none := number_word_none (by unfold Letter; decide)
    simp only [if_true, primaryExpr, constant, alt, map, e0, tag_append]

theorem primary_str {s t : Str} (h : Literal s t) (r : Str) : lv 0 (t ++ r) = some (.str s, r) := by
  have e4 : string (t ++ r) = some (.str s, r) := by simp only [string, map, stringLit_literal h r]
  obtain ⟨b, _, rfl⟩ := h
  have e0 : number ('"' :: (b ++ ['"']) ++ r) = none := number_none (noHead_cons.2 (by decide)) (noHead_cons.2 (by decide))
  have e1 : tag s!' "true" ('"' :: (b ++ ['"']) ++ r) = none := tag_ne (by decide)
  have e2 : tag s!' "false" ('"' :: (b ++ ['"']) ++ r) = none := tag_ne (by decide)
  have e3 : ident ('"' :: (b ++ ['"']) ++ r) = none := ident_none (noHead_cons.2 (by decide))
  change primaryExpr expr _ = _
  simp only [primaryExpr, constant, alt, map, e0, e1, e2, e3, e4]

theorem primary_paren {e : Expr} {s w r : Str} (hw : Blank w) (h : expr s = some (e, w ++ ')' :: r)) :
    lv 0 ('(' :: s) = some (.paren e, r) := by
  have e0 : number ('(' :: s) = none := number_none (noHead_cons.2 (by decide)) (noHead_cons.2 (by decide))
  have e1 : tag s!' "true" ('(' :: s) = none := tag_ne (by decide)
  have e2 : tag s!' "false" ('(' :: s) = none := tag_ne (by decide)
  have e3 : ident ('(' :: s) = none := ident_none (noHead_cons.2 (by decide))
  have e4 : string ('(' :: s) = none := string_none (noHead_cons.2 (by decide))
  change primaryExpr expr _ = _
  simp only [primaryExpr, constant, alt, map, e0, e1, e2, e3, e4, seqL, seqR, sym_cons, h,
    space_blank hw (noHead_cons.2 (show isSpaceChar ')' = false by decide))]

theorem post_field {x r w : Str} (hn : Name x) (hw : Blank w) (hr : NoHead isIdentChar r) :
    postItem (w ++ '.' :: (x ++ r)) = some (.field (.ident x), r) := by
  have h1 : ('.' : Char) ≠ '(' := by decide
  have h2 : ('.' : Char) ≠ '[' := by decide
  simp only [postItem, seqR, space_blank hw (noHead_cons.2 (show isSpaceChar '.' = false by decide)), postfixOp, alt, map,
    seqL, sym_ne h1, sym_ne h2, sym_cons, ident_name hn hr]

theorem post_index {s r w w2 : Str} {i : Expr} (hw : Blank w) (hw2 : Blank w2) (h : expr s = some (i, w2 ++ ']' :: r)) :
    postItem (w ++ '[' :: s) = some (.index i, r) := by
  have h1 : ('[' : Char) ≠ '(' := by decide
  simp only [postItem, seqR, space_blank hw (noHead_cons.2 (show isSpaceChar '[' = false by decide)), postfixOp, alt, map,
    seqL, sym_ne h1, sym_cons, h, space_blank hw2 (noHead_cons.2 (show isSpaceChar ']' = false by decide))]

theorem post_call {s r w w2 : Str} {args : List Expr} (hw : Blank w) (hw2 : Blank w2)
    (h : list expr (seqR space (sym ',')) s = some (args, w2 ++ ')' :: r)) :
    postItem (w ++ '(' :: s) = some (.call args, r) := by
  simp only [postItem, seqR, space_blank hw (noHead_cons.2 (show isSpaceChar '(' = false by decide)), postfixOp, alt, map,
    seqL, sym_cons]
  rw [h]
  simp only [space_blank hw2 (noHead_cons.2 (show isSpaceChar ')' = false by decide)), sym_cons]

/-- the separator of arguments and the next argument -/
def argItem : P Expr := seqR (seqR space (sym ',')) expr

theorem argItem_eats : Eats argItem := seqR_eats_r (seqR_reads space_reads (sym_eats _).reads) expr_eats

theorem argItem_ok {w s r : Str} {e : Expr} (hw : Blank w) (h : expr s = some (e, r)) :
    argItem (w ++ ',' :: s) = some (e, r) := by
  simp only [argItem, seqR, space_blank hw (noHead_cons.2 (show isSpaceChar ',' = false by decide)), sym_cons, h]

theorem argItem_none {w r : Str} (hw : Blank w) : argItem (w ++ ')' :: r) = none := by
  have h1 : (')' : Char) ≠ ',' := by decide
  simp only [argItem, seqR, space_blank hw (noHead_cons.2 (show isSpaceChar ')' = false by decide)), sym_ne h1]

theorem closed_paren {w r : Str} (hw : Blank w) : Closed (w ++ ')' :: r) :=
  closed_char hw (by decide) (by decide) (by decide)

/-- opening bracket in front of spaced tokens -/
theorem packed_open {t : Str} {ts : List Str} {text : Str} (hne : ts ≠ []) (h : Packed (t :: ts) text) :
    ∃ w rest, text = t ++ (w ++ rest) ∧ Blank w ∧ Packed ts rest := by
  cases ts with
  | nil => exact absurd rfl hne
  | cons t' ts => obtain ⟨w, rest, h1, h2, h4⟩ := packed_cons h; exact ⟨w, rest, h1, h2, h4⟩

theorem args_ne {e : Expr} {es : List Expr} {ts : List Str} (h : ArgsText (e :: es) ts) : ts ≠ [] := by
  cases h with
  | one _ _ h => exact text_ne h
  | cons => simp

theorem leftLevel_le (op : BinOp) : leftLevel op ≤ opLevel op := by cases op <;> simp [leftLevel, opLevel]

theorem opLevel_ge (op : BinOp) : 3 ≤ opLevel op := by cases op <;> simp [opLevel]

theorem opLevel_le (op : BinOp) : opLevel op ≤ 12 := by cases op <;> simp [opLevel]

mutual
/-- Every spaced form of an expression that respects the ladder is read back as the expression. -/
theorem parses : ∀ {e : Expr} {ts : List Str}, ExprText e ts → Ladder e → ∀ text, Packed ts text → Parses e text
  | _, _, .ident x hx, h, text, hs => by
    have ht := ExprText.ident x hx
    have h' := h
    simp only [Ladder] at h'
    refine climb ht h hs (fun h7 => by simp [level] at h7) ?_
    intro _ rest hr _
    rw [packed_one hs] at hr ⊢
    exact primary_ident hx h'.2.1 h'.2.2 (Fits.word (a := []) hr (name_chars hx).1 (name_chars hx).2)
  | _, _, .int ds hd hv, h, text, hs => by
    have ht := ExprText.int ds hd hv
    refine climb ht h hs (fun h7 => by simp [level] at h7) ?_
    intro _ rest hr _
    rw [packed_one hs] at hr ⊢
    exact primary_int hd hv (Fits.word (a := []) hr (fun c hc => .inr (hd.2.1 c hc)) hd.1)
  | _, _, .bool b, h, text, hs => by
    have ht := ExprText.bool b
    refine climb ht h hs (fun h7 => by simp [level] at h7) ?_
    intro _ rest hr _
    rw [packed_one hs]
    exact primary_bool b rest
  | _, _, .str s t hl, h, text, hs => by
    have ht := ExprText.str s t hl
    refine climb ht h hs (fun h7 => by simp [level] at h7) ?_
    intro _ rest hr _
    rw [packed_one hs]
    exact primary_str hl rest
  | _, _, .paren e ts te, h, text, hs => by
    have ht := ExprText.paren e ts te
    have he : Ladder e := by simp only [Ladder] at h; exact h.1
    refine climb ht h hs (fun h7 => by simp [level] at h7) ?_
    intro _ rest hr _
    obtain ⟨w1, r1, rfl, hw1, hr1⟩ := packed_open (by simp) hs
    obtain ⟨ti, w2, tb, rfl, hti, htb, hw2⟩ := packed_append (text_ne te) hr1
    rw [packed_one htb]
    have hsh : ['('] ++ (w1 ++ (ti ++ (w2 ++ [')']))) ++ rest = '(' :: (w1 ++ (ti ++ (w2 ++ ')' :: rest))) := by simp
    rw [hsh]
    exact primary_paren hw2 ((parses te he ti hti).expr te hti hw1 (closed_paren hw2))
  | _, _, .field e ts x te hx, h, text, hs => by
    have ht := ExprText.field e ts x te hx
    have h' := h
    simp only [Ladder] at h'
    obtain ⟨hl, he, _⟩ := h'
    refine climb ht h hs (fun h7 => by simp [level] at h7) ?_
    intro _ rest hr hst
    obtain ⟨ta, w, tb, rfl, hta, htb, hw⟩ := packed_append (text_ne te) hs
    rw [packed_one htb] at hr ⊢
    have hr := Fits.word (a := ta ++ (w ++ ['.'])) (x := x) (by simpa using hr) (name_chars hx).1 (name_chars hx).2
    have hsh : ta ++ (w ++ (['.'] ++ x)) ++ rest = ta ++ (w ++ '.' :: (x ++ rest)) := by
      simp
    rw [hsh]
    have hp := (parses te he ta hta).a 1 (by omega) hl (by omega) (w ++ '.' :: (x ++ rest))
      (fits (blank_not_ident hw (fun _ => noHead_cons.2 (by decide)))) (by
        intro j hj
        have : j = 0 := by omega
        subst this; simp [Stop])
    change lv 1 _ = loop 1 _ _
    rw [hp, loop_post _ (post_field hx hw hr)]
    rfl
  | _, _, .index e i ts us te ui, h, text, hs => by
    have ht := ExprText.index e i ts us te ui
    have h' := h
    simp only [Ladder] at h'
    obtain ⟨hl, he, hi⟩ := h'
    refine climb ht h hs (fun h7 => by simp [level] at h7) ?_
    intro _ rest hr hst
    obtain ⟨ta, w, tb, rfl, hta, htb, hw⟩ := packed_append (text_ne te) hs
    obtain ⟨w1, r1, rfl, hw1, hr1⟩ := packed_open (by simp) htb
    obtain ⟨ti, w2, tc, rfl, hti, htc, hw2⟩ := packed_append (text_ne ui) hr1
    rw [packed_one htc]
    have hsh : ta ++ (w ++ (['['] ++ (w1 ++ (ti ++ (w2 ++ [']']))))) ++ rest =
        ta ++ (w ++ '[' :: (w1 ++ (ti ++ (w2 ++ ']' :: rest)))) := by simp
    rw [hsh]
    have hp := (parses te he ta hta).a 1 (by omega) hl (by omega) (w ++ '[' :: (w1 ++ (ti ++ (w2 ++ ']' :: rest))))
      (fits (blank_not_ident hw (fun _ => noHead_cons.2 (by decide)))) (by
        intro j hj
        have : j = 0 := by omega
        subst this; simp [Stop])
    have hin := (parses ui hi ti hti).expr ui hti hw1 (closed_char hw2 (by decide) (by decide) (by decide) : Closed (w2 ++ ']' :: rest))
    change lv 1 _ = loop 1 _ _
    rw [hp, loop_post _ (post_index hw hw2 hin)]
    rfl
  | _, _, .call e args ts us te ua, h, text, hs => by
    have ht := ExprText.call e args ts us te ua
    have h' := h
    simp only [Ladder] at h'
    obtain ⟨hl, he, ha⟩ := h'
    refine climb ht h hs (fun h7 => by simp [level] at h7) ?_
    intro _ rest hr hst
    obtain ⟨ta, w, tb, rfl, hta, htb, hw⟩ := packed_append (text_ne te) hs
    obtain ⟨w1, r1, rfl, hw1, hr1⟩ := packed_open (by simp) htb
    have hsh : ta ++ (w ++ (['('] ++ (w1 ++ r1))) ++ rest = ta ++ (w ++ '(' :: (w1 ++ (r1 ++ rest))) := by simp
    rw [hsh]
    have hp := (parses te he ta hta).a 1 (by omega) hl (by omega) (w ++ '(' :: (w1 ++ (r1 ++ rest)))
      (fits (blank_not_ident hw (fun _ => noHead_cons.2 (by decide)))) (by
        intro j hj
        have : j = 0 := by omega
        subst this; simp [Stop])
    change lv 1 _ = loop 1 _ _
    rw [hp]
    have ih := parsesArgs ua ha
    have hlist : ∃ w2, Blank w2 ∧ list expr (seqR space (sym ',')) (w1 ++ (r1 ++ rest)) = some (args, w2 ++ ')' :: rest) := by
      cases args with
      | nil =>
        cases ua
        rw [List.nil_append] at hr1
        rw [packed_one hr1]
        refine ⟨w1, hw1, ?_⟩
        have hf : expr (w1 ++ ([')'] ++ rest)) = none := expr_fail hw1 (by decide) (by decide)
        simp only [list, hf]
        rfl
      | cons e2 es =>
        obtain ⟨ti, w2, tc, rfl, hti, htc, hw2⟩ := packed_append (args_ne ua) hr1
        rw [packed_one htc]
        obtain ⟨s1, h1, h2⟩ := ih e2 es rfl ti hti w1 w2 rest hw1 hw2
        refine ⟨w2, hw2, ?_⟩
        have hsh : w1 ++ (ti ++ (w2 ++ [')']) ++ rest) = w1 ++ (ti ++ (w2 ++ ')' :: rest)) := by simp
        rw [hsh]
        have h2' : many (seqR (seqR space (sym ',')) expr) s1 = some (es, w2 ++ ')' :: rest) := h2
        simp only [list, h1, h2']
    obtain ⟨w2, hw2, hli⟩ := hlist
    rw [loop_post _ (post_call hw hw2 hli)]
    rfl
  | _, _, .bin op l r ts us tx ux, h, text, hs => by
    have ht := ExprText.bin op l r ts us tx ux
    have h' := h
    simp only [Ladder] at h'
    obtain ⟨hll, hlr, hl, hr⟩ := h'
    have hge := opLevel_ge op
    have hle := opLevel_le op
    have hlo := leftLevel_le op
    obtain ⟨tl, w1, tb, rfl, htl, htb, hw1⟩ := packed_append (text_ne tx) hs
    obtain ⟨w2, tr, rfl, hw2, htr⟩ := packed_open (text_ne ux) htb
    have pl := parses tx hl tl htl
    have pr := parses ux hr tr htr
    have htr0 : tr ≠ [] := by
      obtain ⟨c, cs, rfl, _⟩ := text_head ux htr
      simp
    have hfit : ∀ rest, Fits (tl ++ (w1 ++ (opText op ++ (w2 ++ tr)))) rest → Fits tr rest := by
      intro rest hf
      refine Fits.right (a := tl ++ (w1 ++ (opText op ++ w2))) ?_ htr0
      simpa using hf
    have common : ∀ rest, Fits tr rest → (∀ j, j < opLevel op → Stop j rest) →
        item (opLevel op) (w1 ++ (opText op ++ (w2 ++ (tr ++ rest)))) = some ((op, r), rest) ∧
        NoHead isIdentChar (w1 ++ (opText op ++ (w2 ++ (tr ++ rest)))) ∧
        ∀ j, j < opLevel op → Stop j (w1 ++ (opText op ++ (w2 ++ (tr ++ rest)))) := by
      intro rest hrest hst
      refine ⟨?_, ?_, ?_⟩
      · refine item_ok hw1 hw2 ?_ (pr.b (opLevel op - 1) (by omega) (by omega) rest hrest (fun j hj => hst j (by omega)))
        obtain ⟨c, cs, rfl, hc⟩ := text_head ux htr
        exact ⟨c, cs ++ rest, rfl, hc⟩
      · refine blank_not_ident hw1 (fun _ => ?_)
        cases op <;> exact noHead_cons.2 (by decide)
      · intro j hj
        exact stop_op hw1 (text_opens ux htr hw2 rest) hj
    refine climb ht h hs ?_ ?_
    · intro h7 rest hrest hst
      simp only [level] at h7
      have hsh : tl ++ (w1 ++ (opText op ++ (w2 ++ tr))) ++ rest = tl ++ (w1 ++ (opText op ++ (w2 ++ (tr ++ rest)))) := by simp
      rw [h7] at common
      obtain ⟨c1, c2, c3⟩ := common rest (hfit rest hrest) hst
      have hll6 : level l ≤ 6 := by cases op <;> simp [opLevel] at h7 <;> simpa [leftLevel] using hll
      rw [hsh, lv_step (by omega) (by omega) (by omega)]
      change (match lv 6 _ with | some (e, s') => loop 7 e s' | none => none) = _
      rw [pl.b 6 (by omega) hll6 _ (fits c2) (fun j hj => c3 j (by omega))]
      exact loop_eq_item l c1
    · intro hn7 rest hrest hst
      simp only [level] at hn7 hst ⊢
      have hsh : tl ++ (w1 ++ (opText op ++ (w2 ++ tr))) ++ rest = tl ++ (w1 ++ (opText op ++ (w2 ++ (tr ++ rest)))) := by simp
      obtain ⟨c1, c2, c3⟩ := common rest (hfit rest hrest) hst
      rw [hsh, pl.a (opLevel op) hle (by omega) (fun h => hn7 h.1) _ (fits c2) c3, loop_item l hge hn7 c1]
  | _, _, .un op e ts tx, h, text, hs => by
    have ht := ExprText.un op e ts tx
    have h' := h
    simp only [Ladder] at h'
    refine climb ht h hs (fun h7 => by simp [level] at h7) ?_
    intro _ rest hr hst
    obtain ⟨w, te, rfl, hw, hte⟩ := packed_open (text_ne tx) hs
    have hte0 : te ≠ [] := by
      obtain ⟨c, cs, rfl, _⟩ := text_head tx hte
      simp
    have hr : Fits te rest := Fits.right (a := unText op ++ w) (by simpa using hr) hte0
    have hp := (parses tx h'.2 te hte).b 2 (by omega) h'.1 rest hr (by
      intro j hj
      by_cases h2 : j = 2
      · subst h2; simp [Stop]
      · exact hst j (by simp only [level]; omega))
    have h1 : prefixOp (unText op ++ (w ++ te) ++ rest) = some (.op op, w ++ (te ++ rest)) := by
      cases op <;> simp [unText, prefixOp, alt, map, tag]
    change lv 2 _ = loop 2 _ _
    rw [unary_prefix h1 (space_blank hw (text_noSpace tx hte rest)), hp, loop_two]
    rfl
  | _, _, .cast x e ts hx tx, h, text, hs => by
    have ht := ExprText.cast x e ts hx tx
    have h' := h
    simp only [Ladder] at h'
    obtain ⟨hl, he, _⟩ := h'
    refine climb ht h hs (fun h7 => by simp [level] at h7) ?_
    intro _ rest hr hst
    obtain ⟨w1, r1, rfl, hw1, hr1⟩ := packed_open (by simp) hs
    obtain ⟨w2, r2, rfl, hw2, hr2⟩ := packed_open (by simp) hr1
    obtain ⟨w3, r3, rfl, hw3, hr3⟩ := packed_open (by simp) hr2
    obtain ⟨w4, te, rfl, hw4, hte⟩ := packed_open (text_ne tx) hr3
    have hte0 : te ≠ [] := by
      obtain ⟨c, cs, rfl, _⟩ := text_head tx hte
      simp
    have hr : Fits te rest := Fits.right (a := ['('] ++ (w1 ++ (s!' "struct" ++ (w2 ++ (x ++ (w3 ++ ([')'] ++ w4))))))) (by simpa using hr) hte0
    have hp := (parses tx he te hte).b 2 (by omega) hl rest hr (by
      intro j hj
      by_cases h2 : j = 2
      · subst h2; simp [Stop]
      · exact hst j (by simp only [level]; omega))
    have hsh : ['('] ++ (w1 ++ (s!' "struct" ++ (w2 ++ (x ++ (w3 ++ ([')'] ++ (w4 ++ te))))))) ++ rest =
        '(' :: (w1 ++ (s!' "struct" ++ (w2 ++ (x ++ (w3 ++ ')' :: (w4 ++ (te ++ rest))))))) := by
      simp
    have hn1 : ('(' : Char) ≠ '~' := by decide
    have hn2 : ('(' : Char) ≠ '!' := by decide
    have hn3 : ('(' : Char) ≠ '-' := by decide
    have ht : ∀ s, tag s!' "(" ('(' :: s) = some ((), s) := fun s => tag_append ['('] s
    have ht2 : ∀ s, tag s!' ")" (')' :: s) = some ((), s) := fun s => tag_append [')'] s
    have hxs : ∀ s, NoHead isSpaceChar (x ++ s) := by
      intro s
      obtain ⟨c, cs, rfl, hc, _⟩ := hx
      exact noHead_cons.2 (letter_not_space hc)
    have hss : ∀ s, NoHead isSpaceChar (s!' "struct" ++ s) := fun s => noHead_cons.2 (by decide)
    have hid := ident_name hx (blank_not_ident hw3 (fun _ => noHead_cons.2 (show isIdentChar ')' = false by decide)) :
      NoHead isIdentChar (w3 ++ ')' :: (w4 ++ (te ++ rest))))
    have h1 : prefixOp ('(' :: (w1 ++ (s!' "struct" ++ (w2 ++ (x ++ (w3 ++ ')' :: (w4 ++ (te ++ rest)))))))) =
        some (.cast (.ident x), w4 ++ (te ++ rest)) := by
      simp only [prefixOp, alt, map, tag_ne hn1, tag_ne hn2, tag_ne hn3, seqL, seqR, ht,
        space_blank hw1 (hss _),
        typeSpecifier, tag_append, space_blank hw2 (hxs _), hid,
        space_blank hw3 (noHead_cons.2 (show isSpaceChar ')' = false by decide)), ht2]
    change lv 2 _ = loop 2 _ _
    rw [hsh, unary_prefix h1 (space_blank hw4 (text_noSpace tx hte rest)), hp, loop_two]
    rfl
theorem parsesArgs : ∀ {l : List Expr} {ts : List Str}, ArgsText l ts → LadderArgs l → ∀ e es, l = e :: es → ∀ text, Packed ts text →
    ∀ w w2 r, Blank w → Blank w2 → ∃ s1, expr (w ++ (text ++ (w2 ++ ')' :: r))) = some (e, s1) ∧
      many argItem s1 = some (es, w2 ++ ')' :: r)
  | _, _, .nil, _, _, _, h, _, _, _, _, _, _, _ => by simp at h
  | _, _, .one e ts te, ha, e', es', heq, text, hs, w, w2, r, hw, hw2 => by
    simp only [List.cons.injEq] at heq
    obtain ⟨rfl, rfl⟩ := heq
    simp only [LadderArgs] at ha
    exact ⟨_, (parses te ha.1 text hs).expr te hs hw (closed_paren hw2), many_none (argItem_none hw2)⟩
  | _, _, .cons e e2 es ts us te ua, ha, e', es', heq, text, hs, w, w2, r, hw, hw2 => by
    simp only [List.cons.injEq] at heq
    obtain ⟨rfl, rfl⟩ := heq
    have ha2 : LadderArgs (e2 :: es) := by simp only [LadderArgs] at ha ⊢; exact ha.2
    have ih := parsesArgs ua ha2 e2 es rfl
    simp only [LadderArgs] at ha
    have he := ha.1
    have ihe := parses te he
    obtain ⟨te', w1, tb, rfl, hte, htb, hw1⟩ := packed_append (text_ne te) hs
    obtain ⟨w3, r3, rfl, hw3, hr3⟩ := packed_open (args_ne ua) htb
    obtain ⟨s1, h1, h2⟩ := ih r3 hr3 w3 w2 r hw3 hw2
    have hsh : w ++ (te' ++ (w1 ++ ([','] ++ (w3 ++ r3))) ++ (w2 ++ ')' :: r)) =
        w ++ (te' ++ (w1 ++ ',' :: (w3 ++ (r3 ++ (w2 ++ ')' :: r))))) := by simp
    refine ⟨w1 ++ ',' :: (w3 ++ (r3 ++ (w2 ++ ')' :: r))), ?_, ?_⟩
    · rw [hsh]
      exact (ihe te' hte).expr te hte hw (closed_char hw1 (by decide) (by decide) (by decide))
    · rw [many_some argItem_eats (argItem_ok hw1 h1), h2]
end

end Btrd
