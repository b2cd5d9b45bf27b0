/-
Statements that begin with an expression whose first word is a word of the language (C73): when the rules for
`print`, `help`, `quit`, `break` and `continue` claim them.
-/
import Verif.Lemmas.Keyword

namespace Btrd
open P Spec

/-! ### statements that begin with an expression -/

/-- the words that begin `builtin_stmt` and `jump_stmt` do not match -/
theorem reserved_tags {s : Str} (h : ∀ k ∈ [s!' "print", s!' "help", s!' "quit", s!' "break", s!' "continue"], ¬ k <+: s) :
    tag s!' "print" s = none ∧ tag s!' "help" s = none ∧ tag s!' "quit" s = none ∧
    tag s!' "break" s = none ∧ tag s!' "continue" s = none :=
  ⟨tag_none_of (h _ (by simp)), tag_none_of (h _ (by simp)), tag_none_of (h _ (by simp)),
    tag_none_of (h _ (by simp)), tag_none_of (h _ (by simp))⟩

theorem kw_none {s : Str} (h : ∀ k ∈ [s!' "print", s!' "help", s!' "quit", s!' "break", s!' "continue"], ¬ k <+: s)
    (hf : seqR (seqR (tag s!' "filesystem") space) string s = none) : builtinStmt s = none ∧ jumpStmt s = none := by
  obtain ⟨h1, h2, h3, h4, h5⟩ := reserved_tags h
  simp only [seqR] at hf
  refine ⟨?_, ?_⟩
  · simp only [builtinStmt, alt, map, seqR, hf, h1, h2, h3]
  · simp only [jumpStmt, alt, map, h4, h5]

theorem reserved_word : ∀ k ∈ [s!' "print", s!' "help", s!' "quit", s!' "break", s!' "continue"], ∀ c ∈ k, WordChar c := by
  intro k hk
  simp only [List.mem_cons, List.not_mem_nil, or_false] at hk
  rcases hk with rfl | rfl | rfl | rfl | rfl <;> intro c hc <;> rw [← isIdentChar_iff] <;>
    simp only [List.mem_cons, List.not_mem_nil, or_false] at hc
  · rcases hc with rfl | rfl | rfl | rfl | rfl <;> decide
  · rcases hc with rfl | rfl | rfl | rfl <;> decide
  · rcases hc with rfl | rfl | rfl | rfl <;> decide
  · rcases hc with rfl | rfl | rfl | rfl | rfl <;> decide
  · rcases hc with rfl | rfl | rfl | rfl | rfl | rfl | rfl | rfl <;> decide

theorem filesystem_word : ∀ c ∈ s!' "filesystem", WordChar c := by
  intro c hc
  rw [← isIdentChar_iff]
  simp only [List.mem_cons, List.not_mem_nil, or_false] at hc
  rcases hc with rfl | rfl | rfl | rfl | rfl | rfl | rfl | rfl | rfl | rfl <;> decide

theorem else_word : ∀ c ∈ s!' "else", WordChar c := by
  intro c hc
  rw [← isIdentChar_iff]
  simp only [List.mem_cons, List.not_mem_nil, or_false] at hc
  rcases hc with rfl | rfl | rfl | rfl <;> decide

/-- a word, then a character that is neither part of it nor a quote -/
theorem word_kw {t w r : Str} {c : Char} (hn : ∀ d ∈ t, WordChar d) (hr : ¬ StartsReserved t) (hw : Blank w)
    (hi : isIdentChar c = false) (hsp : isSpaceChar c = false) (hq : c ≠ '"') :
    builtinStmt (t ++ (w ++ c :: r)) = none ∧ jumpStmt (t ++ (w ++ c :: r)) = none := by
  have hz : NoHead isIdentChar (w ++ c :: r) := blank_not_ident hw (fun _ => noHead_cons.2 hi)
  refine kw_none ?_ ?_
  · intro k hk hp
    exact hr ⟨k, hk, prefix_word (reserved_word k hk) hz hp⟩
  · by_cases hp : s!' "filesystem" <+: t
    · obtain ⟨y, rfl⟩ := hp
      rw [List.append_assoc]
      simp only [seqR, tag_append]
      cases y with
      | nil =>
        rw [List.nil_append, space_blank hw (noHead_cons.2 hsp)]
        exact string_none (noHead_cons.2 (by simp [hq]))
      | cons d y =>
        have hd : WordChar d := hn d (by simp)
        rw [List.cons_append, space_none (noHead_cons.2 (word_not_space hd))]
        refine string_none (noHead_cons.2 ?_)
        rw [beq_eq_false_iff_ne]
        rintro rfl
        have := (isIdentChar_iff '"').2 hd
        revert this; decide
    · have := tag_none_of (fun h => hp (prefix_word filesystem_word hz h))
      simp only [seqR, this]

/-- a text that does not begin with a letter -/
theorem symbol_kw {c : Char} {r : Str} (h : ¬ Letter c) : builtinStmt (c :: r) = none ∧ jumpStmt (c :: r) = none := by
  have hne : ∀ d, Letter d → c ≠ d := fun d hd e => h (e ▸ hd)
  have hp : c ≠ 'p' := hne _ (by unfold Letter; decide)
  have hh : c ≠ 'h' := hne _ (by unfold Letter; decide)
  have hq : c ≠ 'q' := hne _ (by unfold Letter; decide)
  have hb : c ≠ 'b' := hne _ (by unfold Letter; decide)
  have hc : c ≠ 'c' := hne _ (by unfold Letter; decide)
  have hf : c ≠ 'f' := hne _ (by unfold Letter; decide)
  simp only [builtinStmt, jumpStmt, alt, map, seqR, tag_ne hp, tag_ne hh, tag_ne hq, tag_ne hb, tag_ne hc, tag_ne hf, and_self]

/-- the first token is the same in every spelling, or does not begin with a letter -/
theorem head_tokens : ∀ {e : Expr} {ts : List Str}, ExprText e ts →
    ∃ t us, ts = t :: us ∧ ((∃ vs, tokens e = t :: vs) ∨ ∃ c cs, t = c :: cs ∧ ¬ Letter c)
  | _, _, .ident x _ => ⟨x, [], rfl, .inl ⟨[], by rw [tokens]⟩⟩
  | _, _, .int ds h _ => by
    obtain ⟨c, cs, rfl, hd⟩ := numeral_head h
    exact ⟨_, [], rfl, .inr ⟨c, cs, rfl, digit_not_letter hd⟩⟩
  | _, _, .bool b => ⟨_, [], rfl, .inl ⟨[], by rw [tokens]⟩⟩
  | _, _, .str s t h => by
    obtain ⟨b, _, rfl⟩ := h
    exact ⟨_, [], rfl, .inr ⟨'"', _, rfl, by unfold Letter; decide⟩⟩
  | _, _, .paren e ts _ => ⟨_, _, rfl, .inr ⟨'(', [], rfl, by unfold Letter; decide⟩⟩
  | _, _, .field e ts x h _ => by
    obtain ⟨t, us, rfl, h1 | h1⟩ := head_tokens h
    · obtain ⟨vs, h1⟩ := h1; exact ⟨t, _, rfl, .inl ⟨_, by rw [tokens, h1]; rfl⟩⟩
    · exact ⟨t, _, rfl, .inr h1⟩
  | _, _, .index e i ts us h _ => by
    obtain ⟨t, us, rfl, h1 | h1⟩ := head_tokens h
    · obtain ⟨vs, h1⟩ := h1; exact ⟨t, _, rfl, .inl ⟨_, by rw [tokens, h1]; rfl⟩⟩
    · exact ⟨t, _, rfl, .inr h1⟩
  | _, _, .call f args ts us h _ => by
    obtain ⟨t, us, rfl, h1 | h1⟩ := head_tokens h
    · obtain ⟨vs, h1⟩ := h1; exact ⟨t, _, rfl, .inl ⟨_, by rw [tokens, h1]; rfl⟩⟩
    · exact ⟨t, _, rfl, .inr h1⟩
  | _, _, .bin op l r ts us h _ => by
    obtain ⟨t, us, rfl, h1 | h1⟩ := head_tokens h
    · obtain ⟨vs, h1⟩ := h1; exact ⟨t, _, rfl, .inl ⟨_, by rw [tokens, h1]; rfl⟩⟩
    · exact ⟨t, _, rfl, .inr h1⟩
  | _, _, .un op e ts _ => by
    refine ⟨_, _, rfl, .inr ?_⟩
    cases op <;> exact ⟨_, _, rfl, by unfold Letter; decide⟩
  | _, _, .cast x e ts _ _ => ⟨_, _, rfl, .inr ⟨'(', [], rfl, by unfold Letter; decide⟩⟩

theorem plain_head {e : Expr} {t : Str} {ts : List Str} (h : ExprText e (t :: ts)) (hp : PlainStart e) : ¬ StartsReserved t := by
  obtain ⟨t', us, h0, h1 | h1⟩ := head_tokens h <;> simp only [List.cons.injEq] at h0 <;> obtain ⟨rfl, rfl⟩ := h0
  · obtain ⟨vs, h1⟩ := h1
    exact hp _ _ h1
  · rintro ⟨k, hk, hpre⟩
    obtain ⟨c, cs, rfl, hc⟩ := h1
    simp only [List.mem_cons, List.not_mem_nil, or_false] at hk
    rcases hk with rfl | rfl | rfl | rfl | rfl <;> rw [List.cons_prefix_cons] at hpre <;> apply hc <;> rw [← hpre.1] <;>
      unfold Letter <;> decide

/-! ### when an expression can be read -/

theorem loop_total (k : Nat) (e : Expr) (s : Str) : loop k e s ≠ none := by
  unfold loop
  split
  · simp
  · split
    · obtain ⟨r, h⟩ := many_total postItem s
      rw [h]; simp
    · split
      · cases item 7 s <;> simp
      · obtain ⟨r, h⟩ := many_total (item k) s
        rw [h]; simp

/-- all levels above the prefix operators read a text or none does -/
theorem lv_some_iff (s : Str) : ∀ k, 2 ≤ k → k ≤ 12 → (lv k s = none ↔ lv 2 s = none) := by
  intro k hk hk2
  induction k with
  | zero => omega
  | succ k ih =>
    by_cases h2 : k + 1 = 2
    · rw [h2]
    · rw [lv_step (by omega) h2 hk2, ← ih (by omega) (by omega), Nat.add_sub_cancel]
      cases lv k s with
      | none => simp
      | some r => simp only [reduceCtorEq, iff_false]; exact loop_total _ _ _

theorem expr_none_iff {w s : Str} (hw : Blank w) (hs : NoHead isSpaceChar s) : expr (w ++ s) = none ↔ lv 2 s = none := by
  rw [expr_eq]
  simp only [seqR, space_blank hw hs]
  exact lv_some_iff s 12 (by omega) (by omega)

theorem primary_some {s : Str} (hp : prefixOp s = none) (hs : NoHead isSpaceChar s) : lv 2 s = none ↔ lv 0 s = none := by
  rw [unary_none hp hs, lv_step (by omega) (by omega) (by omega)]
  change (match lv 0 s with | some (e, s') => loop 1 e s' | none => none) = none ↔ _
  cases lv 0 s with
  | none => simp
  | some r => simp only [reduceCtorEq, iff_false]; exact loop_total _ _ _

theorem prefix_some {s s1 w s2 : Str} {o : PrefixOp} (h1 : prefixOp s = some (o, s1)) (hs : s1 = w ++ s2) (hw : Blank w)
    (h2 : NoHead isSpaceChar s2) : lv 2 s = none ↔ lv 2 s2 = none := by
  subst hs
  rw [unary_prefix h1 (space_blank hw h2)]
  cases lv 2 s2 <;> simp

theorem prefix_cast_eq {w1 w2 x w3 s : Str} (hw1 : Blank w1) (hw2 : Blank w2) (hx : Name x) (hw3 : Blank w3) :
    prefixOp ('(' :: (w1 ++ (s!' "struct" ++ (w2 ++ (x ++ (w3 ++ ')' :: s)))))) = some (.cast (.ident x), s) := by
  have hn1 : ('(' : Char) ≠ '~' := by decide
  have hn2 : ('(' : Char) ≠ '!' := by decide
  have hn3 : ('(' : Char) ≠ '-' := by decide
  have e0 : ∀ s, tag s!' "(" ('(' :: s) = some ((), s) := fun s => by simp [tag]
  have e1 : ∀ s, tag s!' ")" (')' :: s) = some ((), s) := fun s => by simp [tag]
  have hxs : ∀ s, NoHead isSpaceChar (x ++ s) := by
    intro s
    obtain ⟨c, cs, rfl, hc, _⟩ := hx
    exact noHead_cons.2 (letter_not_space hc)
  have hid := ident_name hx (blank_not_ident hw3 (fun _ => noHead_cons.2 (by decide)) : NoHead isIdentChar (w3 ++ ')' :: s))
  have s1 : ∀ s, space (w1 ++ (s!' "struct" ++ s)) = some ((), s!' "struct" ++ s) := fun s =>
    space_blank hw1 (noHead_cons.2 (by decide))
  have s3 := space_blank (r := ')' :: s) hw3 (noHead_cons.2 (by decide))
  simp only [prefixOp, alt, map, tag_ne hn1, tag_ne hn2, tag_ne hn3, seqL, seqR, e0, s1, typeSpecifier, tag_append,
    space_blank hw2 (hxs _), hid, s3, e1]

/-- an expression in writing can be read, whatever follows (but a word does not go on) -/
theorem begun : ∀ {e : Expr} {us : List Str}, ExprText e us → Ladder e → ∀ text, Packed us text → ∀ rest, NoHead isIdentChar rest →
    lv 2 (text ++ rest) ≠ none
  | _, _, .ident x hx, h, text, hs, rest, hr => by
    rw [Ne, primary_some (noPrefix (.ident x hx) h (by simp [level]) text hs rest) (text_noSpace (.ident x hx) hs rest)]
    simp only [Ladder] at h
    rw [packed_one hs, primary_ident hx h.2.1 h.2.2 hr]
    simp
  | _, _, .int ds hd h1, h, text, hs, rest, hr => by
    rw [Ne, primary_some (noPrefix (.int ds hd h1) h (by simp [level]) text hs rest) (text_noSpace (.int ds hd h1) hs rest)]
    rw [packed_one hs, primary_int hd h1 hr]
    simp
  | _, _, .bool b, h, text, hs, rest, hr => by
    rw [Ne, primary_some (noPrefix (.bool b) h (by simp [level]) text hs rest) (text_noSpace (.bool b) hs rest)]
    rw [packed_one hs, primary_bool]
    simp
  | _, _, .str s t hl, h, text, hs, rest, hr => by
    rw [Ne, primary_some (noPrefix (.str s t hl) h (by simp [level]) text hs rest) (text_noSpace (.str s t hl) hs rest)]
    rw [packed_one hs, primary_str hl]
    simp
  | _, _, .paren e ts he, h, text, hs, rest, hr => by
    rw [Ne, primary_some (noPrefix (.paren e ts he) h (by simp [level]) text hs rest) (text_noSpace (.paren e ts he) hs rest)]
    obtain ⟨w1, r1, rfl, hw1, hr1⟩ := packed_open (by simp) hs
    obtain ⟨ti, w2, tb, rfl, hti, htb, hw2⟩ := packed_append (text_ne he) hr1
    rw [packed_one htb]
    have hsh : ['('] ++ (w1 ++ (ti ++ (w2 ++ [')']))) ++ rest = '(' :: (w1 ++ (ti ++ (w2 ++ ')' :: rest))) := by simp
    simp only [Ladder] at h
    rw [hsh, primary_paren hw2 ((parses he h.1 ti hti).expr he hti hw1 (closed_paren (r := rest) hw2))]
    simp
  | _, _, .field e ts x he _, h, text, hs, rest, hr => by
    simp only [Ladder] at h
    obtain ⟨ta, w, tb, rfl, hta, htb, hw⟩ := packed_append (text_ne he) hs
    rw [List.append_assoc, List.append_assoc]
    obtain ⟨more, rfl⟩ := packed_head htb
    exact begun he h.2.1 ta hta _ (blank_not_ident hw fun _ => noHead_cons.2 (by decide))
  | _, _, .index e i ts us he _, h, text, hs, rest, hr => by
    simp only [Ladder] at h
    obtain ⟨ta, w, tb, rfl, hta, htb, hw⟩ := packed_append (text_ne he) hs
    rw [List.append_assoc, List.append_assoc]
    obtain ⟨more, rfl⟩ := packed_head htb
    exact begun he h.2.1 ta hta _ (blank_not_ident hw fun _ => noHead_cons.2 (by decide))
  | _, _, .call e args ts us he _, h, text, hs, rest, hr => by
    simp only [Ladder] at h
    obtain ⟨ta, w, tb, rfl, hta, htb, hw⟩ := packed_append (text_ne he) hs
    rw [List.append_assoc, List.append_assoc]
    obtain ⟨more, rfl⟩ := packed_head htb
    exact begun he h.2.1 ta hta _ (blank_not_ident hw fun _ => noHead_cons.2 (by decide))
  | _, _, .bin op l r ts us hl _, h, text, hs, rest, hr => by
    simp only [Ladder] at h
    obtain ⟨ta, w, tb, rfl, hta, htb, hw⟩ := packed_append (text_ne hl) hs
    rw [List.append_assoc, List.append_assoc]
    obtain ⟨more, rfl⟩ := packed_head htb
    obtain ⟨c, cs, e, hc⟩ := opText_head op
    rw [e]
    exact begun hl h.2.2.1 ta hta _ (blank_not_ident hw fun _ => noHead_cons.2 (continues_not_ident hc))
  | _, _, .un op e ts he, h, text, hs, rest, hr => by
    simp only [Ladder] at h
    obtain ⟨w, r, rfl, hw, hr1⟩ := packed_open (text_ne he) hs
    have ih := begun he h.2 r hr1 rest hr
    have hsh : unText op ++ (w ++ r) ++ rest = unText op ++ (w ++ (r ++ rest)) := by simp
    rw [hsh]
    have hp : ∃ o, prefixOp (unText op ++ (w ++ (r ++ rest))) = some (o, w ++ (r ++ rest)) := by
      cases op <;> exact ⟨_, rfl⟩
    obtain ⟨o, hp⟩ := hp
    rwa [Ne, prefix_some hp rfl hw (text_noSpace he hr1 rest)]
  | _, _, .cast x e ts hx he, h, text, hs, rest, hr => by
    simp only [Ladder] at h
    obtain ⟨w1, r1, rfl, hw1, hr1⟩ := packed_open (by simp) hs
    obtain ⟨w2, r2, rfl, hw2, hr2⟩ := packed_open (by simp) hr1
    obtain ⟨w3, r3, rfl, hw3, hr3⟩ := packed_open (by simp) hr2
    obtain ⟨w4, r4, rfl, hw4, hr4⟩ := packed_open (text_ne he) hr3
    have ih := begun he h.2.1 r4 hr4 rest hr
    have hsh : ['('] ++ (w1 ++ (s!' "struct" ++ (w2 ++ (x ++ (w3 ++ ([')'] ++ (w4 ++ r4))))))) ++ rest =
        '(' :: (w1 ++ (s!' "struct" ++ (w2 ++ (x ++ (w3 ++ ')' :: (w4 ++ (r4 ++ rest))))))) := by simp
    rw [hsh]
    have hp := prefix_cast_eq (s := w4 ++ (r4 ++ rest)) hw1 hw2 hx hw3
    rwa [Ne, prefix_some hp rfl hw4 (text_noSpace he hr4 rest)]

/-! ### what can follow the first word -/

/-- the tokens that can follow a word at the beginning of a statement that begins with an expression -/
inductive Tail : List Str → Prop
  | dead (c : Char) (cs : Str) (ts : List Str) : starts c = false → isSpaceChar c = false → Tail ((c :: cs) :: ts)
  | ne (ts : List Str) : Tail (s!' "!=" :: ts)
  | minusEq (ts : List Str) : Tail (s!' "-=" :: ts)
  | minus (e : Expr) (us ts : List Str) (c : Char) (cs : Str) : Written e us → isIdentChar c = false →
      Tail (s!' "-" :: (us ++ (c :: cs) :: ts))
  | call (args : List Expr) (us ts : List Str) : ArgsText args us → LadderArgs args → Tail ts →
      Tail (s!' "(" :: (us ++ s!' ")" :: ts))

theorem Tail.head {ts : List Str} (h : Tail ts) : ∃ c cs r, ts = (c :: cs) :: r ∧ isIdentChar c = false ∧ isSpaceChar c = false ∧ c ≠ '"' := by
  cases h with
  | dead c cs ts hc hsp =>
    simp only [starts, Bool.or_eq_false_iff, beq_eq_false_iff_ne] at hc
    exact ⟨c, cs, ts, rfl, hc.1.1.1.1.1, hsp, hc.1.1.1.1.2⟩
  | ne ts => exact ⟨_, _, _, rfl, by decide, by decide, by decide⟩
  | minusEq ts => exact ⟨_, _, _, rfl, by decide, by decide, by decide⟩
  | minus e us ts c cs _ _ => exact ⟨_, _, _, rfl, by decide, by decide, by decide⟩
  | call args us ts _ _ _ => exact ⟨_, _, _, rfl, by decide, by decide, by decide⟩

theorem name_not {c : Char} {cs : Str} (h : Name (c :: cs)) (hc : ¬ Letter c) : False := by
  obtain ⟨d, ds, e, hd, _⟩ := h
  simp only [List.cons.injEq] at e
  exact hc (e.1 ▸ hd)

theorem tail_of : ∀ {e : Expr} {all : List Str}, ExprText e all → Ladder e → ∀ {t : Str} {ts rest : List Str}, all = t :: ts → Name t →
    Tail rest → Tail (ts ++ rest)
  | _, _, .ident x _, _, t, ts, rest, ha, _, hr => by simp at ha; rw [ha.2]; exact hr
  | _, _, .bool b, _, t, ts, rest, ha, _, hr => by simp at ha; rw [ha.2]; exact hr
  | _, _, .int ds hd _, _, t, ts, rest, ha, hn, hr => by
    simp at ha
    obtain ⟨c, cs, rfl, hc⟩ := numeral_head hd
    rw [← ha.1] at hn
    exact (name_not hn (digit_not_letter hc)).elim
  | _, _, .str s u hl, _, t, ts, rest, ha, hn, hr => by
    obtain ⟨b, _, rfl⟩ := hl
    simp only [List.cons.injEq] at ha
    rw [← ha.1] at hn
    exact (name_not hn (by unfold Letter; decide)).elim
  | _, _, .paren e us he, _, t, ts, rest, ha, hn, hr => by
    simp only [List.cons.injEq] at ha
    rw [← ha.1] at hn
    exact (name_not hn (by unfold Letter; decide)).elim
  | _, _, .un op e us he, _, t, ts, rest, ha, hn, hr => by
    simp only [List.cons.injEq] at ha
    rw [← ha.1] at hn
    cases op <;> exact (name_not hn (by unfold Letter; decide)).elim
  | _, _, .cast x e us hx he, _, t, ts, rest, ha, hn, hr => by
    simp only [List.cons.injEq] at ha
    rw [← ha.1] at hn
    exact (name_not hn (by unfold Letter; decide)).elim
  | _, _, .field e us x he _, h, t, ts, rest, ha, hn, hr => by
    simp only [Ladder] at h
    cases us with
    | nil => exact absurd rfl (text_ne he)
    | cons u us =>
      simp only [List.cons_append, List.cons.injEq] at ha
      obtain ⟨rfl, rfl⟩ := ha
      rw [List.append_assoc]
      exact tail_of he h.2.1 rfl hn (.dead '.' x rest (by decide) (by decide))
  | _, _, .index e i us vs he _, h, t, ts, rest, ha, hn, hr => by
    simp only [Ladder] at h
    cases us with
    | nil => exact absurd rfl (text_ne he)
    | cons u us =>
      simp only [List.cons_append, List.cons.injEq] at ha
      obtain ⟨rfl, rfl⟩ := ha
      rw [List.append_assoc]
      exact tail_of he h.2.1 rfl hn (.dead '[' [] _ (by decide) (by decide))
  | _, _, .call e args us vs he hargs, h, t, ts, rest, ha, hn, hr => by
    simp only [Ladder] at h
    cases us with
    | nil => exact absurd rfl (text_ne he)
    | cons u us =>
      simp only [List.cons_append, List.cons.injEq] at ha
      obtain ⟨rfl, rfl⟩ := ha
      rw [List.append_assoc]
      refine tail_of he h.2.1 rfl hn ?_
      have := Tail.call args vs rest hargs h.2.2 hr
      simpa using this
  | _, _, .bin op l r us vs hl hrr, h, t, ts, rest, ha, hn, hr => by
    simp only [Ladder] at h
    cases us with
    | nil => exact absurd rfl (text_ne hl)
    | cons u us =>
      simp only [List.cons_append, List.cons.injEq] at ha
      obtain ⟨rfl, rfl⟩ := ha
      rw [List.append_assoc]
      refine tail_of hl h.2.2.1 rfl hn ?_
      obtain ⟨c, cs, r', rfl, hi, _⟩ := hr.head
      cases op with
      | minus => exact .minus _ vs r' c cs ⟨hrr, h.2.2.2⟩ hi
      | ne => exact .ne _
      | _ => exact .dead _ _ _ (by decide) (by decide)

/-! ### whether it can be printed -/

theorem args_head {e : Expr} {es : List Expr} {us : List Str} (h : ArgsText (e :: es) us) : ∃ ts vs, ExprText e ts ∧ us = ts ++ vs ∧
    (vs = [] ∨ ∃ vs', vs = s!' "," :: vs') := by
  cases h with
  | one e ts h => exact ⟨us, [], h, by simp, .inl rfl⟩
  | cons e e' es ts us h h' => exact ⟨ts, _, h, rfl, .inr ⟨_, rfl⟩⟩

/-- a word and a closing parenthesis are one argument -/
theorem call_word {args : List Expr} {us ts ts0 : List Str} {x : Str} (h : ArgsText args us) (hx : Name x)
    (he : us ++ s!' ")" :: ts0 = x :: s!' ")" :: ts) : us = [x] ∧ ts0 = ts := by
  cases args with
  | nil =>
    cases h
    simp only [List.nil_append, List.cons.injEq] at he
    rw [← he.1] at hx
    exact (name_not hx (by unfold Letter; decide)).elim
  | cons e es =>
    obtain ⟨vs, ws, h1, rfl, h2⟩ := args_head h
    obtain ⟨t, vs', rfl, hl⟩ := lead h1
    simp only [List.cons_append, List.cons.injEq, List.append_assoc] at he
    obtain ⟨rfl, he⟩ := he
    cases vs' with
    | nil =>
      rcases h2 with rfl | ⟨ws', rfl⟩
      · simp only [List.nil_append, List.cons.injEq, true_and] at he
        exact ⟨rfl, he⟩
      · simp at he
    | cons v vs' =>
      simp only [List.cons_append, List.cons.injEq] at he
      rcases hl with ⟨h3, _⟩ | ⟨_, c, cs, ts', h3, h4⟩ | ⟨c, cs, h3, h4, _⟩
      · simp at h3
      · simp only [List.cons.injEq] at h3
        rw [h3.1] at he
        simp only [List.cons.injEq] at he
        rw [he.1.1] at h4
        exact absurd h4 (by decide)
      · subst h3
        exact (name_not hx h4).elim

theorem struct_name {c : Char} {cs : Str} (hc : Letter c) (hcs : ∀ d ∈ cs, WordChar d) : Name (s!' "struct" ++ c :: cs) := by
  refine ⟨'s', s!' "truct" ++ c :: cs, rfl, by unfold Letter; decide, ?_⟩
  intro d hd
  simp only [List.mem_append, List.mem_cons] at hd
  rcases hd with h | rfl | h
  · rcases h with rfl | rfl | rfl | rfl | rfl | h
    all_goals first | (exact .inl (by unfold Letter; decide)) | simp at h
  · exact .inl hc
  · exact hcs d h

theorem paren_read {e : Expr} {us : List Str} (he : Written (.paren e) us) {ta : Str} (hta : Packed us ta) (rest : Str) :
    lv 2 (ta ++ rest) ≠ none := by
  obtain ⟨he1, he2⟩ := he
  cases he1 with
  | paren e us he1 =>
    obtain ⟨w1, r1, rfl, hw1, hr1⟩ := packed_open (by simp) hta
    obtain ⟨ti, w3, tb', rfl, hti, htb', hw3⟩ := packed_append (text_ne he1) hr1
    have htl := packed_one htb'
    subst htl
    rw [Ne, primary_some (noPrefix (.paren e us he1) he2 (by simp [level]) _ hta _) (text_noSpace (.paren e us he1) hta _)]
    have hsh : ['('] ++ (w1 ++ (ti ++ (w3 ++ [')']))) ++ rest = '(' :: (w1 ++ (ti ++ (w3 ++ ')' :: rest))) := by simp
    simp only [Ladder] at he2
    rw [hsh, primary_paren hw3 ((parses he1 he2.1 ti hti).expr he1 hti hw1 (closed_paren hw3))]
    simp

/-- the texts after `print` that begin with an expression -/
theorem opening_read : ∀ {ts : List Str}, Opening ts → Tail ts → ∀ text, Packed ts text → ∀ rest,
    lv 2 (text ++ rest) ≠ none := by
  intro ts h
  induction h with
  | minus ts =>
    intro ht text hs rest
    cases ht with
    | dead c cs ts hc _ => simp [starts] at hc
    | minus e us ts c cs he hi =>
      obtain ⟨w, r, rfl, hw, hr1⟩ := packed_open (by simp) hs
      obtain ⟨ta, w2, tb, rfl, hta, htb, hw2⟩ := packed_append (text_ne he.1) hr1
      obtain ⟨more, rfl⟩ := packed_head htb
      have hsh : s!' "-" ++ (w ++ (ta ++ (w2 ++ (c :: cs ++ more)))) ++ rest = '-' :: (w ++ (ta ++ (w2 ++ c :: (cs ++ (more ++ rest))))) := by simp
      have hp : ∀ s, prefixOp ('-' :: s) = some (.op .minus, s) := fun s => rfl
      rw [hsh, Ne, prefix_some (hp _) rfl hw (text_noSpace he.1 hta _)]
      exact begun he.1 he.2 ta hta _ (blank_not_ident hw2 fun _ => noHead_cons.2 hi)
  | paren e us ts he =>
    intro ht text hs rest
    cases ts with
    | nil =>
      rw [List.append_nil] at hs
      exact paren_read he hs rest
    | cons t ts =>
      obtain ⟨ta, w2, tb, rfl, hta, htb, hw2⟩ := packed_append (text_ne he.1) hs
      rw [List.append_assoc]
      exact paren_read he hta _
  | cast c cs ts hc hcs _ ih =>
    intro ht text hs rest
    have hx := struct_name hc hcs
    have ht' : Tail ts := by
      generalize hall : s!' "(" :: (s!' "struct" ++ c :: cs) :: s!' ")" :: ts = all at ht
      cases ht with
      | dead d ds ts hd _ => simp only [List.cons.injEq] at hall; rw [← hall.1.1] at hd; simp [starts] at hd
      | ne ts => simp at hall
      | minusEq ts => simp at hall
      | minus e us ts c cs he hi => simp at hall
      | call args us ts0 ha _ h =>
        simp only [List.cons.injEq, true_and] at hall
        obtain ⟨_, rfl⟩ := call_word ha hx hall.symm
        exact h
    obtain ⟨c2, cs2, ts2, rfl, _, hsp, _⟩ := ht'.head
    obtain ⟨w1, r1, rfl, hw1, hr1⟩ := packed_open (by simp) hs
    obtain ⟨w2, r2, rfl, hw2, hr2⟩ := packed_open (by simp) hr1
    obtain ⟨w3, r3, rfl, hw3, hr3⟩ := packed_open (by simp) hr2
    have ih := ih ht' r3 hr3 rest
    obtain ⟨more, rfl⟩ := packed_head hr3
    have hp := prefix_cast_eq (w2 := []) (x := c :: cs) (s := w3 ++ (c2 :: cs2 ++ more ++ rest)) hw1 blank_nil ⟨c, cs, rfl, hc, hcs⟩ hw2
    rw [Ne, ← prefix_some hp rfl hw3 (noHead_cons.2 hsp)] at ih
    simpa using ih

theorem prefix_paren_none {s : Str} (h : castP ('(' :: s) = none) : prefixOp ('(' :: s) = none := by
  have hn1 : ('(' : Char) ≠ '~' := by decide
  have hn2 : ('(' : Char) ≠ '!' := by decide
  have hn3 : ('(' : Char) ≠ '-' := by decide
  unfold castP at h
  simp only [prefixOp, alt, map, tag_ne hn1, tag_ne hn2, tag_ne hn3, h]

theorem primary_paren_none {s : Str} (h : (seqL (seqL expr space) (sym ')')) s = none) : lv 0 ('(' :: s) = none := by
  have e0 : number ('(' :: s) = none := number_none (noHead_cons.2 (by decide)) (noHead_cons.2 (by decide))
  have e1 : tag s!' "true" ('(' :: s) = none := tag_ne (by decide)
  have e2 : tag s!' "false" ('(' :: s) = none := tag_ne (by decide)
  have e3 : ident ('(' :: s) = none := ident_none (noHead_cons.2 (by decide))
  have e4 : string ('(' :: s) = none := string_none (noHead_cons.2 (by decide))
  change primaryExpr expr _ = _
  simp only [primaryExpr, constant, alt, map, e0, e1, e2, e3, e4, seqL, seqR, sym_cons] at h ⊢
  revert h
  cases expr s with
  | none => simp
  | some r =>
    simp only
    cases space r.2 with
    | none => simp
    | some r2 => 
      simp only
      cases sym ')' r2.2 <;> simp

/-- the texts after `print` that do not begin with an expression -/
theorem tail_unread : ∀ {ts : List Str}, Tail ts → ¬ Opening ts → ∀ text, Packed ts text → ∀ rest, lv 2 (text ++ rest) = none := by
  intro ts h
  induction h with
  | dead c cs ts hc hsp =>
    intro _ text hs rest
    obtain ⟨more, rfl⟩ := packed_head hs
    exact unary_fail hc hsp
  | ne ts =>
    intro _ text hs rest
    obtain ⟨more, rfl⟩ := packed_head hs
    have hp : ∀ s, prefixOp ('!' :: s) = some (.op .not, s) := fun s => rfl
    have := (prefix_some (hp ('=' :: (more ++ rest))) (w := []) rfl blank_nil (noHead_cons.2 (by decide))).2 (unary_fail (by decide) (by decide))
    simpa using this
  | minusEq ts =>
    intro _ text hs rest
    obtain ⟨more, rfl⟩ := packed_head hs
    have hp : ∀ s, prefixOp ('-' :: s) = some (.op .minus, s) := fun s => rfl
    have := (prefix_some (hp ('=' :: (more ++ rest))) (w := []) rfl blank_nil (noHead_cons.2 (by decide))).2 (unary_fail (by decide) (by decide))
    simpa using this
  | minus e us ts c cs he hi => intro h; exact absurd (.minus _) h
  | call args us ts ha hl ht ih =>
    intro hno text hs rest
    cases ha with
    | nil =>
      obtain ⟨w, r, rfl, hw, hr⟩ := packed_open (by simp) hs
      obtain ⟨more, rfl⟩ := packed_head hr
      have hsh : s!' "(" ++ (w ++ ([')'] ++ more)) ++ rest = '(' :: (w ++ ')' :: (more ++ rest)) := by simp
      rw [hsh, primary_some ?_ (noHead_cons.2 (by decide))]
      · refine primary_paren_none ?_
        simp only [seqL, expr_fail hw (show starts ')' = false by decide) (by decide)]
      · refine prefix_paren_none ?_
        have h1 : tag s!' "(" ('(' :: (w ++ ')' :: (more ++ rest))) = some ((), w ++ ')' :: (more ++ rest)) := by simp [tag]
        have h2 : space (w ++ ')' :: (more ++ rest)) = _ := space_blank hw (noHead_cons.2 (show isSpaceChar ')' = false by decide))
        have h3 : ∀ s, tag s!' "struct" (')' :: s) = none := fun s => rfl
        simp only [castP, seqR, seqL, map, h1, h2, castTail, typeSpecifier, h3]
    | one e us he =>
      simp only [LadderArgs] at hl
      by_cases hst : ∃ c cs, e = .ident (s!' "struct" ++ c :: cs) ∧ Letter c
      · obtain ⟨c, cs, rfl, hc⟩ := hst
        cases he with
        | ident x hx =>
          have hcs : ∀ d ∈ cs, WordChar d := fun d hd => (name_word hx).1 d (by simp [hd])
          have hno' : ¬ Opening ts := fun h => hno (.cast c cs ts hc hcs h)
          obtain ⟨c2, cs2, ts2, rfl, _, hsp, _⟩ := ht.head
          obtain ⟨w1, r1, rfl, hw1, hr1⟩ := packed_open (by simp) hs
          obtain ⟨w2, r2, rfl, hw2, hr2⟩ := packed_open (by simp) hr1
          obtain ⟨w3, r3, rfl, hw3, hr3⟩ := packed_open (by simp) hr2
          have ih := ih hno' r3 hr3 rest
          obtain ⟨more, rfl⟩ := packed_head hr3
          have hp := prefix_cast_eq (w2 := []) (x := c :: cs) (s := w3 ++ (c2 :: cs2 ++ more ++ rest)) hw1 blank_nil ⟨c, cs, rfl, hc, hcs⟩ hw2
          rw [← prefix_some hp rfl hw3 (noHead_cons.2 hsp)] at ih
          simpa using ih
      · refine absurd ?_ hno
        have hlad : Ladder (.paren e) := by
          simp only [Ladder]
          exact ⟨hl.1, fun c cs he hc => hst ⟨c, cs, he, hc⟩⟩
        have := Opening.paren e _ ts ⟨.paren e us he, hlad⟩
        simpa using this
    | cons e e' es us vs he hes =>
      simp only [LadderArgs] at hl
      obtain ⟨w1, r1, rfl, hw1, hr1⟩ := packed_open (by simp) hs
      rw [List.append_assoc] at hr1
      obtain ⟨ta, w2, tb, rfl, hta, htb, hw2⟩ := packed_append (text_ne he) hr1
      obtain ⟨more, rfl⟩ := packed_head htb
      have hsh : s!' "(" ++ (w1 ++ (ta ++ (w2 ++ ([','] ++ more)))) ++ rest = '(' :: (w1 ++ (ta ++ (w2 ++ ',' :: (more ++ rest)))) := by simp
      rw [hsh, primary_some ?_ (noHead_cons.2 (by decide))]
      · refine primary_paren_none ?_
        have := (parses he hl.1 ta hta).expr he hta hw1 (closed_char (r := more ++ rest) hw2 (c := ',') (by decide) (by decide) (by decide))
        have h2 : space (w2 ++ ',' :: (more ++ rest)) = _ := space_blank hw2 (noHead_cons.2 (show isSpaceChar ',' = false by decide))
        have h3 : (',' : Char) ≠ ')' := by decide
        simp only [seqL, this, h2, sym_ne h3]
      · exact prefix_paren_none (castP_char he (by decide) (by decide) (fun h => absurd h (by decide)) hta hw1 hw2)

/-! ### whether a word after `print` can be printed -/

theorem digits_split {a b c d : Str} (h : a ++ b = c ++ d) (ha : ∀ x ∈ a, '0' ≤ x ∧ x ≤ '9') (hc : ∀ x ∈ c, '0' ≤ x ∧ x ≤ '9')
    (hb : ∀ x, b.head? = some x → ¬ ('0' ≤ x ∧ x ≤ '9')) (hd : ∀ x, d.head? = some x → ¬ ('0' ≤ x ∧ x ≤ '9')) : a = c := by
  induction a generalizing c with
  | nil =>
    cases c with
    | nil => rfl
    | cons y c =>
      simp only [List.nil_append] at h
      subst h
      exact absurd (hc y (by simp)) (hb y rfl)
  | cons x a ih =>
    cases c with
    | nil =>
      simp only [List.nil_append] at h
      subst h
      exact absurd (ha x (by simp)) (hd x rfl)
    | cons y c =>
      simp only [List.cons_append, List.cons.injEq] at h
      obtain ⟨rfl, h⟩ := h
      rw [ih h (fun z hz => ha z (by simp [hz])) (fun z hz => hc z (by simp [hz]))]

theorem numbered {z : Str} : ∃ ds r, z = ds ++ r ∧ (∀ x ∈ ds, '0' ≤ x ∧ x ≤ '9') ∧ ∀ x, r.head? = some x → ¬ ('0' ≤ x ∧ x ≤ '9') := by
  induction z with
  | nil => exact ⟨[], [], rfl, by simp, by simp⟩
  | cons c z ih =>
    by_cases hc : '0' ≤ c ∧ c ≤ '9'
    · obtain ⟨ds, r, rfl, h1, h2⟩ := ih
      refine ⟨c :: ds, r, rfl, fun x hx => ?_, h2⟩
      rcases List.mem_cons.1 hx with rfl | h
      · exact hc
      · exact h1 x h
    · exact ⟨[], c :: z, rfl, by simp, fun x hx => by simp only [List.head?_cons, Option.some.injEq] at hx; exact hx ▸ hc⟩

theorem word_read {z r : Str} (hne : z ≠ []) (hz : ∀ c ∈ z, WordChar c) (hr : NoHead isIdentChar r) :
    lv 2 (z ++ r) = none ↔ Oversized z := by
  cases z with
  | nil => exact absurd rfl hne
  | cons c cs =>
    have hc := hz c (by simp)
    have hsp : NoHead isSpaceChar (c :: cs ++ r) := noHead_cons.2 (word_not_space hc)
    have hpre : prefixOp (c :: cs ++ r) = none := by
      have hi := (isIdentChar_iff c).2 hc
      refine prefixOp_none ?_ ?_ ?_ ?_ <;> rintro rfl <;> revert hi <;> decide
    rw [primary_some hpre hsp]
    rcases hc with hc | hc
    · have hno : ¬ Oversized (c :: cs) := by
        rintro ⟨ds, r', h1, h2, _⟩
        obtain ⟨d, ds', rfl, hd⟩ := numeral_head h2
        simp only [List.cons_append, List.cons.injEq] at h1
        exact digit_not_letter hd (h1.1 ▸ hc)
      have hn : Name (c :: cs) := ⟨c, cs, rfl, hc, fun d hd => hz d (by simp [hd])⟩
      simp only [hno, iff_false]
      by_cases h1 : s!' "true" <+: c :: cs
      · obtain ⟨y, hy⟩ := h1
        rw [← hy, List.append_assoc]
        have := primary_bool true (y ++ r)
        simp only [if_true] at this
        rw [this]; simp
      · by_cases h2 : s!' "false" <+: c :: cs
        · obtain ⟨y, hy⟩ := h2
          rw [← hy, List.append_assoc]
          have := primary_bool false (y ++ r)
          simp only [Bool.false_eq_true, if_false] at this
          rw [this]; simp
        · rw [primary_ident hn h1 h2 hr]; simp
    · obtain ⟨ds, r', hsplit, h1, h2⟩ := numbered (z := c :: cs)
      have hds : ds ≠ [] := by
        rintro rfl
        rw [List.nil_append] at hsplit
        subst hsplit
        exact h2 c rfl hc
      by_cases h0 : c = '0'
      · subst h0
        have hno : ¬ Oversized ('0' :: cs) := by
          rintro ⟨ds', r2, h3, ⟨_, _, h4⟩, h5, _⟩
          obtain _ | ⟨d, ds'⟩ := ds'
          · simp [decimal] at h5
          · simp only [List.cons_append, List.cons.injEq] at h3
            rw [← h3.1] at h4 h5
            rw [h4 rfl] at h5
            simp [decimal] at h5
        have hnum : number ('0' :: cs ++ r) = some (0, cs ++ r) := rfl
        simp only [hno, iff_false]
        change primaryExpr expr _ ≠ _
        simp only [primaryExpr, constant, alt, map, hnum]
        simp
      · have hnum : Numeral ds := by
          refine ⟨hds, h1, fun h => ?_⟩
          obtain _ | ⟨d, ds⟩ := ds
          · simp at h
          · simp only [List.cons_append, List.cons.injEq] at hsplit
            simp only [List.head?_cons, Option.some.injEq] at h
            exact absurd (hsplit.1.trans h) h0
        have hov : Oversized (c :: cs) ↔ 2 ^ 127 ≤ decimal ds := by
          constructor
          · rintro ⟨ds', r2, h3, ⟨_, h4, _⟩, h5, h6⟩
            rw [digits_split (hsplit.symm.trans h3) h1 h4 h2 h6]
            exact h5
          · intro h
            exact ⟨ds, r', hsplit, hnum, h, h2⟩
        have hr' : NoHead isDigitChar (r' ++ r) := by
          cases r' with
          | nil => exact ident_of_not_char hr
          | cons d r' =>
            refine noHead_cons.2 ?_
            have := h2 d rfl
            simp only [isDigitChar, Bool.and_eq_false_iff, decide_eq_false_iff_not]
            by_cases h7 : '0' ≤ d
            · exact .inr fun h8 => this ⟨h7, h8⟩
            · exact .inl h7
        have e0 := number_numeral hnum hr'
        rw [digitsVal_eq] at e0
        rw [hov, hsplit, List.append_assoc]
        change primaryExpr expr _ = _ ↔ _
        by_cases hb : 2 ^ 127 ≤ decimal ds
        · rw [if_neg (by omega)] at e0
          simp only [hb, iff_true]
          rw [← List.append_assoc, ← hsplit] at e0 ⊢
          have hl : ¬ Letter c := digit_not_letter hc
          have hnl : ∀ d, Letter d → c ≠ d := fun d hd e => hl (e ▸ hd)
          have ht : c ≠ 't' := hnl _ (by unfold Letter; decide)
          have hf : c ≠ 'f' := hnl _ (by unfold Letter; decide)
          have hq : c ≠ '"' := by rintro rfl; revert hc; decide
          have hp : c ≠ '(' := by rintro rfl; revert hc; decide
          have e3 : ident (c :: cs ++ r) = none := ident_none (noHead_cons.2 (by
            cases h : isIdentStart c with
            | false => rfl
            | true => exact absurd ((isIdentStart_iff c).1 h) hl))
          have e4 : string (c :: cs ++ r) = none := string_none (noHead_cons.2 (by simp [hq]))
          rw [List.cons_append] at *
          simp only [primaryExpr, constant, alt, map, e0, tag_ne ht, tag_ne hf, e3, e4, seqR, seqL, sym_ne hp]
        · rw [if_pos (by omega)] at e0
          simp only [hb, iff_false, primaryExpr, constant, alt, map, e0]
          simp

/-! ### statements that are taken for others -/

theorem not_letter_free {c : Char} {cs : Str} {ts : List Str} (h : ¬ Letter c) : Free ((c :: cs) :: ts) := by
  rintro (⟨k, hk, hp⟩ | ⟨z, hz, _⟩)
  · simp only [List.mem_cons, List.not_mem_nil, or_false] at hk
    rcases hk with rfl | rfl | rfl | rfl <;> rw [List.cons_prefix_cons] at hp <;> apply h <;> rw [← hp.1] <;> unfold Letter <;> decide
  · simp only [List.cons_append, List.cons.injEq] at hz
    apply h; rw [hz.1]; unfold Letter; decide

theorem plain_free {t : Str} {ts : List Str} (h : ¬ StartsReserved t) : Free (t :: ts) := by
  rintro (⟨k, hk, hp⟩ | ⟨z, rfl, _⟩)
  · exact h ⟨k, List.mem_cons_of_mem _ hk, hp⟩
  · exact h ⟨_, List.mem_cons_self .., List.prefix_append _ _⟩

theorem word_claims {t : Str} {ts : List Str} (hn : Name t) (ht : Tail ts) {text : Str} (hs : Packed (t :: ts) text) (rest : Str) :
    (builtinStmt (text ++ rest) = none ∧ jumpStmt (text ++ rest) = none) ↔ Free (t :: ts) := by
  obtain ⟨c, cs, r0, rfl, hi, hsp, hq⟩ := ht.head
  obtain ⟨w, r, rfl, hw, hr⟩ := packed_open (by simp) hs
  have hr0 := hr
  obtain ⟨more, rfl⟩ := packed_head hr
  have hsh : t ++ (w ++ (c :: cs ++ more)) ++ rest = t ++ (w ++ c :: (cs ++ (more ++ rest))) := by simp
  rw [hsh]
  by_cases hk : ∃ k ∈ [s!' "help", s!' "quit", s!' "break", s!' "continue"], k <+: t
  · have htk : Taken (t :: (c :: cs) :: r0) := .inl hk
    simp only [Free, htk, not_true, iff_false]
    obtain ⟨k, hk, y, rfl⟩ := hk
    rw [List.append_assoc]
    generalize y ++ (w ++ c :: (cs ++ (more ++ rest))) = s
    simp only [List.mem_cons, List.not_mem_nil, or_false] at hk
    rcases hk with rfl | rfl | rfl | rfl
    · have h0 : tag s!' "filesystem" (s!' "help" ++ s) = none := rfl
      have h1 : tag s!' "print" (s!' "help" ++ s) = none := rfl
      simp only [alt, builtinStmt, map, seqR, h0, h1, tag_append]
      simp
    · have h0 : tag s!' "filesystem" (s!' "quit" ++ s) = none := rfl
      have h1 : tag s!' "print" (s!' "quit" ++ s) = none := rfl
      have h2 : tag s!' "help" (s!' "quit" ++ s) = none := rfl
      simp only [alt, builtinStmt, map, seqR, h0, h1, h2, tag_append]
      simp
    · simp only [jumpStmt, alt, map, tag_append]
      simp
    · have h1 : tag s!' "break" (s!' "continue" ++ s) = none := rfl
      simp only [jumpStmt, alt, map, tag_append, h1]
      simp
  · by_cases hp : s!' "print" <+: t
    · obtain ⟨z, rfl⟩ := hp
      rw [List.append_assoc]
      have hb : ∀ s, builtinStmt (s!' "print" ++ s) = none ↔ expr s = none := by
        intro s
        have h0 : tag s!' "filesystem" (s!' "print" ++ s) = none := rfl
        have h1 : tag s!' "help" (s!' "print" ++ s) = none := rfl
        have h2 : tag s!' "quit" (s!' "print" ++ s) = none := rfl
        simp only [alt, builtinStmt, map, seqR, h0, h1, h2, tag_append]
        cases expr s <;> simp
      have hj : ∀ s, jumpStmt (s!' "print" ++ s) = none := fun s => rfl
      rw [hb, and_iff_left (hj _)]
      have hfree : Free ((s!' "print" ++ z) :: (c :: cs) :: r0) ↔
          ¬ ((z = [] ∧ Opening ((c :: cs) :: r0)) ∨ (z ≠ [] ∧ ¬ Oversized z)) := by
        unfold Free Taken
        refine not_congr ⟨?_, fun h => .inr ⟨z, rfl, h⟩⟩
        rintro (h | ⟨z', h1, h2⟩)
        · exact absurd h hk
        · rw [List.append_cancel_left h1]; exact h2
      rw [hfree]
      by_cases hz : z = []
      · subst hz
        rw [List.nil_append, expr_none_iff hw (noHead_cons.2 hsp)]
        have hsh2 : c :: (cs ++ (more ++ rest)) = c :: cs ++ more ++ rest := by simp
        rw [hsh2]
        by_cases ho : Opening ((c :: cs) :: r0)
        · have := opening_read ho ht _ hr0 rest
          exact ⟨fun h => absurd h this, fun h => absurd (.inl ⟨rfl, ho⟩) h⟩
        · have := tail_unread ht ho _ hr0 rest
          refine ⟨fun _ => ?_, fun _ => this⟩
          rintro (⟨_, h⟩ | ⟨h, _⟩)
          · exact ho h
          · exact h rfl
      · have hzw : ∀ d ∈ z, WordChar d := fun d hd => (name_word hn).1 d (by simp [hd])
        have hns : NoHead isSpaceChar (z ++ (w ++ c :: (cs ++ (more ++ rest)))) := by
          cases z with
          | nil => exact absurd rfl hz
          | cons d z => exact noHead_cons.2 (word_not_space (hzw d (by simp)))
        have := expr_none_iff (w := []) (s := z ++ (w ++ c :: (cs ++ (more ++ rest)))) blank_nil hns
        rw [List.nil_append] at this
        rw [this, word_read hz hzw (blank_not_ident hw fun _ => noHead_cons.2 hi)]
        simp [hz]
    · have hres : ¬ StartsReserved t := by
        rintro ⟨k, hk', hpre⟩
        rcases List.mem_cons.1 hk' with rfl | h
        · exact hp hpre
        · exact hk ⟨k, h, hpre⟩
      simp only [word_kw (name_word hn).1 hres hw hi hsp hq, plain_free hres, and_self]

/-- a statement that begins with an expression is not taken for another one -/
theorem expr_claims {e : Expr} {us ts : List Str} (he : ExprText e us) (hl : Ladder e) (ht : Tail ts) {text : Str}
    (hs : Packed (us ++ ts) text) (rest : Str) :
    (builtinStmt (text ++ rest) = none ∧ jumpStmt (text ++ rest) = none) ↔ Free (us ++ ts) := by
  obtain ⟨t, vs, rfl, hlead⟩ := lead he
  have key : Name t → ((builtinStmt (text ++ rest) = none ∧ jumpStmt (text ++ rest) = none) ↔ Free (t :: vs ++ ts)) := fun hn =>
    word_claims hn (tail_of he hl rfl hn ht) hs rest
  rcases hlead with ⟨_, hn, _⟩ | ⟨hn, _⟩ | ⟨c2, cs, rfl, hc, _⟩
  · exact key hn
  · exact key hn
  · obtain ⟨more, rfl⟩ := packed_head hs
    have := symbol_kw (r := cs ++ more ++ rest) hc
    simp only [List.cons_append] at this ⊢
    simp only [this, not_letter_free hc, and_self]

end Btrd
