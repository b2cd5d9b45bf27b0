/-
C05-C12: the written form of programs and what the parser makes of it (`src/lang/parse.rs`).
-/
import Verif.Lemmas.Loose
import Verif.Lemmas.Spelling
import Verif.Spec.Repeat
import Verif.Props.Analysis

namespace Btrd
open P Spec

/-! ### programs (C06) -/

/-- the parser on a text that `stmts` reads up to trailing blanks -/
theorem parse_of_stmts {s w : Str} {p : List Stmt} (hw : Blank w) (h : stmts s = some (p, w)) : parse s = some p := by
  have h1 : space w = some ((), []) := by
    have := space_blank hw (noHead_nil isSpaceChar)
    rwa [List.append_nil] at this
  simp only [parse, seqL, h, h1, eof]

/-- a text whose tokens are set down in any way, with a blank after every loop variable -/
theorem parse_loose {p : List Stmt} {ts : List Str} {s : Str} (hf : ProgFormV Parted Free p ts) (hs : Loose ts s) :
    parse s = some p := by
  obtain ⟨w, text, w2, hw, hw2, hk, rfl⟩ := hs.packed
  obtain ⟨w', hw', h⟩ := (prog_reads hf text hk).1 w w2 [] hw hw2 (.inl rfl)
  rw [List.append_nil, List.append_nil, ← List.append_assoc] at h
  exact parse_of_stmts hw' h

/-- C06. Every program none of whose statements is taken for another one, with its literals in any spelling and any
blanks between the tokens and around the text, is read as that program. -/
theorem C06_any_free {p : List Stmt} {ts : List Str} {text w w2 : Str} (hf : ProgFormV Bare Free p ts)
    (hs : Spaced ts text) (hw : Blank w) (hw2 : Blank w2) : parse (w ++ text ++ w2) = some p := by
  obtain ⟨us, h1, h2⟩ := prog_apart hf text hs
  exact parse_loose h1 ((Loose.pre hw h2).post hw2)

/-- C06. Every program that begins its statements plainly, with its literals in any spelling and any blanks
between the tokens and around the text, is read as that program. -/
theorem C06_any_spelling {p : List Stmt} {ts : List Str} {text w w2 : Str} (hf : ProgForm p ts) (hp : PlainProg p)
    (hs : Spaced ts text) (hw : Blank w) (hw2 : Blank w2) : parse (w ++ text ++ w2) = some p := by
  exact C06_any_free (prog_free hf hp) hs hw hw2

mutual
theorem plainStmt_of_text : ∀ {s : Stmt} {ts : List Str}, StmtText s ts → PlainStmt s
  | _, _, .assign _ _ _ _ h => by simp only [PlainStmt]; exact h
  | _, _, .plusEq _ _ _ _ h => by simp only [PlainStmt]; exact h
  | _, _, .minusEq _ _ _ _ h => by simp only [PlainStmt]; exact h
  | _, _, .ite _ _ _ _ h => by simp only [PlainStmt, PlainProg]; exact ⟨plainProg_of_text h, trivial⟩
  | _, _, .iteElse _ _ _ _ _ _ h h' => by simp only [PlainStmt]; exact ⟨plainProg_of_text h, plainProg_of_text h'⟩
  | _, _, .while _ _ _ _ h => by simp only [PlainStmt]; exact plainProg_of_text h
  | _, _, .for _ _ _ _ _ _ h => by simp only [PlainStmt]; exact plainProg_of_text h
  | _, _, .brk => by simp only [PlainStmt]
  | _, _, .cont => by simp only [PlainStmt]
  | _, _, .help => by simp only [PlainStmt]
  | _, _, .quit => by simp only [PlainStmt]
  | _, _, .filesystem _ => by simp only [PlainStmt]
  | _, _, .print _ _ => by simp only [PlainStmt]
  | _, _, .expr _ _ h => by simp only [PlainStmt]; exact h
  | _, _, .semi _ _ h => plainStmt_of_text h
theorem plainProg_of_text : ∀ {p : List Stmt} {ts : List Str}, ProgText p ts → PlainProg p
  | _, _, .nil => by simp only [PlainProg]
  | _, _, .cons _ _ _ _ h h' => by simp only [PlainProg]; exact ⟨plainStmt_of_text h, plainProg_of_text h'⟩
end

/-- C06. Every program, in every way it can be written and with any blanks between the tokens and around
the text, is read as that program. -/
theorem C06_round_trip {p : List Stmt} {ts : List Str} {text w w2 : Str} (hp : ProgText p ts) (hs : Spaced ts text)
    (hw : Blank w) (hw2 : Blank w2) : parse (w ++ text ++ w2) = some p :=
  C06_any_spelling (progForm_of_text hp) (plainProg_of_text hp) hs hw hw2

theorem spaced_oneLine : ∀ ts, Spaced ts (oneLine ts)
  | [] => .nil
  | [t] => .one t
  | t :: t' :: ts => by
    refine .cons t [' '] t' ts _ ?_ (by simp) (spaced_oneLine (t' :: ts))
    intro c hc
    simp only [List.mem_cons, List.not_mem_nil, or_false] at hc
    exact .inl hc

mutual
theorem stmtText_tokens : ∀ s, Writable s → StmtText s (stmtTokens s)
  | .assign l r, h => by simp only [Writable] at h; rw [stmtTokens]; exact .assign l r h.1 h.2.1 h.2.2
  | .ite c t f, h => by
    simp only [Writable] at h; rw [stmtTokens]
    exact .iteElse c t f _ _ h.1 (progText_tokens t h.2.1) (progText_tokens f h.2.2)
  | .while c b, h => by
    simp only [Writable] at h; rw [stmtTokens]
    exact .while c b _ h.1 (progText_tokens b h.2)
  | .for x r b, h => by
    simp only [Writable] at h
    obtain ⟨⟨n, rfl, hn⟩, h2, h3⟩ := h
    rw [stmtTokens, tokens]
    exact .for n r b _ hn h2 (progText_tokens b h3)
  | .brk, _ => .brk
  | .cont, _ => .cont
  | .help, _ => .help
  | .quit, _ => .quit
  | .filesystem e, h => by
    simp only [Writable] at h
    obtain ⟨s, rfl⟩ := h
    rw [stmtTokens, tokens]; exact .filesystem s
  | .print e, h => by simp only [Writable] at h; rw [stmtTokens]; exact .print e h
  | .expr e, h => by simp only [Writable] at h; rw [stmtTokens]; exact .expr e h.1 h.2
theorem progText_tokens : ∀ p, WritableAll p → ProgText p (progTokens p)
  | [], _ => .nil
  | s :: ss, h => by
    simp only [WritableAll] at h
    rw [progTokens]
    exact .cons s ss _ _ (stmtText_tokens s h.1) (progText_tokens ss h.2)
end

/-- C06. Printing a program and reading it back is the identity. -/
theorem C06_print_parse (p : List Stmt) (h : WritableAll p) : parse (oneLine (progTokens p)) = some p := by
  have := C06_round_trip (progText_tokens p h) (spaced_oneLine _) blank_nil blank_nil
  rwa [List.nil_append, List.append_nil] at this

/-- C06. Two programs with the same text are the same program. -/
theorem C06_unambiguous {p q : List Stmt} {ts us : List Str} {text : Str} (hp : ProgText p ts) (hq : ProgText q us)
    (h1 : Spaced ts text) (h2 : Spaced us text) : p = q := by
  have e1 := C06_round_trip hp h1 blank_nil blank_nil
  have e2 := C06_round_trip hq h2 blank_nil blank_nil
  rw [e1] at e2
  simpa using e2

/-! ### expressions (C05, C07) -/

/-- C05. Every expression that respects the precedence ladder, with any blanks between its tokens, is read
as exactly that tree. -/
theorem C05_round_trip {e : Expr} (he : Ladder e) : parse (s!' "print " ++ oneLine (tokens e) ++ s!' ";") = some [.print e] := by
  have h : Spaced (s!' "print" :: (tokens e ++ [s!' ";"])) (s!' "print " ++ oneLine (tokens e) ++ s!' ";") := by
    have h1 : ∀ ts, ts ≠ [] → Spaced (ts ++ [s!' ";"]) (oneLine ts ++ s!' ";") := by
      intro ts hne
      induction ts with
      | nil => exact absurd rfl hne
      | cons t ts ih =>
        cases ts with
        | nil =>
          have := Spaced.cons t [] s!' ";" [] _ blank_nil (fun _ hg => ?_) (.one s!' ";")
          · simpa [oneLine] using this
          · obtain ⟨_, c, hc, hw⟩ := hg
            simp only [List.head?_cons, Option.some.injEq] at hc
            subst hc
            revert hw; unfold WordChar Letter; decide
        | cons t' ts =>
          have hb : Blank [' '] := by
            intro c hc
            simp only [List.mem_cons, List.not_mem_nil, or_false] at hc
            exact .inl hc
          have := Spaced.cons t [' '] t' (ts ++ [s!' ";"]) _ hb (by simp) (ih (by simp))
          simpa [oneLine] using this
    have hne := tokens_ne he
    have hb : Blank [' '] := by
      intro c hc
      simp only [List.mem_cons, List.not_mem_nil, or_false] at hc
      exact .inl hc
    have h2 := h1 _ hne
    cases ht : tokens e with
    | nil => exact absurd ht hne
    | cons t ts =>
      rw [ht] at h2
      have := Spaced.cons s!' "print" [' '] t (ts ++ [s!' ";"]) _ hb (by simp) h2
      simpa using this
  have hp : ProgText [.print e] (s!' "print" :: (tokens e ++ [s!' ";"]) ++ []) := .cons _ _ _ _ (.print e he) .nil
  have := C06_round_trip (w := []) (w2 := []) hp (by rw [List.append_nil]; exact h) blank_nil blank_nil
  simpa using this

/-- C05. No two trees have the same text: precedence and associativity decide every text. -/
theorem C05_unambiguous {e e' : Expr} (he : Ladder e) (he' : Ladder e') {text : Str} (h : Spaced (tokens e) text)
    (h' : Spaced (tokens e') text) : e = e' := by
  have e1 := (parses (exprText_tokens e he) he text h.packed).expr0 (exprText_tokens e he) h.packed (closed_nil blank_nil)
  have e2 := (parses (exprText_tokens e' he') he' text h'.packed).expr0 (exprText_tokens e' he') h'.packed (closed_nil blank_nil)
  rw [e1] at e2
  simpa using e2

/-- C07. Blanks between the tokens of an expression do not change the tree. -/
theorem C07_whitespace {e : Expr} (he : Ladder e) {text w w₁ w₂ w₃ : Str} (h : Spaced (tokens e) text)
    (hw : Blank w) (hw₁ : Blank w₁) (hw₂ : Blank w₂) (hw₃ : Blank w₃) :
    parse (w ++ (s!' "print" ++ (w₁ ++ (text ++ (w₂ ++ ';' :: w₃))))) = some [.print e] := by
  have e1 := (parses (exprText_tokens e he) he text h.packed).expr (exprText_tokens e he) h.packed hw₁ (closed_semi (r := w₃) hw₂)
  have h0 : ∀ s, tag s!' "filesystem" (s!' "print" ++ s) = none := fun s => rfl
  have h1 : stmtSemicolon (s!' "print" ++ (w₁ ++ (text ++ (w₂ ++ ';' :: w₃)))) = some (.print e, w₃) := by
    refine semicolon_ok hw₂ ?_
    simp only [alt, builtinStmt, map, seqR, h0, tag_append, e1]
  have hb : Begins (s!' "print" ++ (w₁ ++ (text ++ (w₂ ++ [';'])))) := begins_char (by decide) (by decide) (by decide)
  have hsp := space_blank hw (hb.head w₃)
  have hsh : s!' "print" ++ (w₁ ++ (text ++ (w₂ ++ [';']))) ++ w₃ = s!' "print" ++ (w₁ ++ (text ++ (w₂ ++ ';' :: w₃))) := by simp
  rw [hsh] at hsp
  have hend := follows_end (e := []) hw₃ (.inl rfl)
  rw [List.append_nil] at hend
  have h2 : stmt stmts (w ++ (s!' "print" ++ (w₁ ++ (text ++ (w₂ ++ ';' :: w₃))))) = some (.print e, w₃) := by
    have hn : many (seqR space (sym ';')) w₃ = some ([], w₃) := many_none hend.noSemi
    simp only [stmt, seqL, seqR, hsp, alt, h1]
    rw [hn]
  refine parse_of_stmts hw₃ ?_
  have h3 := stmt_end (e := []) hw₃ (.inl rfl)
  rw [List.append_nil] at h3
  rw [stmts_unfold, many_some (stmt_eats stmts_reads) h2, many_none h3]

/-- C07. Two texts of the same tokens are read alike. -/
theorem C07_same_tokens {p : List Stmt} {ts : List Str} {text text' w w' w₂ w₂' : Str} (hp : ProgText p ts)
    (h : Spaced ts text) (h' : Spaced ts text') (hw : Blank w) (hw' : Blank w') (hw₂ : Blank w₂) (hw₂' : Blank w₂') :
    parse (w ++ text ++ w₂) = parse (w' ++ text' ++ w₂') := by
  rw [C06_round_trip hp h hw hw₂, C06_round_trip hp h' hw' hw₂']

/-! ### integer literals (C08) -/

theorem space_ok (r : Str) (h : NoHead isSpaceChar r) : space (' ' :: r) = some ((), r) := by
  have hb : Blank [' '] := by
    intro c hc
    simp only [List.mem_cons, List.not_mem_nil, or_false] at hc
    exact .inl hc
  exact space_blank (w := [' ']) hb h

/-- a primary expression, read as a whole expression -/
theorem expr_of_primary {s r w : Str} {e : Expr} (hw : Blank w) (hp : primaryExpr expr s = some (e, r))
    (hn : prefixOp s = none) (hs : NoHead isSpaceChar s) (hr : Closed r) : expr (w ++ s) = some (e, r) := by
  have h : ∀ k, k ≤ 12 → lv k s = some (e, r) := by
    intro k
    induction k with
    | zero => intro _; exact hp
    | succ k ih =>
      intro hk
      have ih := ih (by omega)
      by_cases h2 : k + 1 = 2
      · have : k = 1 := by omega
        subst this
        rw [unary_none hn hs]; exact ih
      · rw [lv_step (by omega) h2 hk, Nat.add_sub_cancel, ih]
        exact loop_stop e (hr.2 _ hk)
  rw [expr_eq]
  simp only [seqR, space_blank hw hs]
  exact h 12 (by omega)

/-- a printed expression -/
theorem parse_print {s : Str} {e : Expr} (h : expr (' ' :: (s ++ s!' ";")) = some (e, s!' ";")) :
    parse (s!' "print " ++ s ++ s!' ";") = some [.print e] := by
  have h0 : ∀ s, tag s!' "filesystem" (s!' "print" ++ s) = none := fun s => rfl
  have hsh : s!' "print " ++ s ++ s!' ";" = s!' "print" ++ (' ' :: (s ++ s!' ";")) := by simp
  have h1 : stmtSemicolon (s!' "print" ++ (' ' :: (s ++ s!' ";"))) = some (.print e, []) := by
    refine semicolon_ok (w := []) blank_nil ?_
    simp only [alt, builtinStmt, map, seqR, h0, tag_append, h, List.nil_append]
  have h2 : stmt stmts (s!' "print" ++ (' ' :: (s ++ s!' ";"))) = some (.print e, []) := by
    have hsp : space (s!' "print" ++ (' ' :: (s ++ s!' ";"))) = some ((), s!' "print" ++ (' ' :: (s ++ s!' ";"))) :=
      space_none (noHead_cons.2 (by decide))
    have hn : many (seqR space (sym ';')) [] = some ([], []) := rfl
    simp only [stmt, seqL, seqR, hsp, alt, h1]
    rw [hn]
  rw [hsh]
  refine parse_of_stmts blank_nil ?_
  rw [stmts_unfold, many_some (stmt_eats stmts_reads) h2, many_none (stmt_empty _)]

/-- a numeral that does not fit is no expression -/
theorem big_none {ds r w : Str} (h : Numeral ds) (hr : NoHead isDigitChar r) (hw : Blank w) (hbig : ¬ decimal ds < 2 ^ 127) :
    expr (w ++ (ds ++ r)) = none := by
  have hn : number (ds ++ r) = none := by
    rw [number_numeral h hr, digitsVal_eq, if_neg (by omega)]
  obtain ⟨hne, hd, _⟩ := h
  cases ds with
  | nil => exact absurd rfl hne
  | cons c cs =>
    have hc := hd c (by simp)
    have hx : ∀ d, ¬ ('0' ≤ d ∧ d ≤ '9') → c ≠ d := fun d hd e => hd (e ▸ hc)
    have hnl := digit_not_letter hc
    have hst : isIdentStart c = false := by
      rw [Bool.eq_false_iff]; intro h; exact hnl ((isIdentStart_iff c).1 h)
    have h1 : constant (c :: (cs ++ r)) = none := by
      have hn' : number (c :: (cs ++ r)) = none := hn
      simp only [constant, alt, map, hn', tag_ne (hx 't' (by decide)), tag_ne (hx 'f' (by decide))]
    have h2 : ident (c :: (cs ++ r)) = none := ident_none (noHead_cons.2 hst)
    have h3 : string (c :: (cs ++ r)) = none := string_none (noHead_cons.2 (by simp [hx '"' (by decide)]))
    have h4 : primaryExpr expr (c :: (cs ++ r)) = none := by
      simp only [primaryExpr, alt, h1, h2, h3, map, seqL, seqR, sym_ne (hx '(' (by decide))]
    have h5 : prefixOp (c :: (cs ++ r)) = none := by
      simp only [prefixOp, alt, map, seqL, seqR, tag_ne (hx '~' (by decide)), tag_ne (hx '!' (by decide)),
        tag_ne (hx '-' (by decide)), tag_ne (hx '(' (by decide))]
    have hs : isSpaceChar c = false := word_not_space (.inr hc)
    have h6 : unaryExpr expr (c :: (cs ++ r)) = none := by
      have h7 : seqL prefixOp space (c :: (cs ++ r)) = none := by simp only [seqL, h5]
      have h8 : postfixExpr expr (c :: (cs ++ r)) = none := by simp only [postfixExpr, map, seq, h4]
      have h9 := many_none h7
      simp only [unaryExpr, map, seq]
      rw [seqL, h9]
      simp only [space_none (noHead_cons.2 hs), h8]
    rw [expr_unfold]
    have hsp : space (w ++ (c :: cs ++ r)) = some ((), c :: (cs ++ r)) := space_char hw hs
    simp only [seqR, hsp]
    exact or_none h6

/-- `print` before something that is no expression and does not make it a variable -/
theorem print_none {c : Char} {r : Str} (hsp : isSpaceChar c = false)
    (hc : continues c = false) (he : c ≠ '=') (hs : c ≠ ';') (hx : expr (' ' :: c :: r) = none) :
    parse (s!' "print" ++ (' ' :: c :: r)) = none := by
  have hb : Blank [' '] := by
    intro c hc
    simp only [List.mem_cons, List.not_mem_nil, or_false] at hc
    exact .inl hc
  have hl : Ladder (.ident s!' "print") := by
    simp only [Ladder]
    refine ⟨⟨'p', s!' "rint", rfl, by unfold Letter; decide, ?_⟩, by decide, by decide⟩
    intro d hd
    simp only [List.mem_cons, List.not_mem_nil, or_false] at hd
    rcases hd with rfl | rfl | rfl | rfl <;> unfold WordChar Letter <;> decide
  have hone : Spaced (tokens (.ident s!' "print")) s!' "print" := by rw [tokens]; exact .one _
  have hcl : Closed ([' '] ++ c :: r) :=
    ⟨noHead_cons.2 (by decide), fun k _ => stop_char hb hsp hc k⟩
  have h1 := (parses (exprText_tokens _ hl) hl _ hone.packed).expr0 (exprText_tokens _ hl) hone.packed hcl
  have h2 : builtinStmt (s!' "print" ++ (' ' :: c :: r)) = none := by
    have h0 : ∀ s, tag s!' "filesystem" (s!' "print" ++ s) = none := fun s => rfl
    have h3 : ∀ s, tag s!' "help" (s!' "print" ++ s) = none := fun s => rfl
    have h4 : ∀ s, tag s!' "quit" (s!' "print" ++ s) = none := fun s => rfl
    simp only [builtinStmt, alt, map, seqR, h0, h3, h4, tag_append, hx]
  have h3 : jumpStmt (s!' "print" ++ (' ' :: c :: r)) = none := rfl
  have hp : c ≠ '+' := by rintro rfl; simp [continues] at hc
  have hm : c ≠ '-' := by rintro rfl; simp [continues] at hc
  have h4 := semicolon_none h2 h3 h1 ⟨[' '], c, r, rfl, hb, hsp, hs, he, hp, hm⟩
  have h5 : blockStmt stmts (s!' "print" ++ (' ' :: c :: r)) = none := rfl
  have h6 : stmt stmts (s!' "print" ++ (' ' :: c :: r)) = none := by
    have h7 : space (s!' "print" ++ (' ' :: c :: r)) = some ((), s!' "print" ++ (' ' :: c :: r)) :=
      space_none (noHead_cons.2 (by decide))
    simp only [stmt, seqL, seqR, h7, alt, h4, h5]
  have h8 : stmts (s!' "print" ++ (' ' :: c :: r)) = some ([], s!' "print" ++ (' ' :: c :: r)) := by
    rw [stmts_unfold]; exact many_none h6
  have h7 : space (s!' "print" ++ (' ' :: c :: r)) = some ((), s!' "print" ++ (' ' :: c :: r)) :=
    space_none (noHead_cons.2 (by decide))
  simp only [parse, seqL, h8, h7]
  rfl

/-- C08. A decimal numeral is read as its value if that fits 128 bits, otherwise the program is rejected. -/
theorem C08_literal (ds : Str) (h : Numeral ds) : parse (s!' "print " ++ ds ++ s!' ";") =
    if decimal ds < 2 ^ 127 then some [.print (.int (decimal ds))] else none := by
  have hsemi : NoHead isDigitChar s!' ";" := noHead_cons.2 (by decide)
  have hb : Blank [' '] := by
    intro c hc
    simp only [List.mem_cons, List.not_mem_nil, or_false] at hc
    exact .inl hc
  by_cases hbig : decimal ds < 2 ^ 127
  · rw [if_pos hbig]
    refine parse_print (expr_of_primary (w := [' ']) (s := ds ++ s!' ";") hb ?_ ?_ ?_ ?_)
    · have hn := number_numeral h hsemi
      rw [digitsVal_eq, if_pos (by omega)] at hn
      simp only [primaryExpr, constant, alt, map, hn]
    · obtain ⟨hne, hd, _⟩ := h
      cases ds with
      | nil => exact absurd rfl hne
      | cons c cs =>
        have hc := hd c (by simp)
        have hx : ∀ d, ¬ ('0' ≤ d ∧ d ≤ '9') → c ≠ d := fun d hd e => hd (e ▸ hc)
        simp only [List.cons_append, prefixOp, alt, map, seqL, seqR, tag_ne (hx '~' (by decide)), tag_ne (hx '!' (by decide)),
          tag_ne (hx '-' (by decide)), tag_ne (hx '(' (by decide))]
    · obtain ⟨hne, hd, _⟩ := h
      cases ds with
      | nil => exact absurd rfl hne
      | cons c cs => exact noHead_cons.2 (word_not_space (.inr (hd c (by simp))))
    · exact closed_semi blank_nil
  · rw [if_neg hbig]
    have hx := big_none h hsemi hb hbig
    obtain ⟨hne, hd, _⟩ := h
    cases ds with
    | nil => exact absurd rfl hne
    | cons c cs =>
      have hc := hd c (by simp)
      have hx' : ∀ d, ¬ ('0' ≤ d ∧ d ≤ '9') → c ≠ d := fun d hd e => hd (e ▸ hc)
      have := print_none (c := c) (r := cs ++ s!' ";") (word_not_space (.inr hc)) ?_ (hx' '=' (by decide)) (hx' ';' (by decide)) hx
      · simpa using this
      · rw [Bool.eq_false_iff]; intro hcc
        have := continues_not_ident hcc
        rw [(isIdentChar_iff c).2 (.inr hc)] at this; simp at this

/-- C08. A minus sign in front of a numeral negates the value it denotes. -/
theorem C08_negative (n : Nat) (h : n < 2 ^ 127) :
    parse (s!' "print -" ++ Nat.toDigits 10 n ++ s!' ";") = some [.print (.un .minus (.int n))] := by
  have hl : Ladder (.un .minus (.int n)) := by
    simp only [Ladder, level]; omega
  have hs : Spaced (tokens (.un .minus (.int n))) (['-'] ++ [] ++ Nat.toDigits 10 n) := by
    simp only [tokens, unText]
    have h1 : (n : Int).natAbs = n := by simp
    rw [h1]
    refine .cons _ [] _ [] _ blank_nil (fun _ hg => ?_) (.one _)
    obtain ⟨⟨c, hc, hw⟩, _⟩ := hg
    simp only [List.getLast?_singleton, Option.some.injEq] at hc
    subst hc; revert hw; unfold WordChar Letter; decide
  have hb : Blank [' '] := by
    intro c hc
    simp only [List.mem_cons, List.not_mem_nil, or_false] at hc
    exact .inl hc
  have := C07_whitespace hl hs blank_nil hb blank_nil blank_nil
  simpa using this

/-- the numerals are the decimal digits of the natural numbers -/
theorem C08_numerals (n : Nat) : Numeral (Nat.toDigits 10 n) ∧ decimal (Nat.toDigits 10 n) = n :=
  ⟨numeral_toDigits n, by rw [← digitsVal_eq, digitsVal_toDigits]⟩

/-! ### string literals (C09) -/

/-- C09. A text in any spelling between quotes is read as that text. -/
theorem C09_spelled {s t : Str} (h : Spelled s t) : parse (s!' "print \"" ++ t ++ s!' "\";") = some [.print (.str s)] := by
  have hb : Blank [' '] := by
    intro c hc
    simp only [List.mem_cons, List.not_mem_nil, or_false] at hc
    exact .inl hc
  have h1 : primaryExpr expr ('"' :: (t ++ '"' :: s!' ";")) = some (.str s, s!' ";") := by
    have hc : constant ('"' :: (t ++ '"' :: s!' ";")) = none := rfl
    have hi : ident ('"' :: (t ++ '"' :: s!' ";")) = none := rfl
    simp only [primaryExpr, alt, hc, hi, string, map, stringLit_spelled h]
  have h2 := parse_print (s := '"' :: (t ++ ['"'])) (e := .str s) ?_
  · simpa using h2
  · have := expr_of_primary hb h1 rfl (noHead_cons.2 (by decide)) (closed_semi blank_nil)
    simpa using this

/-- the short spelling of every text -/
theorem spelled_quoted : ∀ s : Str, Spelled s (s.flatMap quotedChar)
  | [] => .nil
  | c :: s => by
    rw [List.flatMap_cons]
    refine .cons c s _ _ ?_ (spelled_quoted s)
    unfold quotedChar
    split
    · rename_i h; subst h; exact .escape '"' _ (by simp)
    split
    · rename_i h; subst h; exact .escape '\\' _ (by simp)
    split
    · rename_i h; subst h; exact .escape 'n' _ (by simp)
    split
    · rename_i h; subst h; exact .escape 'r' _ (by simp)
    split
    · rename_i h; subst h; exact .escape 't' _ (by simp)
    split
    · rename_i h
      have : c = Char.ofNat 8 := Char.toNat_inj.1 h
      subst this; exact .escape 'b' _ (by simp)
    split
    · rename_i h
      have : c = Char.ofNat 12 := Char.toNat_inj.1 h
      subst this; exact .escape 'f' _ (by simp)
    · rename_i h1 h2 _ _ _ _ _
      exact .raw c h1 h2

/-- C09. Escaping and quoting a text gives a literal that is read as exactly that text. -/
theorem C09_quoted (s : Str) : parse (s!' "print " ++ quoted s ++ s!' ";") = some [.print (.str s)] := by
  have := C09_spelled (spelled_quoted s)
  simpa [quoted] using this

/-- C09. Quoting is injective: different texts have different literals. -/
theorem C09_injective {s s' t : Str} (h : Spelled s t) (h' : Spelled s' t) : s = s' := by
  have e1 := C09_spelled h
  have e2 := C09_spelled h'
  rw [e1] at e2
  simpa using e2

/-! ### termination and consumption (C10) -/

/-- C10. Every rule that the grammar repeats takes at least one character each time it succeeds. -/
theorem C10_repeated_rules_consume :
    Consumes (isA isSpaceChar) ∧ Consumes (alt (isA (fun c => !(c == '\\' || c == '"'))) escapeSequence) ∧
    Consumes utf16Char ∧ Consumes (alt charString utf16String) ∧ Consumes (isA isDigitChar) ∧
    Consumes (isA isIdentChar) ∧ Consumes (seqR space (postfixOp expr)) ∧
    Consumes (seqR (seqR space (sym ',')) expr) ∧ Consumes (seqL prefixOp space) ∧
    (∀ k, k ≤ 12 → Consumes (seq (seqL (seqR space (opsAt k)) space) (lv (k - 1)))) ∧
    Consumes (stmt stmts) ∧ Consumes (seqR space (sym ';')) :=
  ⟨isA_eats _, stringChar_eats, utf16Char_eats, stringPart_eats, isA_eats _, isA_eats _,
    postfixItem_eats expr_eats.reads, seqR_eats_r (seqR_reads space_reads (sym_eats _).reads) expr_eats,
    prefixItem_eats, fun k _ => seq_eats_r (seqL_reads (seqR_reads space_reads (opsAt_reads k)) space_reads) (lv_eats _),
    stmt_eats stmts_reads, seqR_eats_r space_reads (sym_eats _)⟩

/-- C10. A rule that consumes cannot be repeated for ever. -/
theorem C10_no_endless_loop {α : Type} {p : P α} (h : Consumes p) (s : Str) : ¬ LoopsForever p s := by
  rintro ⟨f, rfl, hf⟩
  have hlt : ∀ i, (f (i + 1)).length < (f i).length := fun i => by
    obtain ⟨a, ha⟩ := hf i
    exact Eats.lt h ha
  have hle : ∀ i, (f i).length + i ≤ (f 0).length := by
    intro i
    induction i with
    | zero => omega
    | succ i ih => have := hlt i; omega
  have := hle ((f 0).length + 1)
  omega

/-- C10. The bounded repetition of the model is the unbounded one of the code, for every rule that
consumes. -/
theorem C10_repetition {α : Type} {p : P α} (h : Consumes p) (s : Str) (as : List α) (s' : Str) :
    many p s = some (as, s') ↔ Repeats p s as s' := by
  constructor
  · intro hm
    have key : ∀ (n : Nat) (s : Str) (as : List α), s.length < n → many p s = some (as, s') → Repeats p s as s' := by
      intro n
      induction n with
      | zero => intro s as hn; omega
      | succ n ih =>
        intro s as hn hm
        cases hp : p s with
        | none =>
          rw [many_none hp] at hm
          simp only [Option.some.injEq, Prod.mk.injEq] at hm
          obtain ⟨rfl, rfl⟩ := hm
          exact .stop _ hp
        | some r =>
          obtain ⟨a, s1⟩ := r
          have hlt := Eats.lt h hp
          rw [many_some h hp] at hm
          cases hm2 : many p s1 with
          | none => rw [hm2] at hm; simp at hm
          | some r2 =>
            obtain ⟨as2, s2⟩ := r2
            rw [hm2] at hm
            simp only [Option.some.injEq, Prod.mk.injEq] at hm
            obtain ⟨rfl, rfl⟩ := hm
            exact .step _ _ _ _ _ hp (ih s1 as2 (by omega) hm2)
    exact key (s.length + 1) s as (by omega) hm
  · intro hr
    induction hr with
    | stop s hp => exact many_none hp
    | step s s1 s2 a as hp _ ih => rw [many_some h hp, ih]

/-- C10. The rule for expressions is the only one that consumes no more than its input and calls itself
for nested expressions as the grammar does: the bound on the nesting in the model changes nothing. -/
theorem C10_expression_rule (q : P Expr) (hr : Reads q) (hq : ∀ s, q s = seqR space (orExpr q) s) (s : Str) : q s = expr s := by
  have key : ∀ k, AgreeTo k q expr := by
    intro k
    induction k with
    | zero =>
      intro s hs
      have hnil : s = [] := List.length_eq_zero_iff.1 (by omega)
      subst hnil
      have h2 : ∀ sub, seqR space (orExpr sub) [] = orExpr sub [] := fun _ => rfl
      rw [hq, h2, or_empty, expr_empty]
    | succ k ih =>
      intro s hs
      rw [hq, expr_unfold]
      exact agree_seqR space_reads (AgreeTo.refl _ _) (agree_or hr ih) s hs
  exact key s.length s (Nat.le_refl _)

/-- C10. The same for programs and nested blocks. -/
theorem C10_program_rule (q : P (List Stmt)) (hr : Reads q) (hq : ∀ s, q s = many (stmt q) s) (s : Str) : q s = stmts s := by
  have key : ∀ k, AgreeTo k q stmts := by
    intro k
    induction k with
    | zero =>
      intro s hs
      have hnil : s = [] := List.length_eq_zero_iff.1 (by omega)
      subst hnil
      rw [hq, stmts_unfold, many_none (stmt_empty _), many_none (stmt_empty _)]
    | succ k ih =>
      intro s hs
      rw [hq, stmts_unfold]
      exact agree_many (stmt_eats hr).reads (agree_stmt hr ih) s hs
  exact key s.length s (Nat.le_refl _)

theorem expr_is_rule : Reads expr ∧ ∀ s, expr s = seqR space (orExpr expr) s := ⟨expr_eats.reads, expr_unfold⟩
theorem stmts_is_rule : Reads stmts ∧ ∀ s, stmts s = many (stmt stmts) s := ⟨stmts_reads, stmts_unfold⟩

theorem space_inv {s s' : Str} {u : Unit} (h : space s = some (u, s')) : ∃ w, Blank w ∧ s = w ++ s' := by
  obtain ⟨ws, h1, _⟩ := map_some h
  have hr := (C10_repetition (isA_eats isSpaceChar) s ws s').1 h1
  clear h h1
  induction hr with
  | stop s _ => exact ⟨[], blank_nil, rfl⟩
  | step s s1 s2 a as hp _ ih =>
    obtain ⟨w, hw, rfl⟩ := ih
    cases s with
    | nil => simp [isA] at hp
    | cons c cs =>
      simp only [isA] at hp
      split at hp
      · rename_i hc
        simp only [Option.some.injEq, Prod.mk.injEq] at hp
        obtain ⟨rfl, rfl⟩ := hp
        refine ⟨c :: w, ?_, rfl⟩
        intro d hd
        rcases List.mem_cons.1 hd with rfl | hd
        · exact (isSpaceChar_iff _).1 hc
        · exact hw d hd
      · simp at hp

/-- C10. An accepted program has been read to its last character: the statements take a prefix of the
text one after the other, and only blanks follow. -/
theorem C10_consumed {s : Str} {p : List Stmt} (h : parse s = some p) :
    ∃ w, Blank w ∧ Repeats (stmt stmts) s p w := by
  simp only [parse] at h
  split at h
  · rename_i p' r heq
    simp only [Option.some.injEq] at h
    subst h
    obtain ⟨_, s1, h1, h2⟩ := seqL_some heq
    obtain ⟨_, s2, h3, h4⟩ := seqL_some h1
    rw [stmts_unfold] at h3
    obtain ⟨w, hw, rfl⟩ := space_inv h4
    have he : s1 = [] := by
      cases s1 with
      | nil => rfl
      | cons c cs => simp [eof] at h2
    subst he
    rw [List.append_nil] at h3
    exact ⟨w, hw, (C10_repetition (stmt_eats stmts_reads) _ _ _).1 h3⟩
  · simp at h

/-! ### identifiers (C11) -/

/-- the words of the language -/
def keywords : List Str := [s!' "true", s!' "false", s!' "if", s!' "else", s!' "while", s!' "for", s!' "in", s!' "break",
  s!' "continue", s!' "print", s!' "help", s!' "quit", s!' "filesystem", s!' "struct"]

set_option maxRecDepth 100000 in
/-- C11 as stated is false: `breakfast` is an identifier and no keyword, but it cannot be assigned to. -/
theorem C11_false_assign : ¬ ∀ x, Name x → x ∉ keywords → parse (x ++ s!' " = 1;") = some [.assign (.ident x) (.int 1)] := by
  intro h
  have hn : Name s!' "breakfast" := by
    refine ⟨'b', s!' "reakfast", rfl, by unfold Letter; decide, ?_⟩
    intro d hd
    simp only [List.mem_cons, List.not_mem_nil, or_false] at hd
    rcases hd with rfl | rfl | rfl | rfl | rfl | rfl | rfl | rfl <;> unfold WordChar Letter <;> decide
  have h1 := h _ hn (by decide)
  have h2 : parse (s!' "breakfast" ++ s!' " = 1;") = none := rfl
  rw [h2] at h1
  simp at h1

set_option maxRecDepth 100000 in
/-- C11 as stated is false of references too: `truely` is an identifier and no keyword, but cannot be
printed. -/
theorem C11_false_reference : ¬ ∀ x, Name x → x ∉ keywords → parse (s!' "print " ++ x ++ s!' ";") = some [.print (.ident x)] := by
  intro h
  have hn : Name s!' "truely" := by
    refine ⟨'t', s!' "ruely", rfl, by unfold Letter; decide, ?_⟩
    intro d hd
    simp only [List.mem_cons, List.not_mem_nil, or_false] at hd
    rcases hd with rfl | rfl | rfl | rfl | rfl <;> unfold WordChar Letter <;> decide
  have h1 := h _ hn (by decide)
  have h2 : parse (s!' "print " ++ s!' "truely" ++ s!' ";") = none := rfl
  rw [h2] at h1
  simp at h1

set_option maxRecDepth 100000 in
/-- C11. A statement that begins with an identifier that begins with `print` prints the rest of it. -/
theorem C11_misread_print : parse s!' "printer;" = some [.print (.ident s!' "er")] := rfl

set_option maxRecDepth 100000 in
/-- C11. An identifier that begins with `struct`, alone in parentheses, is read as a cast. -/
theorem C11_misread_cast : parse s!' "print (structure) x;" = some [.print (.cast (.ident s!' "ure") (.ident s!' "x"))] := rfl

/-- C11, the part that holds: an identifier that does not begin with `true`, `false`, `print`, `help`,
`quit`, `break` or `continue` can be assigned to, in any spacing. Missing: the identifiers that begin with
one of these words, for which the claim is false. -/
theorem C11_assign_partial {x : Str} {e : Expr} (hx : Name x) (h1 : ¬ s!' "true" <+: x) (h2 : ¬ s!' "false" <+: x)
    (h3 : ¬ StartsReserved x) (he : Ladder e) {text w w₂ : Str}
    (hs : Spaced (x :: s!' "=" :: (tokens e ++ [s!' ";"])) text) (hw : Blank w) (hw₂ : Blank w₂) :
    parse (w ++ text ++ w₂) = some [.assign (.ident x) e] := by
  have hl : Ladder (.ident x) := by simp only [Ladder]; exact ⟨hx, h1, h2⟩
  have hp : PlainStart (.ident x) := by
    intro t ts ht
    rw [tokens] at ht
    simp only [List.cons.injEq] at ht
    rw [← ht.1]; exact h3
  have := ProgText.cons _ _ _ _ (StmtText.assign (.ident x) e hl he hp) .nil
  refine C06_round_trip this ?_ hw hw₂
  rw [tokens, List.append_nil]
  exact hs

/-- C11, the part that holds: an identifier that does not begin with `true` or `false` can be printed. -/
theorem C11_reference_partial {x : Str} (hx : Name x) (h1 : ¬ s!' "true" <+: x) (h2 : ¬ s!' "false" <+: x) :
    parse (s!' "print " ++ x ++ s!' ";") = some [.print (.ident x)] := by
  have hl : Ladder (.ident x) := by simp only [Ladder]; exact ⟨hx, h1, h2⟩
  have := C05_round_trip hl
  rwa [tokens] at this

/-! ### compound assignment (C12) -/

/-- C12. `l += e` is read as the assignment of the sum of `l` and `e`, whatever operators `e` contains. -/
theorem C12_plus {l e : Expr} (hl : Ladder l) (he : Ladder e) (hp : PlainStart l) {text w w₂ : Str}
    (hs : Spaced (tokens l ++ s!' "+=" :: (tokens e ++ [s!' ";"])) text) (hw : Blank w) (hw₂ : Blank w₂) :
    parse (w ++ text ++ w₂) = some [.assign l (.bin .plus l e)] := by
  have := ProgText.cons _ _ _ _ (StmtText.plusEq l e hl he hp) .nil
  exact C06_round_trip this (by rw [List.append_nil]; exact hs) hw hw₂

/-- C12. `l -= e` is read as the assignment of the difference of `l` and `e`, whatever operators `e`
contains. -/
theorem C12_minus {l e : Expr} (hl : Ladder l) (he : Ladder e) (hp : PlainStart l) {text w w₂ : Str}
    (hs : Spaced (tokens l ++ s!' "-=" :: (tokens e ++ [s!' ";"])) text) (hw : Blank w) (hw₂ : Blank w₂) :
    parse (w ++ text ++ w₂) = some [.assign l (.bin .minus l e)] := by
  have := ProgText.cons _ _ _ _ (StmtText.minusEq l e hl he hp) .nil
  exact C06_round_trip this (by rw [List.append_nil]; exact hs) hw hw₂

theorem assign_paren_eval (cfg : Cfg) (op : BinOp) (l e : Expr) (st : State) :
    evalProgram cfg [.assign l (.bin op l (.paren e))] st = evalProgram cfg [.assign l (.bin op l e)] st := by
  have h : ∀ st, evalExpr cfg st (.paren e) = evalExpr cfg st e := fun st => by rw [evalExpr]
  have h2 : ∀ st, evalExpr cfg st (.bin op l (.paren e)) = evalExpr cfg st (.bin op l e) := fun st => by
    cases op <;> simp only [evalExpr, h]
  cases l <;> simp only [evalProgram, evalStmts, evalStmt, evalAssign, h2]

/-- C12. Running `l += e` (or `l -= e`) is running `l = l + (e)` (or `l = l - (e)`): same state, same
output, same result, in every session. -/
theorem C12_runs_alike {l e : Expr} (hl : Ladder l) (he : Ladder e) (hp : PlainStart l) (hlev : level l ≤ 1)
    (hc : ∀ c cs, e = .ident (s!' "struct" ++ c :: cs) → ¬ Letter c) {text text' : Str} (op : BinOp)
    (hop : op = .plus ∨ op = .minus)
    (hs : Spaced (tokens l ++ (opText op ++ ['=']) :: (tokens e ++ [s!' ";"])) text)
    (hs' : Spaced (tokens l ++ s!' "=" :: (tokens l ++ opText op :: ['('] :: (tokens e ++ [s!' ")", s!' ";"]))) text')
    (cfg : Cfg) (rs : RState) : runtimeEval cfg rs text = runtimeEval cfg rs text' := by
  have h1 : parse text = some [.assign l (.bin op l e)] := by
    rcases hop with rfl | rfl
    · have := C12_plus hl he hp hs blank_nil blank_nil
      simpa using this
    · have := C12_minus hl he hp hs blank_nil blank_nil
      simpa using this
  have hlad : Ladder (.bin op l (.paren e)) := by
    simp only [Ladder]
    refine ⟨?_, ?_, hl, he, hc⟩
    · rcases hop with rfl | rfl <;> simp [leftLevel, opLevel] <;> omega
    · rcases hop with rfl | rfl <;> simp [level, opLevel]
  have h2 : parse text' = some [.assign l (.bin op l (.paren e))] := by
    have := ProgText.cons _ _ _ _ (StmtText.assign l (.bin op l (.paren e)) hl hlad hp) .nil
    have h3 := C06_round_trip (text := text') this (by
      simp only [tokens, List.append_nil, List.cons_append, List.append_assoc, List.nil_append] at hs' ⊢
      exact hs') blank_nil blank_nil
    simpa using h3
  have ha : ∀ vs, analyzeExpr vs (.bin op l (.paren e)) = analyzeExpr vs (.bin op l e) := fun vs => by
    simp only [analyzeExpr]
  have hb : ∀ sem, analyzeStmts [.assign l (.bin op l (.paren e))] sem = analyzeStmts [.assign l (.bin op l e)] sem := fun sem => by
    cases l <;> simp only [analyzeStmts, analyzeStmt, ha]
  simp only [runtimeEval, h1, h2, hb, assign_paren_eval]

/-! ### concrete cases -/

/-- a test for identifiers -/
theorem name_of {x : Str} (h : (match x with | [] => false | c :: cs => isIdentStart c && cs.all isIdentChar) = true) : Name x := by
  cases x with
  | nil => simp at h
  | cons c cs =>
    simp only [Bool.and_eq_true, List.all_eq_true] at h
    exact ⟨c, cs, rfl, (isIdentStart_iff c).1 h.1, fun d hd => (isIdentChar_iff d).1 (h.2 d hd)⟩

/-- `-a * (b + 3) < f(x.y[0], "q\n") << 2 && !(struct s) z` -/
def sampleExpr : Expr :=
  .bin .land
    (.bin .lt
      (.bin .mul (.un .minus (.ident s!' "a")) (.paren (.bin .plus (.ident s!' "b") (.int 3))))
      (.bin .shl (.call (.ident s!' "f") [.index (.field (.ident s!' "x") (.ident s!' "y")) (.int 0), .str s!' "q\n"]) (.int 2)))
    (.un .not (.cast (.ident s!' "s") (.ident s!' "z")))

theorem sampleExpr_ladder : Ladder sampleExpr := by
  simp only [sampleExpr, Ladder, LadderArgs, level, leftLevel, opLevel]
  have ha : Name s!' "a" := name_of (by decide)
  have hb : Name s!' "b" := name_of (by decide)
  have hf : Name s!' "f" := name_of (by decide)
  have hx : Name s!' "x" := name_of (by decide)
  have hy : Name s!' "y" := name_of (by decide)
  have hs : Name s!' "s" := name_of (by decide)
  have hz : Name s!' "z" := name_of (by decide)
  simp [ha, hb, hf, hx, hy, hs, hz]

/-- the text of this expression is read as this tree -/
example : parse s!' "print - a * ( b + 3 ) < f ( x .y [ 0 ] , \"q\\n\" ) << 2 && ! ( struct s ) z;" = some [.print sampleExpr] :=
  C05_round_trip sampleExpr_ladder

/-- a program with nested blocks -/
def sampleProg : List Stmt :=
  [.assign (.ident s!' "n") (.int 10),
   .while (.bin .gt (.ident s!' "n") (.int 0))
     [.ite (.bin .eq (.bin .mod (.ident s!' "n") (.int 2)) (.int 0))
        [.for (.ident s!' "i") (.call (.ident s!' "f") [.ident s!' "n"]) [.print (.ident s!' "i"), .brk]]
        [.cont],
      .assign (.ident s!' "n") (.bin .minus (.ident s!' "n") (.int 1))],
   .filesystem (.str s!' "/mnt"),
   .quit]

theorem plain_ident {x : Str} (h : ∀ k ∈ [s!' "print", s!' "help", s!' "quit", s!' "break", s!' "continue"], ¬ k <+: x) :
    PlainStart (.ident x) := by
  intro t ts ht
  rw [tokens] at ht
  simp only [List.cons.injEq] at ht
  rw [← ht.1]
  rintro ⟨k, hk, hp⟩
  exact h k hk hp

theorem sampleProg_writable : WritableAll sampleProg := by
  have hn : Name s!' "n" := name_of (by decide)
  have hi : Name s!' "i" := name_of (by decide)
  have hf : Name s!' "f" := name_of (by decide)
  have hp : PlainStart (.ident s!' "n") := plain_ident (by decide)
  simp [sampleProg, WritableAll, Writable, Ladder, LadderArgs, level, leftLevel, opLevel, hn, hi, hf, hp]

example : parse (oneLine (progTokens sampleProg)) = some sampleProg := C06_print_parse _ sampleProg_writable

set_option maxRecDepth 100000 in
/-- another spacing of the same program, with an empty `else` left out and extra semicolons -/
example : parse s!' " n=10;;while n>0{if n%2==0{for i in f(n){print i;break;}}else{continue;}n-=1;};filesystem\"/mnt\";\n quit ; " =
    some sampleProg := rfl

/-- numerals on both sides of the limit -/
example : parse (s!' "print " ++ Nat.toDigits 10 (2 ^ 127 - 1) ++ s!' ";") = some [.print (.int (2 ^ 127 - 1))] := by
  have h := C08_numerals (2 ^ 127 - 1)
  rw [C08_literal _ h.1, h.2]; rfl
example : parse (s!' "print " ++ Nat.toDigits 10 (2 ^ 127) ++ s!' ";") = none := by
  have h := C08_numerals (2 ^ 127)
  rw [C08_literal _ h.1, h.2]; rfl

/-- a raw character, an escape, a unit and a pair of surrogates -/
example : parse s!' "print \"a\\n\\u00e9\\ud83d\\uDE00\";" = some [.print (.str ['a', '\n', 'é', '😀'])] := by
  refine C09_spelled (s := ['a', '\n', 'é', '😀']) (t := s!' "a\\n\\u00e9\\ud83d\\uDE00") ?_
  refine .cons 'a' _ ['a'] _ (.raw _ (by decide) (by decide)) ?_
  refine .cons '\n' _ ['\\', 'n'] _ (.escape 'n' _ (by simp)) ?_
  refine .cons 'é' _ s!' "\\u00e9" _ (.unit _ 0xe9 _ (by decide) ?_) ?_
  · exact ⟨0, 0, 14, 9, '0', '0', 'e', '9', by unfold HexDigit; decide, by unfold HexDigit; decide, by unfold HexDigit; decide,
      by unfold HexDigit; decide, by decide, rfl⟩
  refine .cons '😀' _ (s!' "\\ud83d" ++ s!' "\\uDE00") _ (.pair _ 0xd83d 0xde00 _ _ (by decide) ?_ ?_) .nil
  · exact ⟨13, 8, 3, 13, 'd', '8', '3', 'd', by unfold HexDigit; decide, by unfold HexDigit; decide, by unfold HexDigit; decide,
      by unfold HexDigit; decide, by decide, rfl⟩
  · exact ⟨13, 14, 0, 0, 'D', 'E', '0', '0', by unfold HexDigit; decide, by unfold HexDigit; decide, by unfold HexDigit; decide,
      by unfold HexDigit; decide, by decide, rfl⟩

/-- `x += 1 << 2` adds the shifted value, in any session -/
example (cfg : Cfg) (rs : RState) : runtimeEval cfg rs s!' "x += 1 << 2 ;" = runtimeEval cfg rs s!' "x = x + ( 1 << 2 ) ;" := by
  have hx : Ladder (.ident s!' "x") := by simp [Ladder, name_of (x := s!' "x") (by decide)]
  have he : Ladder (.bin .shl (.int 1) (.int 2)) := by simp [Ladder, level, leftLevel, opLevel]
  refine C12_runs_alike hx he (plain_ident (by decide)) (by simp [level]) (by simp) .plus (.inl rfl) ?_ ?_ cfg rs
  · exact spaced_oneLine _
  · exact spaced_oneLine _

end Btrd
