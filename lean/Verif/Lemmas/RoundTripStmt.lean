/-
Reading back the written form of statements and programs, with literals in any spelling.
-/
import Verif.Lemmas.Claims

namespace Btrd
open P Spec

theorem space_char {w : Str} (hw : Blank w) {c : Char} {r : Str} (h : isSpaceChar c = false) :
    space (w ++ c :: r) = some ((), c :: r) := space_blank hw (noHead_cons.2 h)

/-- a plain assignment -/
theorem assign_ok {l r : Expr} {s s1 s2 w : Str} (hw : Blank w) (h1 : expr s = some (l, w ++ '=' :: s1))
    (h2 : expr s1 = some (r, s2)) : assignStmt s = some (.assign l r, s2) := by
  have hn1 : ('=' : Char) ≠ '+' := by decide
  have hn2 : ('=' : Char) ≠ '-' := by decide
  simp only [assignStmt, alt, map, seq, seqL, h1, space_char hw (show isSpaceChar '=' = false by decide), tag_ne hn1,
    tag_ne hn2, sym_cons, h2]

theorem plusEq_ok {l r : Expr} {s s1 s2 w : Str} (hw : Blank w) (h1 : expr s = some (l, w ++ '+' :: '=' :: s1))
    (h2 : expr s1 = some (r, s2)) : assignStmt s = some (.assign l (.bin .plus l r), s2) := by
  have ht : tag s!' "+=" ('+' :: '=' :: s1) = some ((), s1) := tag_append ['+', '='] s1
  simp only [assignStmt, alt, map, seq, seqL, h1, space_char hw (show isSpaceChar '+' = false by decide), ht, h2]

theorem minusEq_ok {l r : Expr} {s s1 s2 w : Str} (hw : Blank w) (h1 : expr s = some (l, w ++ '-' :: '=' :: s1))
    (h2 : expr s1 = some (r, s2)) : assignStmt s = some (.assign l (.bin .minus l r), s2) := by
  have ht : tag s!' "-=" ('-' :: '=' :: s1) = some ((), s1) := tag_append ['-', '='] s1
  have hn : ('-' : Char) ≠ '+' := by decide
  simp only [assignStmt, alt, map, seq, seqL, h1, space_char hw (show isSpaceChar '-' = false by decide), tag_ne hn, ht, h2]

theorem assign_none {s s1 w : Str} {l : Expr} {c : Char} (hw : Blank w) (hsp : isSpaceChar c = false) (h1 : c ≠ '+')
    (h2 : c ≠ '-') (h3 : c ≠ '=') (h : expr s = some (l, w ++ c :: s1)) : assignStmt s = none := by
  simp only [assignStmt, alt, map, seq, seqL, h, space_char hw hsp, tag_ne h1, tag_ne h2, sym_ne h3]

/-- a statement ends at its semicolon -/
theorem semicolon_ok {s s1 w : Str} {st : Stmt} (hw : Blank w)
    (h : (alt builtinStmt <| alt jumpStmt <| alt assignStmt exprStmt) s = some (st, w ++ ';' :: s1)) :
    stmtSemicolon s = some (st, s1) := by
  simp only [stmtSemicolon, seqL, h, space_char hw (show isSpaceChar ';' = false by decide), sym_cons]

/-- no statement with a semicolon -/
theorem semicolon_none {s s1 : Str} {e : Expr} (h1 : builtinStmt s = none) (h2 : jumpStmt s = none)
    (h3 : expr s = some (e, s1)) (hn : NoEnd s1) : stmtSemicolon s = none := by
  obtain ⟨w, c, r, rfl, hw, hsp, n1, n2, n3, n4⟩ := hn
  have ha := assign_none hw hsp n3 n4 n2 h3
  have hx : exprStmt s = some (.expr e, w ++ c :: r) := by simp only [exprStmt, map, h3]
  simp only [stmtSemicolon, seqL, alt, h1, h2, ha, hx, space_char hw hsp, sym_ne n1]

/-! ### what follows a statement -/

/-- the `else` of a conditional and its opening brace -/
def elseP : P Char := seqR (seqR (seqR space (tag s!' "else")) space) (sym '{')

/-- an extra semicolon -/
def semiP : P Char := seqR space (sym ';')

theorem semiP_eats : Eats semiP := seqR_eats_r space_reads (sym_eats _)

/-- `else` and a brace do not follow, nor a semicolon -/
structure Follows (s : Str) : Prop where
  noElse : elseP s = none
  noSemi : semiP s = none

theorem follows_end {w e : Str} (hw : Blank w) (he : e = [] ∨ ∃ r, e = '}' :: r) : Follows (w ++ e) := by
  rcases he with rfl | ⟨r, rfl⟩
  · have h := space_blank hw (noHead_nil isSpaceChar)
    refine ⟨?_, ?_⟩
    · simp only [elseP, seqR, h]; rfl
    · simp only [semiP, seqR, h]; rfl
  · have h := space_char (r := r) hw (show isSpaceChar '}' = false by decide)
    have h1 : ('}' : Char) ≠ 'e' := by decide
    have h2 : ('}' : Char) ≠ ';' := by decide
    refine ⟨?_, ?_⟩
    · simp only [elseP, seqR, h, tag_ne h1]
    · simp only [semiP, seqR, h, sym_ne h2]

theorem semi_noElse {w r : Str} (hw : Blank w) : elseP (w ++ ';' :: r) = none := by
  have h1 : (';' : Char) ≠ 'e' := by decide
  simp only [elseP, seqR, space_char hw (show isSpaceChar ';' = false by decide), tag_ne h1]

/-- how the text of a statement begins -/
structure Begins (text : Str) : Prop where
  head : ∀ rest, NoHead isSpaceChar (text ++ rest)
  follows : ∀ w rest, Blank w → Follows (w ++ (text ++ rest))

theorem begins_char {c : Char} {cs : Str} (hsp : isSpaceChar c = false) (h1 : c ≠ 'e') (h2 : c ≠ ';') : Begins (c :: cs) := by
  refine ⟨fun rest => noHead_cons.2 hsp, fun w rest hw => ⟨?_, ?_⟩⟩
  · have := space_char (r := cs ++ rest) hw hsp
    simp only [elseP, seqR, List.cons_append, this, tag_ne h1]
  · have := space_char (r := cs ++ rest) hw hsp
    simp only [semiP, seqR, List.cons_append, this, sym_ne h2]

/-- a word that is not `else` followed by a brace -/
theorem begins_word {t w1 : Str} {c : Char} {cs : Str} (hn : Name t) (hw1 : Blank w1) (hi : isIdentChar c = false)
    (hsp : isSpaceChar c = false) (hb : c ≠ '{') : Begins (t ++ (w1 ++ c :: cs)) := by
  obtain ⟨d, ds, rfl, hd, hds⟩ := hn
  have hds' : ∀ x ∈ d :: ds, WordChar x := by
    intro x hx
    rcases List.mem_cons.1 hx with rfl | h
    · exact .inl hd
    · exact hds x h
  have hdsp := letter_not_space hd
  refine ⟨fun rest => noHead_cons.2 hdsp, fun w rest hw => ⟨?_, ?_⟩⟩
  · have hsp0 : space (w ++ (d :: ds ++ (w1 ++ c :: cs) ++ rest)) = some ((), d :: ds ++ (w1 ++ c :: (cs ++ rest))) := by
      have : w ++ (d :: ds ++ (w1 ++ c :: cs) ++ rest) = w ++ d :: (ds ++ (w1 ++ c :: (cs ++ rest))) := by simp
      rw [this, space_char hw hdsp]; rfl
    have hz : NoHead isIdentChar (w1 ++ c :: (cs ++ rest)) := blank_not_ident hw1 (fun _ => noHead_cons.2 hi)
    by_cases hp : s!' "else" <+: d :: ds
    · obtain ⟨y, hy⟩ := hp
      have hsh : d :: ds ++ (w1 ++ c :: (cs ++ rest)) = s!' "else" ++ (y ++ (w1 ++ c :: (cs ++ rest))) := by
        rw [← hy, List.append_assoc]
      simp only [elseP, seqR, hsp0, hsh, tag_append]
      cases y with
      | nil => rw [List.nil_append, space_char hw1 hsp]; exact sym_ne hb
      | cons x y =>
        have hx : WordChar x := hds' x (by rw [← hy]; simp)
        rw [List.cons_append, space_none (noHead_cons.2 (word_not_space hx))]
        refine sym_ne ?_
        rintro rfl
        have := (isIdentChar_iff '{').2 hx
        revert this; decide
    · have := tag_none_of (fun h => hp (prefix_word else_word hz h))
      simp only [elseP, seqR, hsp0, this]
  · have hne : d ≠ ';' := by rintro rfl; revert hd; unfold Letter; decide
    have : w ++ (d :: ds ++ (w1 ++ c :: cs) ++ rest) = w ++ d :: (ds ++ (w1 ++ c :: (cs ++ rest))) := by simp
    simp only [semiP, seqR, this, space_char hw hdsp, sym_ne hne]

/-- a statement that begins with an expression, followed by the token with this first character -/
theorem begins_expr {e : Expr} {us : List Str} (he : ExprText e us) {text : Str} (hs : Packed us text) {w r : Str}
    {c : Char} (hw : Blank w) (hi : isIdentChar c = false) (hsp : isSpaceChar c = false) (hb : c ≠ '{') :
    Begins (text ++ (w ++ c :: r)) := by
  obtain ⟨t, ts, rfl, hl⟩ := lead he
  rcases hl with ⟨rfl, hn, _⟩ | ⟨hn, c2, cs, ts', rfl, hc⟩ | ⟨c2, cs, rfl, hc, hst⟩
  · rw [packed_one hs]
    exact begins_word hn hw hi hsp hb
  · obtain ⟨w1, r1, rfl, hw1, hr1⟩ := packed_open (by simp) hs
    obtain ⟨more, rfl⟩ := packed_head hr1
    have hq2 : c2 ≠ '{' := by rintro rfl; simp [continues] at hc
    have := begins_word (cs := cs ++ (more ++ (w ++ c :: r))) hn hw1 (continues_not_ident hc) (continues_not_space hc) hq2
    simpa using this
  · obtain ⟨more, rfl⟩ := packed_head hs
    refine begins_char (starts_not_space hst) ?_ ?_
    · rintro rfl; exact hc (by unfold Letter; decide)
    · rintro rfl; simp [starts, isIdentChar, isIdentStart, isDigitChar] at hst

/-! ### one statement -/

/-- The text is read as the statement, and any extra semicolons in it are read after the statement. -/
def Reads1 (s : Stmt) (text : Str) : Prop := ∀ rest, elseP rest = none → ∃ us r1,
  alt stmtSemicolon (blockStmt stmts) (text ++ rest) = some (s, r1) ∧
  many semiP r1 = match many semiP rest with
    | some (vs, r) => some (us ++ vs, r)
    | none => none

/-- Whatever follows the text, a statement is read that goes at least as far. -/
def Far (text : Str) : Prop := ∀ rest, ∃ s r1 us r,
  alt stmtSemicolon (blockStmt stmts) (text ++ rest) = some (s, r1) ∧ many semiP r1 = some (us, r) ∧ r.length ≤ rest.length

theorem semis_short (r1 : Str) : ∃ us r, many semiP r1 = some (us, r) ∧ r.length ≤ r1.length := by
  obtain ⟨⟨us, r⟩, h⟩ := many_total semiP r1
  obtain ⟨t, rfl⟩ := many_reads semiP_eats.reads _ _ _ h
  exact ⟨us, r, h, by simp⟩

theorem reads1_semicolon {s : Stmt} {text : Str} (h : ∀ rest, stmtSemicolon (text ++ rest) = some (s, rest)) :
    Reads1 s text ∧ Far text := by
  constructor
  · intro rest _
    refine ⟨[], rest, by simp only [alt, h rest], ?_⟩
    obtain ⟨⟨vs, r⟩, hr⟩ := many_total semiP rest
    rw [hr]; rfl
  · intro rest
    obtain ⟨us, r, h1, h2⟩ := semis_short rest
    exact ⟨s, rest, us, r, by simp only [alt, h rest], h1, h2⟩

theorem reads1_if {s : Stmt} {text : Str} (h : ∀ rest, stmtSemicolon (text ++ rest) = none ∧
    ∃ s' r, blockStmt stmts (text ++ rest) = some (s', r) ∧ r.length ≤ rest.length ∧ (elseP rest = none → s' = s ∧ r = rest)) :
    Reads1 s text ∧ Far text := by
  constructor
  · intro rest hr
    obtain ⟨h1, s', r, h2, -, h3⟩ := h rest
    obtain ⟨rfl, rfl⟩ := h3 hr
    refine ⟨[], r, by simp only [alt, h1, h2], ?_⟩
    obtain ⟨⟨vs, r⟩, hr⟩ := many_total semiP r
    rw [hr]; rfl
  · intro rest
    obtain ⟨h1, s', r1, h2, h3, -⟩ := h rest
    obtain ⟨us, r, h4, h5⟩ := semis_short r1
    exact ⟨s', r1, us, r, by simp only [alt, h1, h2], h4, by omega⟩

theorem reads1_block {s : Stmt} {text : Str} (h : ∀ rest,
    stmtSemicolon (text ++ rest) = none ∧ blockStmt stmts (text ++ rest) = some (s, rest)) : Reads1 s text ∧ Far text :=
  reads1_if fun rest => ⟨(h rest).1, s, rest, (h rest).2, Nat.le_refl _, fun _ => ⟨rfl, rfl⟩⟩

theorem reads1_semi {s : Stmt} {text w : Str} (hw : Blank w) (h : Reads1 s text) :
    Reads1 s (text ++ (w ++ [';'])) ∧ Far (text ++ (w ++ [';'])) := by
  have key : ∀ rest, ∃ us r1, alt stmtSemicolon (blockStmt stmts) (text ++ (w ++ [';']) ++ rest) = some (s, r1) ∧
      many semiP r1 = match many semiP rest with
        | some (vs, r) => some (us ++ vs, r)
        | none => none := by
    intro rest
    have hsh : text ++ (w ++ [';']) ++ rest = text ++ (w ++ ';' :: rest) := by simp
    obtain ⟨us, r1, h1, h2⟩ := h (w ++ ';' :: rest) (semi_noElse hw)
    refine ⟨us ++ [';'], r1, by rw [hsh]; exact h1, ?_⟩
    have h3 : semiP (w ++ ';' :: rest) = some (';', rest) := by
      simp only [semiP, seqR, space_char hw (show isSpaceChar ';' = false by decide), sym_cons]
    rw [h2, many_some semiP_eats h3]
    obtain ⟨⟨vs, r⟩, hr⟩ := many_total semiP rest
    rw [hr]; simp
  refine ⟨fun rest _ => key rest, fun rest => ?_⟩
  obtain ⟨us, r1, h1, h2⟩ := key rest
  obtain ⟨vs, r, h3, h4⟩ := semis_short rest
  rw [h3] at h2
  exact ⟨s, r1, us ++ vs, r, h1, h2, h4⟩

/-- a statement, with the blanks in front, up to something else -/
theorem stmt_ok {s : Stmt} {text w rest : Str} (h : Reads1 s text) (hb : Begins text) (hw : Blank w) (hr : Follows rest) :
    stmt stmts (w ++ (text ++ rest)) = some (s, rest) := by
  obtain ⟨us, r1, h1, h2⟩ := h rest hr.noElse
  rw [many_none hr.noSemi] at h2
  have h2' : many (seqR space (sym ';')) r1 = some (us ++ [], rest) := h2
  simp only [stmt, seqL, seqR, space_blank hw (hb.head rest), h1]
  simp only [h2']

theorem stmt_end {w e : Str} (hw : Blank w) (he : e = [] ∨ ∃ r, e = '}' :: r) : stmt stmts (w ++ e) = none := by
  rcases he with rfl | ⟨r, rfl⟩
  · have h := space_blank hw (noHead_nil isSpaceChar)
    have ha : assignStmt [] = none := by simp only [assignStmt, alt, map, seq, seqL, expr_empty]
    have hx : exprStmt [] = none := by simp only [exprStmt, map, expr_empty]
    have hb : builtinStmt [] = none := rfl
    have hj : jumpStmt [] = none := rfl
    have hs : stmtSemicolon [] = none := by simp only [stmtSemicolon, seqL, alt, ha, hx, hb, hj]
    have hk : blockStmt stmts [] = none := rfl
    simp only [stmt, seqL, seqR, h, alt, hs, hk]
  · have h := space_char (r := r) hw (show isSpaceChar '}' = false by decide)
    have he : expr ('}' :: r) = none := expr_fail (w := []) blank_nil (by decide) (by decide)
    have ha : assignStmt ('}' :: r) = none := by simp only [assignStmt, alt, map, seq, seqL, he]
    have hx : exprStmt ('}' :: r) = none := by simp only [exprStmt, map, he]
    obtain ⟨hb, hj⟩ := symbol_kw (c := '}') (r := r) (by unfold Letter; decide)
    have hs : stmtSemicolon ('}' :: r) = none := by simp only [stmtSemicolon, seqL, alt, ha, hx, hb, hj]
    have h1 : ('}' : Char) ≠ 'i' := by decide
    have h2 : ('}' : Char) ≠ 'w' := by decide
    have h3 : ('}' : Char) ≠ 'f' := by decide
    have hk : blockStmt stmts ('}' :: r) = none := by
      simp only [blockStmt, ifElseStmt, whileStmt, forStmt, alt, map, seq, seqL, seqR, tag_ne h1, tag_ne h2, tag_ne h3]
    simp only [stmt, seqL, seqR, h, alt, hs, hk]

/-- tokens around a possibly empty body -/
theorem packed_body {t t' : Str} {tt ts : List Str} {text : Str} (h : Packed (t :: (tt ++ t' :: ts)) text) :
    ∃ w body w2 tail, text = t ++ (w ++ (body ++ (w2 ++ tail))) ∧ Blank w ∧ Blank w2 ∧ Packed tt body ∧ Packed (t' :: ts) tail := by
  obtain ⟨w, r, rfl, hw, hr⟩ := packed_open (by simp) h
  cases tt with
  | nil => exact ⟨w, [], [], r, by simp, hw, blank_nil, .nil, hr⟩
  | cons u tt =>
    obtain ⟨ta, w2, tb, rfl, hta, htb, hw2⟩ := packed_append (by simp) hr
    exact ⟨w, ta, w2, tb, rfl, hw, hw2, hta, htb⟩

/-- a word with more letters and digits after it -/
theorem keyword_of {c : Char} {cs : Str} (hc : Letter c) (hcs : ∀ d ∈ cs, WordChar d) (ht : c ≠ 't')
    (hf : c = 'f' → ∃ r, cs = 'o' :: r) : KeyWord (c :: cs) := by
  intro z hz
  simp only [Ladder]
  refine ⟨⟨c, cs ++ z, rfl, hc, ?_⟩, ?_, ?_⟩
  · intro d hd
    rcases List.mem_append.1 hd with h | h
    · exact hcs d h
    · exact hz d h
  · rintro ⟨y, hy⟩
    simp at hy
    exact ht hy.1.symm
  · rintro ⟨y, hy⟩
    simp at hy
    obtain ⟨r, rfl⟩ := hf hy.1.symm
    simp at hy

theorem keyword_if : KeyWord s!' "if" :=
  keyword_of (by unfold Letter; decide) (by simp; unfold WordChar Letter; decide) (by decide) (by simp)

theorem keyword_while : KeyWord s!' "while" := by
  refine keyword_of (by unfold Letter; decide) ?_ (by decide) (by simp)
  intro d hd
  simp only [List.mem_cons, List.not_mem_nil, or_false] at hd
  rcases hd with rfl | rfl | rfl | rfl <;> unfold WordChar Letter <;> decide

theorem keyword_for : KeyWord s!' "for" := by
  refine keyword_of (by unfold Letter; decide) ?_ (by decide) (by simp)
  intro d hd
  simp only [List.mem_cons, List.not_mem_nil, or_false] at hd
  rcases hd with rfl | rfl <;> unfold WordChar Letter <;> decide

theorem name_in : Name s!' "in" := ⟨'i', ['n'], rfl, by unfold Letter; decide, by simp; unfold WordChar Letter; decide⟩

/-- `if` and `while` are not read as statements with a semicolon -/
theorem block_noSemi {kw : Str} (hkw : KeyWord kw) {c : Expr} {us : List Str} (hc : Written c us) {tc : Str}
    (htc : Packed (kw :: us) tc) {w r : Str} (hw : Blank w)
    (h1 : builtinStmt (tc ++ (w ++ '{' :: r)) = none) (h2 : jumpStmt (tc ++ (w ++ '{' :: r)) = none) :
    stmtSemicolon (tc ++ (w ++ '{' :: r)) = none := by
  obtain ⟨e', s', h3, h4⟩ := keyword_expr hkw hc.1 hc.2 htc (r := r) hw
  exact semicolon_none h1 h2 h3 h4

/-- a block: a body between braces -/
theorem braces_ok {body w w2 r : Str} {p : List Stmt} (hw2 : ∃ w', Blank w' ∧ stmts (w ++ (body ++ (w2 ++ '}' :: r))) = some (p, w' ++ '}' :: r)) :
    ∃ w', space (w' ++ '}' :: r) = some ((), '}' :: r) ∧ stmts (w ++ (body ++ (w2 ++ '}' :: r))) = some (p, w' ++ '}' :: r) := by
  obtain ⟨w', h1, h2⟩ := hw2
  exact ⟨w', space_char h1 (by decide), h2⟩

/-- the text is read as the program, up to the end of the input or a closing brace -/
def ReadsAll (p : List Stmt) (body : Str) : Prop := ∀ w w2 e, Blank w → Blank w2 → (e = [] ∨ ∃ r, e = '}' :: r) →
  ∃ w', Blank w' ∧ stmts (w ++ (body ++ (w2 ++ e))) = some (p, w' ++ e)

theorem noElse_opt {sub : P (List Stmt)} {s : Str} (h : elseP s = none) :
    opt (seqL (seqL (seqR (seqR (seqR (seqR space (tag s!' "else")) space) (sym '{')) sub) space) (sym '}')) s = some (none, s) := by
  have h' : seqR (seqR (seqR space (tag s!' "else")) space) (sym '{') s = none := h
  have h2 : seqL (seqL (seqR (seqR (seqR (seqR space (tag s!' "else")) space) (sym '{')) sub) space) (sym '}') s = none := by
    have h3 : seqR (seqR (seqR (seqR space (tag s!' "else")) space) (sym '{')) sub s = none := by
      rw [seqR, h']
    have h4 : seqL (seqR (seqR (seqR (seqR space (tag s!' "else")) space) (sym '{')) sub) space s = none := by
      rw [seqL, h3]
    rw [seqL, h4]
  rw [opt, h2]

theorem else_short (s : Str) : ∃ f r,
    opt (seqL (seqL (seqR (seqR (seqR (seqR space (tag s!' "else")) space) (sym '{')) stmts) space) (sym '}')) s = some (f, r) ∧
      r.length ≤ s.length := by
  rw [opt]
  cases h : seqL (seqL (seqR (seqR (seqR (seqR space (tag s!' "else")) space) (sym '{')) stmts) space) (sym '}') s with
  | none => exact ⟨none, s, rfl, Nat.le_refl _⟩
  | some x =>
    obtain ⟨f, r⟩ := x
    have hrd : Reads (seqL (seqL (seqR (seqR (seqR (seqR space (tag s!' "else")) space) (sym '{')) stmts) space) (sym '}')) :=
      seqL_reads (seqL_reads (seqR_reads (seqR_reads (seqR_reads (seqR_reads space_reads (tag_reads _)) space_reads) (sym_eats _).reads)
        stmts_reads) space_reads) (sym_eats _).reads
    obtain ⟨t, rfl⟩ := hrd _ _ _ h
    exact ⟨some f, r, rfl, by simp⟩

theorem closed_brace {w r : Str} (hw : Blank w) : Closed (w ++ '{' :: r) :=
  closed_char hw (by decide) (by decide) (by decide)

theorem closed_semi {w r : Str} (hw : Blank w) : Closed (w ++ ';' :: r) :=
  closed_char hw (by decide) (by decide) (by decide)

/-- the condition and the body of a block -/
theorem head_ok {kw : Str} {c : Expr} {us : List Str} (hc : Written c us) {tc body w1 w2 w3 w4 r : Str} {p : List Stmt}
    (hs : Packed us tc)
    (hw1 : Blank w1) (hw2 : Blank w2) (hw3 : Blank w3) (hw4 : Blank w4) (hb : ReadsAll p body) :
    seqL (seqL (seq (seqL (seqL (seqR (tag kw) expr) space) (sym '{')) stmts) space) (sym '}')
      (kw ++ (w1 ++ (tc ++ (w2 ++ '{' :: (w3 ++ (body ++ (w4 ++ '}' :: r))))))) = some ((c, p), r) := by
  have h1 := (parses hc.1 hc.2 tc hs).expr hc.1 hs hw1 (closed_brace (r := w3 ++ (body ++ (w4 ++ '}' :: r))) hw2)
  obtain ⟨w', hb1, hb2⟩ := hb w3 w4 ('}' :: r) hw3 hw4 (.inr ⟨r, rfl⟩)
  simp only [seqL, seq, seqR, tag_append, h1, space_char hw2 (show isSpaceChar '{' = false by decide), sym_cons, hb2,
    space_char hb1 (show isSpaceChar '}' = false by decide)]

theorem stmtForm_ne {v : Str → Str → Prop} {u : List Str → Prop} {s : Stmt} {ts : List Str} (h : StmtFormV v u s ts) : ts ≠ [] := by
  cases h <;> simp

/-- the program is read, and what stands in front of it does not go on with `else {` or `;` -/
def ReadsProg (p : List Stmt) (body : Str) : Prop := ReadsAll p body ∧
  ∀ w w2 e, Blank w → Blank w2 → (e = [] ∨ ∃ r, e = '}' :: r) → Follows (w ++ (body ++ (w2 ++ e)))

mutual
theorem stmt_reads1 : ∀ {s ts}, StmtFormV Parted Free s ts → ∀ text, Packed ts text → (Reads1 s text ∧ Far text) ∧ Begins text
  | _, _, .assign l r ts us hl hr hf, text, hs => by
    obtain ⟨tl, w1, tb, rfl, htl, htb, hw1⟩ := packed_append (text_ne hl.1) hs
    obtain ⟨w2, r2, rfl, hw2, hr2⟩ := packed_open (by simp) htb
    obtain ⟨tr, w3, tc, rfl, htr, htc, hw3⟩ := packed_append (text_ne hr.1) hr2
    have hk := fun rest => (expr_claims hl.1 hl.2 (.dead '=' [] _ (by decide) (by decide)) hs rest).2 hf
    rw [packed_one htc] at hk ⊢
    refine ⟨reads1_semicolon fun rest => ?_, begins_expr hl.1 htl hw1 (by decide) (by decide) (by decide)⟩
    have hsh : tl ++ (w1 ++ (['='] ++ (w2 ++ (tr ++ (w3 ++ [';']))))) ++ rest =
        tl ++ (w1 ++ '=' :: (w2 ++ (tr ++ (w3 ++ ';' :: rest)))) := by simp
    rw [hsh]
    obtain ⟨k1, k2⟩ := hk rest
    rw [hsh] at k1 k2
    have e1 := (parses hl.1 hl.2 tl htl).expr0 hl.1 htl (closed_assign hw1 (text_opens hr.1 htr hw2 (w3 ++ ';' :: rest)))
    have e2 := (parses hr.1 hr.2 tr htr).expr hr.1 htr hw2 (closed_semi (r := rest) hw3)
    refine semicolon_ok hw3 ?_
    simp only [alt, k1, k2, assign_ok hw1 e1 e2]
  | _, _, .plusEq l r ts us hl hr hf, text, hs => by
    obtain ⟨tl, w1, tb, rfl, htl, htb, hw1⟩ := packed_append (text_ne hl.1) hs
    obtain ⟨w2, r2, rfl, hw2, hr2⟩ := packed_open (by simp) htb
    obtain ⟨tr, w3, tc, rfl, htr, htc, hw3⟩ := packed_append (text_ne hr.1) hr2
    have hk := fun rest => (expr_claims hl.1 hl.2 (.dead '+' ['='] _ (by decide) (by decide)) hs rest).2 hf
    rw [packed_one htc] at hk ⊢
    refine ⟨reads1_semicolon fun rest => ?_, begins_expr hl.1 htl hw1 (by decide) (by decide) (by decide)⟩
    have hsh : tl ++ (w1 ++ (['+', '='] ++ (w2 ++ (tr ++ (w3 ++ [';']))))) ++ rest =
        tl ++ (w1 ++ '+' :: '=' :: (w2 ++ (tr ++ (w3 ++ ';' :: rest)))) := by simp
    rw [hsh]
    obtain ⟨k1, k2⟩ := hk rest
    rw [hsh] at k1 k2
    have e1 := (parses hl.1 hl.2 tl htl).expr0 hl.1 htl (closed_compound (tail := w2 ++ (tr ++ (w3 ++ ';' :: rest))) hw1 (.inl rfl))
    have e2 := (parses hr.1 hr.2 tr htr).expr hr.1 htr hw2 (closed_semi (r := rest) hw3)
    refine semicolon_ok hw3 ?_
    simp only [alt, k1, k2, plusEq_ok hw1 e1 e2]
  | _, _, .minusEq l r ts us hl hr hf, text, hs => by
    obtain ⟨tl, w1, tb, rfl, htl, htb, hw1⟩ := packed_append (text_ne hl.1) hs
    obtain ⟨w2, r2, rfl, hw2, hr2⟩ := packed_open (by simp) htb
    obtain ⟨tr, w3, tc, rfl, htr, htc, hw3⟩ := packed_append (text_ne hr.1) hr2
    have hk := fun rest => (expr_claims hl.1 hl.2 (.minusEq _) hs rest).2 hf
    rw [packed_one htc] at hk ⊢
    refine ⟨reads1_semicolon fun rest => ?_, begins_expr hl.1 htl hw1 (by decide) (by decide) (by decide)⟩
    have hsh : tl ++ (w1 ++ (['-', '='] ++ (w2 ++ (tr ++ (w3 ++ [';']))))) ++ rest =
        tl ++ (w1 ++ '-' :: '=' :: (w2 ++ (tr ++ (w3 ++ ';' :: rest)))) := by simp
    rw [hsh]
    obtain ⟨k1, k2⟩ := hk rest
    rw [hsh] at k1 k2
    have e1 := (parses hl.1 hl.2 tl htl).expr0 hl.1 htl (closed_compound (tail := w2 ++ (tr ++ (w3 ++ ';' :: rest))) hw1 (.inr rfl))
    have e2 := (parses hr.1 hr.2 tr htr).expr hr.1 htr hw2 (closed_semi (r := rest) hw3)
    refine semicolon_ok hw3 ?_
    simp only [alt, k1, k2, minusEq_ok hw1 e1 e2]
  | _, _, .ite c t us tt hc ht, text, hs => by
    have hs' : Packed ((s!' "if" :: us) ++ s!' "{" :: (tt ++ [s!' "}"])) text := hs
    obtain ⟨tc0, w2, tb, rfl, htc0, htb, hw2⟩ := packed_append (by simp) hs'
    obtain ⟨w1, tc, rfl, hw1, htc⟩ := packed_open (text_ne hc.1) htc0
    obtain ⟨w3, body, w4, tail, rfl, hw3, hw4, hbody, htail⟩ := packed_body htb
    rw [packed_one htail]
    have hb := (prog_reads ht body hbody).1
    refine ⟨reads1_if fun rest => ?_, begins_char (by decide) (by decide) (by decide)⟩
    have hsh : s!' "if" ++ (w1 ++ tc) ++ (w2 ++ (['{'] ++ (w3 ++ (body ++ (w4 ++ ['}']))))) ++ rest =
        s!' "if" ++ (w1 ++ (tc ++ (w2 ++ '{' :: (w3 ++ (body ++ (w4 ++ '}' :: rest)))))) := by simp
    have hsh2 : s!' "if" ++ (w1 ++ tc) ++ (w2 ++ (['{'] ++ (w3 ++ (body ++ (w4 ++ ['}']))))) ++ rest =
        s!' "if" ++ (w1 ++ tc) ++ (w2 ++ '{' :: (w3 ++ (body ++ (w4 ++ '}' :: rest)))) := by simp
    refine ⟨?_, ?_⟩
    · rw [hsh2]; exact block_noSemi keyword_if hc htc0 hw2 rfl rfl
    · rw [hsh]
      have h1 := head_ok (kw := s!' "if") (r := rest) hc htc hw1 hw2 hw3 hw4 hb
      obtain ⟨f, r, h2, hle⟩ := else_short rest
      have h3 : ifElseStmt stmts (s!' "if" ++ (w1 ++ (tc ++ (w2 ++ '{' :: (w3 ++ (body ++ (w4 ++ '}' :: rest))))))) =
          some (.ite c t (f.getD []), r) := by
        rw [ifElseStmt, map, seq, h1]
        simp only
        rw [h2]
      refine ⟨.ite c t (f.getD []), r, by simp only [blockStmt, alt, h3], hle, fun hel => ?_⟩
      rw [noElse_opt hel] at h2
      simp only [Option.some.injEq, Prod.mk.injEq] at h2
      rw [← h2.1, h2.2]
      exact ⟨rfl, rfl⟩
  | _, _, .iteElse c t f us tt ft hc ht hf, text, hs => by
    have hs' : Packed ((s!' "if" :: us) ++ s!' "{" :: (tt ++ s!' "}" :: s!' "else" :: s!' "{" :: (ft ++ [s!' "}"]))) text := hs
    obtain ⟨tc0, w2, tb, rfl, htc0, htb, hw2⟩ := packed_append (by simp) hs'
    obtain ⟨w1, tc, rfl, hw1, htc⟩ := packed_open (text_ne hc.1) htc0
    obtain ⟨w3, body, w4, tail, rfl, hw3, hw4, hbody, htail⟩ := packed_body htb
    obtain ⟨w5, tail2, rfl, hw5, htail2⟩ := packed_open (by simp) htail
    obtain ⟨w6, tail3, rfl, hw6, htail3⟩ := packed_open (by simp) htail2
    obtain ⟨w7, fbody, w8, tail4, rfl, hw7, hw8, hfbody, htail4⟩ := packed_body htail3
    rw [packed_one htail4]
    have hb := (prog_reads ht body hbody).1
    have hfb := (prog_reads hf fbody hfbody).1
    refine ⟨reads1_block fun rest => ?_, begins_char (by decide) (by decide) (by decide)⟩
    have hsh : s!' "if" ++ (w1 ++ tc) ++ (w2 ++ (['{'] ++ (w3 ++ (body ++ (w4 ++ (['}'] ++ (w5 ++ (s!' "else" ++ (w6 ++
          (['{'] ++ (w7 ++ (fbody ++ (w8 ++ ['}']))))))))))))) ++ rest =
        s!' "if" ++ (w1 ++ (tc ++ (w2 ++ '{' :: (w3 ++ (body ++ (w4 ++ '}' :: (w5 ++ (s!' "else" ++ (w6 ++ '{' ::
          (w7 ++ (fbody ++ (w8 ++ '}' :: rest)))))))))))) := by simp
    have hsh2 : s!' "if" ++ (w1 ++ tc) ++ (w2 ++ (['{'] ++ (w3 ++ (body ++ (w4 ++ (['}'] ++ (w5 ++ (s!' "else" ++ (w6 ++
          (['{'] ++ (w7 ++ (fbody ++ (w8 ++ ['}']))))))))))))) ++ rest =
        s!' "if" ++ (w1 ++ tc) ++ (w2 ++ '{' :: (w3 ++ (body ++ (w4 ++ '}' :: (w5 ++ (s!' "else" ++ (w6 ++ '{' ::
          (w7 ++ (fbody ++ (w8 ++ '}' :: rest)))))))))) := by simp
    refine ⟨?_, ?_⟩
    · rw [hsh2]; exact block_noSemi keyword_if hc htc0 hw2 rfl rfl
    · rw [hsh]
      have h1 := head_ok (kw := s!' "if") (r := w5 ++ (s!' "else" ++ (w6 ++ '{' :: (w7 ++ (fbody ++ (w8 ++ '}' :: rest))))))
        hc htc hw1 hw2 hw3 hw4 hb
      obtain ⟨w', hb1, hb2⟩ := hfb w7 w8 ('}' :: rest) hw7 hw8 (.inr ⟨rest, rfl⟩)
      have hes : ∀ s, NoHead isSpaceChar (s!' "else" ++ s) := fun s => noHead_cons.2 (by decide)
      have h2 : seqL (seqL (seqR (seqR (seqR (seqR space (tag s!' "else")) space) (sym '{')) stmts) space) (sym '}')
          (w5 ++ (s!' "else" ++ (w6 ++ '{' :: (w7 ++ (fbody ++ (w8 ++ '}' :: rest)))))) = some (f, rest) := by
        simp only [seqL, seqR, space_blank hw5 (hes _), tag_append, space_char hw6 (show isSpaceChar '{' = false by decide),
          sym_cons, hb2, space_char hb1 (show isSpaceChar '}' = false by decide)]
      have h3 : ifElseStmt stmts (s!' "if" ++ (w1 ++ (tc ++ (w2 ++ '{' :: (w3 ++ (body ++ (w4 ++ '}' :: (w5 ++ (s!' "else" ++ (w6 ++ '{' ::
          (w7 ++ (fbody ++ (w8 ++ '}' :: rest))))))))))))) = some (.ite c t f, rest) := by
        rw [ifElseStmt, map, seq, h1]
        simp only
        rw [opt, h2]; rfl
      simp only [blockStmt, alt, h3]
  | _, _, .while c b us bt hc hb, text, hs => by
    have hs' : Packed ((s!' "while" :: us) ++ s!' "{" :: (bt ++ [s!' "}"])) text := hs
    obtain ⟨tc0, w2, tb, rfl, htc0, htb, hw2⟩ := packed_append (by simp) hs'
    obtain ⟨w1, tc, rfl, hw1, htc⟩ := packed_open (text_ne hc.1) htc0
    obtain ⟨w3, body, w4, tail, rfl, hw3, hw4, hbody, htail⟩ := packed_body htb
    rw [packed_one htail]
    have hb := (prog_reads hb body hbody).1
    refine ⟨reads1_block fun rest => ?_, begins_char (by decide) (by decide) (by decide)⟩
    have hsh : s!' "while" ++ (w1 ++ tc) ++ (w2 ++ (['{'] ++ (w3 ++ (body ++ (w4 ++ ['}']))))) ++ rest =
        s!' "while" ++ (w1 ++ (tc ++ (w2 ++ '{' :: (w3 ++ (body ++ (w4 ++ '}' :: rest)))))) := by simp
    have hsh2 : s!' "while" ++ (w1 ++ tc) ++ (w2 ++ (['{'] ++ (w3 ++ (body ++ (w4 ++ ['}']))))) ++ rest =
        s!' "while" ++ (w1 ++ tc) ++ (w2 ++ '{' :: (w3 ++ (body ++ (w4 ++ '}' :: rest)))) := by simp
    refine ⟨?_, ?_⟩
    · rw [hsh2]; exact block_noSemi keyword_while hc htc0 hw2 rfl rfl
    · rw [hsh]
      have h1 := head_ok (kw := s!' "while") (r := rest) hc htc hw1 hw2 hw3 hw4 hb
      have h0 : ∀ s, ifElseStmt stmts (s!' "while" ++ s) = none := fun s => rfl
      have h3 : whileStmt stmts (s!' "while" ++ (w1 ++ (tc ++ (w2 ++ '{' :: (w3 ++ (body ++ (w4 ++ '}' :: rest))))))) =
          some (.while c b, rest) := by
        rw [whileStmt, map, h1]
      simp only [blockStmt, alt, h0, h3]
  | _, _, .for x _ r b us bt hx ⟨b0, hb0, e0⟩ hr hb, text, hs => by
    subst e0
    obtain ⟨w0, r0, rfl, hw0, hr0⟩ := packed_cons hs
    obtain ⟨w1', r1, rfl, hw1', hr1⟩ := packed_cons hr0
    obtain ⟨w2, r2, rfl, hw2, hr2⟩ := packed_open (by simp) hr1
    obtain ⟨tr, w3, tb, rfl, htr, htb, hw3⟩ := packed_append (text_ne hr.1) hr2
    obtain ⟨w4, body, w5, tail, rfl, hw4, hw5, hbody, htail⟩ := packed_body htb
    rw [packed_one htail]
    have hb := (prog_reads hb body hbody).1
    obtain ⟨w1, e1⟩ : ∃ w1, w1 = b0 :: w1' := ⟨_, rfl⟩
    have hw1 : Blank w1 := by rw [e1]; exact blank_append hb0 hw1'
    have hn1 : w1 ≠ [] := by simp [e1]
    refine ⟨reads1_block fun rest => ?_, begins_char (by decide) (by decide) (by decide)⟩
    have hsh : s!' "for" ++ (w0 ++ (x ++ [b0] ++ (w1' ++ (s!' "in" ++ (w2 ++ (tr ++ (w3 ++ (['{'] ++ (w4 ++ (body ++ (w5 ++ ['}'])))))))))))
          ++ rest =
        s!' "for" ++ (w0 ++ (x ++ (w1 ++ (s!' "in" ++ (w2 ++ (tr ++ (w3 ++ '{' :: (w4 ++ (body ++ (w5 ++ '}' :: rest))))))))))
          := by rw [e1]; simp
    rw [hsh]
    have hxs : ∀ s, NoHead isSpaceChar (x ++ s) := by
      intro s
      obtain ⟨c, cs, rfl, hc, _⟩ := hx
      exact noHead_cons.2 (letter_not_space hc)
    refine ⟨?_, ?_⟩
    · by_cases hn0 : w0 = []
      · subst hn0
        have hl := keyword_for x (name_chars hx).1
        have hone : ExprText (.ident (s!' "for" ++ x)) [s!' "for" ++ x] := .ident _ (by simp only [Ladder] at hl; exact hl.1)
        have h3 := (parses hone hl _ (.one _)).expr0 hone (.one _)
          (closed_word (c := 'i') (r := 'n' :: (w2 ++ (tr ++ (w3 ++ '{' :: (w4 ++ (body ++ (w5 ++ '}' :: rest))))))) hw1 hn1
            (by unfold Letter; decide))
        have hsh2 : s!' "for" ++ ([] ++ (x ++ (w1 ++ (s!' "in" ++ (w2 ++ (tr ++ (w3 ++ '{' :: (w4 ++ (body ++ (w5 ++ '}' :: rest)))))))))) =
            s!' "for" ++ x ++ (w1 ++ 'i' :: 'n' :: (w2 ++ (tr ++ (w3 ++ '{' :: (w4 ++ (body ++ (w5 ++ '}' :: rest))))))) := by simp
        rw [hsh2]
        exact semicolon_none rfl rfl h3 ⟨w1, 'i', _, rfl, hw1, by decide, by decide, by decide, by decide, by decide⟩
      · have hl : Ladder (.ident s!' "for") := by simpa using keyword_for [] (by simp)
        have hone : ExprText (.ident s!' "for") [s!' "for"] := .ident _ (by simp only [Ladder] at hl; exact hl.1)
        obtain ⟨c, cs, rfl, hc, _⟩ := hx
        have h3 := (parses hone hl _ (.one _)).expr0 hone (.one _)
          (closed_word (r := cs ++ (w1 ++ (s!' "in" ++ (w2 ++ (tr ++ (w3 ++ '{' :: (w4 ++ (body ++ (w5 ++ '}' :: rest))))))))) hw0 hn0 hc)
        refine semicolon_none rfl rfl h3 ⟨w0, c, _, rfl, hw0, letter_not_space hc, ?_, ?_, ?_, ?_⟩ <;>
          rintro rfl <;> revert hc <;> unfold Letter <;> decide
    · have h0 : ∀ s, ifElseStmt stmts (s!' "for" ++ s) = none := fun s => rfl
      have h0' : ∀ s, whileStmt stmts (s!' "for" ++ s) = none := fun s => rfl
      have hid := ident_name hx (blank_not_ident hw1 (fun h => absurd h hn1) :
        NoHead isIdentChar (w1 ++ (s!' "in" ++ (w2 ++ (tr ++ (w3 ++ '{' :: (w4 ++ (body ++ (w5 ++ '}' :: rest)))))))))
      have h1 := (parses hr.1 hr.2 tr htr).expr hr.1 htr hw2 (closed_brace (r := w4 ++ (body ++ (w5 ++ '}' :: rest))) hw3)
      obtain ⟨w', hb1, hb2⟩ := hb w4 w5 ('}' :: rest) hw4 hw5 (.inr ⟨rest, rfl⟩)
      have his : ∀ s, NoHead isSpaceChar (s!' "in" ++ s) := fun s => noHead_cons.2 (by decide)
      have h3 : forStmt stmts (s!' "for" ++ (w0 ++ (x ++ (w1 ++ (s!' "in" ++ (w2 ++ (tr ++ (w3 ++ '{' :: (w4 ++ (body ++ (w5 ++ '}' :: rest))))))))))) =
          some (.for (.ident x) r b, rest) := by
        simp only [forStmt, map, seqL, seq, seqR, tag_append, space_blank hw0 (hxs _), hid, space_blank hw1 (his _), h1,
          space_char hw3 (show isSpaceChar '{' = false by decide), sym_cons, hb2, space_char hb1 (show isSpaceChar '}' = false by decide)]
      simp only [blockStmt, alt, h0, h0', h3]
  | _, _, .brk, text, hs => by
    obtain ⟨w, r, rfl, hw, hr⟩ := packed_open (by simp) hs
    rw [packed_one hr]
    refine ⟨reads1_semicolon fun rest => ?_, begins_char (by decide) (by decide) (by decide)⟩
    have hsh : s!' "break" ++ (w ++ [';']) ++ rest = s!' "break" ++ (w ++ ';' :: rest) := by simp
    rw [hsh]
    refine semicolon_ok hw ?_
    have h0 : ∀ s, builtinStmt (s!' "break" ++ s) = none := fun s => rfl
    simp only [alt, h0, jumpStmt, map, tag_append]
  | _, _, .cont, text, hs => by
    obtain ⟨w, r, rfl, hw, hr⟩ := packed_open (by simp) hs
    rw [packed_one hr]
    refine ⟨reads1_semicolon fun rest => ?_, begins_char (by decide) (by decide) (by decide)⟩
    have hsh : s!' "continue" ++ (w ++ [';']) ++ rest = s!' "continue" ++ (w ++ ';' :: rest) := by simp
    rw [hsh]
    refine semicolon_ok hw ?_
    have h0 : ∀ s, builtinStmt (s!' "continue" ++ s) = none := fun s => rfl
    have h1 : ∀ s, tag s!' "break" (s!' "continue" ++ s) = none := fun s => rfl
    simp only [alt, h0, jumpStmt, map, h1, tag_append]
  | _, _, .help, text, hs => by
    obtain ⟨w, r, rfl, hw, hr⟩ := packed_open (by simp) hs
    rw [packed_one hr]
    refine ⟨reads1_semicolon fun rest => ?_, begins_char (by decide) (by decide) (by decide)⟩
    have hsh : s!' "help" ++ (w ++ [';']) ++ rest = s!' "help" ++ (w ++ ';' :: rest) := by simp
    rw [hsh]
    refine semicolon_ok hw ?_
    have h0 : ∀ s, tag s!' "filesystem" (s!' "help" ++ s) = none := fun s => rfl
    have h1 : ∀ s, tag s!' "print" (s!' "help" ++ s) = none := fun s => rfl
    simp only [alt, builtinStmt, map, seqR, h0, h1, tag_append]
  | _, _, .quit, text, hs => by
    obtain ⟨w, r, rfl, hw, hr⟩ := packed_open (by simp) hs
    rw [packed_one hr]
    refine ⟨reads1_semicolon fun rest => ?_, begins_char (by decide) (by decide) (by decide)⟩
    have hsh : s!' "quit" ++ (w ++ [';']) ++ rest = s!' "quit" ++ (w ++ ';' :: rest) := by simp
    rw [hsh]
    refine semicolon_ok hw ?_
    have h0 : ∀ s, tag s!' "filesystem" (s!' "quit" ++ s) = none := fun s => rfl
    have h1 : ∀ s, tag s!' "print" (s!' "quit" ++ s) = none := fun s => rfl
    have h2 : ∀ s, tag s!' "help" (s!' "quit" ++ s) = none := fun s => rfl
    simp only [alt, builtinStmt, map, seqR, h0, h1, h2, tag_append]
  | _, _, .filesystem x t hlit, text, hs => by
    obtain ⟨w, r, rfl, hw, hr⟩ := packed_open (by simp) hs
    obtain ⟨w2, r2, rfl, hw2, hr2⟩ := packed_open (by simp) hr
    rw [packed_one hr2]
    refine ⟨reads1_semicolon fun rest => ?_, begins_char (by decide) (by decide) (by decide)⟩
    have hsh : s!' "filesystem" ++ (w ++ (t ++ (w2 ++ [';']))) ++ rest =
      s!' "filesystem" ++ (w ++ (t ++ (w2 ++ ';' :: rest))) := by simp
    rw [hsh]
    refine semicolon_ok hw2 ?_
    have hq : ∀ s, NoHead isSpaceChar (t ++ s) := fun s => by
      obtain ⟨b, _, rfl⟩ := hlit
      exact noHead_cons.2 (by decide)
    have hstr : ∀ s, string (t ++ s) = some (.str x, s) := fun s => by simp only [string, map, stringLit_literal hlit s]
    simp only [alt, builtinStmt, map, seqR, tag_append, space_blank hw (hq _), hstr]
  | _, _, .print e us he, text, hs => by
    obtain ⟨w, r, rfl, hw, hr⟩ := packed_open (by simp) hs
    obtain ⟨te, w2, tb, rfl, hte, htb, hw2⟩ := packed_append (text_ne he.1) hr
    rw [packed_one htb]
    refine ⟨reads1_semicolon fun rest => ?_, begins_char (by decide) (by decide) (by decide)⟩
    have hsh : s!' "print" ++ (w ++ (te ++ (w2 ++ [';']))) ++ rest =
      s!' "print" ++ (w ++ (te ++ (w2 ++ ';' :: rest))) := by simp
    rw [hsh]
    refine semicolon_ok hw2 ?_
    have h0 : ∀ s, tag s!' "filesystem" (s!' "print" ++ s) = none := fun s => rfl
    have e1 := (parses he.1 he.2 te hte).expr he.1 hte hw (closed_semi (r := rest) hw2)
    simp only [alt, builtinStmt, map, seqR, h0, tag_append, e1]
  | _, _, .expr e us he hf, text, hs => by
    obtain ⟨te, w, tb, rfl, hte, htb, hw⟩ := packed_append (text_ne he.1) hs
    have hk := fun rest => (expr_claims he.1 he.2 (.dead ';' [] _ (by decide) (by decide)) hs rest).2 hf
    rw [packed_one htb] at hk ⊢
    refine ⟨reads1_semicolon fun rest => ?_, begins_expr he.1 hte hw (by decide) (by decide) (by decide)⟩
    have hsh : te ++ (w ++ [';']) ++ rest = te ++ (w ++ ';' :: rest) := by simp
    rw [hsh]
    obtain ⟨k1, k2⟩ := hk rest
    rw [hsh] at k1 k2
    have e1 := (parses he.1 he.2 te hte).expr0 he.1 hte (closed_semi (r := rest) hw)
    have e2 := assign_none hw (show isSpaceChar ';' = false by decide) (by decide) (by decide) (by decide) e1
    refine semicolon_ok hw ?_
    simp only [alt, k1, k2, e2, exprStmt, map, e1]
  | _, _, .semi s ts h, text, hs => by
    have hne : ts ≠ [] := by
      intro h0
      subst h0
      exact stmtForm_ne h rfl
    obtain ⟨ta, w, tb, rfl, hta, htb, hw⟩ := packed_append hne hs
    rw [packed_one htb]
    obtain ⟨h1, h2⟩ := stmt_reads1 h ta hta
    refine ⟨reads1_semi hw h1.1, ?_⟩
    refine ⟨fun rest => ?_, fun w' rest hw' => ?_⟩
    · rw [List.append_assoc]; exact h2.head _
    · rw [List.append_assoc]; exact h2.follows w' _ hw'
theorem prog_reads : ∀ {p ts}, ProgFormV Parted Free p ts → ∀ body, Packed ts body → ReadsProg p body
  | _, _, .nil, body, hs => by
    cases hs
    refine ⟨?_, ?_⟩
    · intro w w2 e hw hw2 he
      refine ⟨w ++ w2, blank_append hw hw2, ?_⟩
      rw [stmts_unfold, List.nil_append, ← List.append_assoc, many_none (stmt_end (blank_append hw hw2) he)]
    · intro w w2 e hw hw2 he
      rw [List.nil_append, ← List.append_assoc]
      exact follows_end (blank_append hw hw2) he
  | _, _, .cons s ss a b ha hb, body, hs => by
    have hne := stmtForm_ne ha
    have ihb := prog_reads hb
    have iha := stmt_reads1 ha
    have hsplit : ∃ ta w3 tb, body = ta ++ (w3 ++ tb) ∧ Packed a ta ∧ Packed b tb ∧ Blank w3 := by
      cases b with
      | nil =>
        rw [List.append_nil] at hs
        exact ⟨body, [], [], by simp, hs, .nil, blank_nil⟩
      | cons t' b =>
        obtain ⟨ta, w3, tb, h1, hta, htb, hw3⟩ := packed_append hne hs
        exact ⟨ta, w3, tb, h1, hta, htb, hw3⟩
    obtain ⟨ta, w3, tb, rfl, hta, htb, hw3⟩ := hsplit
    obtain ⟨h1, h2⟩ := iha ta hta
    obtain ⟨ih1, ih2⟩ := ihb tb htb
    refine ⟨?_, ?_⟩
    · intro w w2 e hw hw2 he
      obtain ⟨w', hw', h3⟩ := ih1 w3 w2 e hw3 hw2 he
      refine ⟨w', hw', ?_⟩
      have hsh : w ++ (ta ++ (w3 ++ tb) ++ (w2 ++ e)) = w ++ (ta ++ (w3 ++ (tb ++ (w2 ++ e)))) := by simp
      rw [stmts_unfold, hsh, many_some (stmt_eats stmts_reads) (stmt_ok h1.1 h2 hw (ih2 w3 w2 e hw3 hw2 he)), ← stmts_unfold, h3]
    · intro w w2 e hw hw2 he
      have hsh : w ++ (ta ++ (w3 ++ tb) ++ (w2 ++ e)) = w ++ (ta ++ (w3 ++ (tb ++ (w2 ++ e)))) := by simp
      rw [hsh]
      exact h2.follows w _ hw
end

end Btrd
