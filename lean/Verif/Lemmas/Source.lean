/-
Stripping comments from laid-out source (C80): one pass over the characters, and its effect on tokens and
gaps.
-/
import Verif.Spec.Source
import Verif.Props.Input
import Verif.Props.Parser

namespace Btrd
open P Spec

/-! ### one pass over the characters -/

/-- `strip_comments` as one pass: `q` says whether an odd number of quotes was seen on this line, `cm`
whether a comment has begun on it -/
def pass (q cm : Bool) : Str → Str
  | [] => []
  | c :: cs =>
    if c = '\n' then (if cs = [] then [] else ' ' :: pass false false cs)
    else if c = '\r' ∧ cs.head? = some '\n' then pass q cm cs
    else if cm then pass q cm cs
    else if c = '"' then c :: pass (!q) cm cs
    else if c = '#' ∧ q = false then pass q true cs
    else c :: pass q cm cs

/-- the rest of a line in the given mode -/
def stripFrom (q cm : Bool) (l : Str) : Str := if cm then [] else stripLine q l

/-- the lines that remain, the first one in the given mode -/
def stripLines (q cm : Bool) : List Str → List Str
  | [] => []
  | l :: ls => stripFrom q cm l :: ls.map (stripLine false)

theorem lines_nil_iff (s : Str) : lines s = [] ↔ s = [] := by
  induction s with
  | nil => simp [lines]
  | cons c cs ih =>
    simp only [lines, reduceCtorEq, iff_false]
    split
    · simp
    · split
      · rename_i h
        rw [ih]
        rintro rfl
        simp at h
      · cases lines cs <;> simp [lines.consHead]

theorem stripLines_false (ls : List Str) : stripLines false false ls = ls.map (stripLine false) := by
  cases ls <;> simp [stripLines, stripFrom]

theorem pass_lines (s : Str) : ∀ q cm, pass q cm s = List.intercalate [' '] (stripLines q cm (lines s)) := by
  induction s with
  | nil => intro q cm; simp [pass, lines, stripLines]
  | cons c cs ih =>
    intro q cm
    rw [pass, lines]
    by_cases hn : c = '\n'
    · rw [if_pos hn, if_pos hn]
      have he : stripFrom q cm [] = [] := by simp [stripFrom, stripLine]
      by_cases hc : cs = []
      · subst hc
        simp [stripLines, lines, he]
      · rw [if_neg hc, ih, stripLines_false]
        have hl : lines cs ≠ [] := fun h => hc ((lines_nil_iff cs).1 h)
        simp only [stripLines, he]
        cases hls : lines cs with
        | nil => exact absurd hls hl
        | cons l ls => simp
    · rw [if_neg hn, if_neg hn]
      by_cases hr : c = '\r' ∧ cs.head? = some '\n'
      · rw [if_pos hr, if_pos hr, ih]
      · rw [if_neg hr, if_neg hr]
        cases cm with
        | true =>
          simp only [if_true]
          rw [ih]
          cases hls : lines cs with
          | nil => simp [lines.consHead, stripLines, stripFrom]
          | cons l ls => simp [lines.consHead, stripLines, stripFrom]
        | false =>
          simp only [Bool.false_eq_true, if_false]
          by_cases hq : c = '"'
          · rw [if_pos hq, ih]
            cases hls : lines cs with
            | nil => simp [lines.consHead, stripLines, stripFrom, stripLine, hq]
            | cons l ls => cases ls <;> simp [lines.consHead, stripLines, stripFrom, stripLine, hq]
          · rw [if_neg hq]
            by_cases hh : c = '#' ∧ q = false
            · rw [if_pos hh, ih]
              cases hls : lines cs with
              | nil => simp [lines.consHead, stripLines, stripFrom, stripLine, hh]
              | cons l ls => simp [lines.consHead, stripLines, stripFrom, stripLine, hh]
            · rw [if_neg hh, ih]
              cases hls : lines cs with
              | nil => simp [lines.consHead, stripLines, stripFrom, stripLine, hq, hh]
              | cons l ls => cases ls <;> simp [lines.consHead, stripLines, stripFrom, stripLine, hq, hh]

theorem stripComments_pass (s : Str) : stripComments s = pass false false s := by
  rw [pass_lines, stripLines_false, stripComments_eq]

/-! ### tokens and gaps -/

/-- a quiet token passes unchanged -/
theorem pass_quiet {t : Str} : ∀ {q : Bool} (r : Str), '\n' ∉ t → t.getLast? ≠ some '\r' →
    (∀ i, ¬ (t[i]? = some '#' ∧ ((t.take i).count '"' + q.toNat) % 2 = 0)) → (t.count '"' + q.toNat) % 2 = 0 →
    pass q false (t ++ r) = t ++ pass false false r := by
  induction t with
  | nil =>
    intro q r _ _ _ h
    cases q
    · rfl
    · simp at h
  | cons c cs ih =>
    intro q r hn hr hc hq
    simp only [List.mem_cons, not_or] at hn
    have hr' : cs.getLast? ≠ some '\r' := by
      cases cs with
      | nil => simp
      | cons d ds => simpa [List.getLast?_cons_cons] using hr
    have hcr : ¬ (c = '\r' ∧ (cs ++ r).head? = some '\n') := by
      rintro ⟨rfl, hh⟩
      cases cs with
      | nil => simp at hr
      | cons d ds => simp at hh; exact hn.2 (by simp [hh])
    rw [List.cons_append, pass, if_neg (Ne.symm hn.1), if_neg hcr, if_neg (by simp)]
    by_cases h : c = '"'
    · subst h
      rw [if_pos rfl, ih r hn.2 hr']
      · rfl
      · rintro i ⟨h1, h2⟩
        refine hc (i + 1) ⟨by simpa using h1, ?_⟩
        rw [List.take_succ_cons, List.count_cons_self]
        cases q <;> simp at h2 ⊢ <;> omega
      · rw [List.count_cons_self] at hq
        cases q <;> simp at hq ⊢ <;> omega
    · have h0 : ¬ (c = '#' ∧ q = false) := by
        rintro ⟨rfl, rfl⟩
        exact hc 0 (by simp)
      rw [if_neg h, if_neg h0, ih r hn.2 hr']
      · rfl
      · rintro i ⟨h1, h2⟩
        refine hc (i + 1) ⟨by simpa using h1, ?_⟩
        rw [List.take_succ_cons, List.count_cons_of_ne (by simpa using h)]
        exact h2
      · rw [List.count_cons_of_ne (by simpa using h)] at hq
        exact hq

theorem pass_skip : ∀ {t r : Str} (q : Bool), '\n' ∉ t → pass q true (t ++ '\n' :: r) = if r = [] then [] else ' ' :: pass false false r
  | [], r, q, _ => by simp [pass]
  | c :: cs, r, q, h => by
    simp only [List.mem_cons, not_or] at h
    rw [List.cons_append, pass, if_neg (Ne.symm h.1)]
    split
    · exact pass_skip q h.2
    · rw [if_pos rfl]; exact pass_skip q h.2

theorem pass_skip_all : ∀ {t : Str} (q : Bool), '\n' ∉ t → pass q true t = []
  | [], q, _ => rfl
  | c :: cs, q, h => by
    simp only [List.mem_cons, not_or] at h
    rw [pass, if_neg (Ne.symm h.1)]
    split
    · exact pass_skip_all q h.2
    · rw [if_pos rfl]; exact pass_skip_all q h.2

/-- A gap becomes blanks. -/
theorem pass_gap {g : Str} (h : Gap g) : ∀ {r : Str}, r ≠ [] → r.head? ≠ some '\n' →
    ∃ w, Blank w ∧ pass false false (g ++ r) = w ++ pass false false r ∧ (w = [] → g = []) := by
  induction h with
  | nil => intro r _ _; exact ⟨[], blank_nil, rfl, fun _ => rfl⟩
  | blank c g hc _ ih =>
    intro r hr hn
    obtain ⟨w, hw, he, hne⟩ := ih hr hn
    have hcs : c = ' ' ∨ c = '\t' ∨ c = '\r' ∨ c = '\n' := hc c (by simp)
    rw [List.cons_append, pass]
    by_cases h1 : c = '\n'
    · rw [if_pos h1, if_neg (by simp [hr]), he]
      exact ⟨' ' :: w, by intro d hd; simp at hd; rcases hd with rfl | hd; · exact .inl rfl
                          · exact hw d hd, rfl, by simp⟩
    · rw [if_neg h1]
      by_cases h2 : c = '\r' ∧ (g ++ r).head? = some '\n'
      · rw [if_pos h2, he]
        refine ⟨w, hw, rfl, fun hw0 => ?_⟩
        rw [hne hw0] at h2
        exact absurd h2.2 hn
      · rw [if_neg h2, if_neg (by simp), if_neg (by rintro rfl; simp at hcs), if_neg (by rintro ⟨rfl, _⟩; simp at hcs), he]
        exact ⟨c :: w, by intro d hd; simp at hd; rcases hd with rfl | hd; · exact hcs
                          · exact hw d hd, rfl, by simp⟩
  | comment text g ht _ ih =>
    intro r hr hn
    obtain ⟨w, hw, he, _⟩ := ih hr hn
    refine ⟨' ' :: w, by intro d hd; simp at hd; rcases hd with rfl | hd; · exact .inl rfl
                         · exact hw d hd, ?_, by simp⟩
    rw [List.cons_append, pass, if_neg (by decide), if_neg (by simp), if_neg (by simp), if_neg (by decide), if_pos (by simp)]
    rw [List.append_assoc, List.cons_append, pass_skip false ht, if_neg (by simp [hr]), he]
    rfl

/-- so does a gap at the end -/
theorem pass_last {g : Str} (h : Gap g) : Blank (pass false false g) := by
  induction h with
  | nil => exact blank_nil
  | blank c g hc _ ih =>
    have hcs : c = ' ' ∨ c = '\t' ∨ c = '\r' ∨ c = '\n' := hc c (by simp)
    rw [pass]
    split
    · split
      · exact blank_nil
      · intro d hd; simp at hd; rcases hd with rfl | hd
        · exact .inl rfl
        · exact ih d hd
    · split
      · exact ih
      · rw [if_neg (by simp), if_neg (by rintro rfl; simp at hcs), if_neg (by rintro ⟨rfl, _⟩; simp at hcs)]
        intro d hd; simp at hd; rcases hd with rfl | hd
        · exact hcs
        · exact ih d hd
  | comment text g ht _ ih =>
    rw [pass, if_neg (by decide), if_neg (by simp), if_neg (by simp), if_neg (by decide), if_pos (by simp), pass_skip false ht]
    split
    · exact blank_nil
    · intro d hd; simp at hd; rcases hd with rfl | hd
      · exact .inl rfl
      · exact ih d hd

theorem pass_trailing {g text : Str} (h : Gap g) (ht : '\n' ∉ text) : Blank (pass false false (g ++ '#' :: text)) := by
  obtain ⟨w, hw, he, _⟩ := pass_gap h (r := '#' :: text) (by simp) (by simp)
  rw [he, pass, if_neg (by decide), if_neg (by rintro ⟨h, _⟩; exact absurd h (by decide)), if_neg (by simp), if_neg (by decide), if_pos (by simp),
    pass_skip_all false ht, List.append_nil]
  exact hw

/-! ### the tokens of a program -/

/-- the characters of symbols, except the semicolon -/
def symbols : Str := s!' "().,[]{}+-*/%=!&|^<>~"

/-- what a token can be: a semicolon, a string literal, or characters of words and symbols -/
def Tok (t : Str) : Prop := t ≠ [] ∧ (t = [';'] ∨ (∃ s, Literal s t) ∨ ∀ c ∈ t, WordChar c ∨ c ∈ symbols)

theorem tok_of_chars {t : Str} (hne : t ≠ []) (h : ∀ c ∈ t, WordChar c ∨ c ∈ symbols) : Tok t := ⟨hne, .inr (.inr h)⟩

instance (c : Char) : Decidable (Letter c) := by unfold Letter; infer_instance
instance (c : Char) : Decidable (WordChar c) := by unfold WordChar; infer_instance

theorem tok_name {x : Str} (h : Name x) : Tok x := by
  obtain ⟨c, cs, rfl, h1, h2⟩ := h
  refine tok_of_chars (by simp) fun d hd => ?_
  simp only [List.mem_cons] at hd
  rcases hd with rfl | hd
  · exact .inl (.inl h1)
  · exact .inl (h2 d hd)

theorem tok_dot {x : Str} (h : Name x) : Tok (['.'] ++ x) := by
  obtain ⟨c, cs, rfl, h1, h2⟩ := h
  refine tok_of_chars (by simp) fun d hd => ?_
  simp only [List.cons_append, List.nil_append, List.mem_cons] at hd
  rcases hd with rfl | rfl | hd
  · exact .inr (by decide)
  · exact .inl (.inl h1)
  · exact .inl (h2 d hd)

theorem tok_numeral {ds : Str} (h : Numeral ds) : Tok ds := tok_of_chars h.1 fun c hc => .inl (.inr (h.2.1 c hc))

theorem tok_literal {s t : Str} (h : Literal s t) : Tok t := by
  obtain ⟨b, h1, rfl⟩ := h
  exact ⟨by simp, .inr (.inl ⟨s, b, h1, rfl⟩)⟩

theorem tok_semi : Tok s!' ";" := ⟨by simp, .inl rfl⟩

theorem tok_op (op : BinOp) : Tok (opText op) := by
  cases op <;> exact tok_of_chars (by decide) (by decide)

theorem tok_un (op : UnOp) : Tok (unText op) := by
  cases op <;> exact tok_of_chars (by decide) (by decide)

theorem toks_cons {t : Str} {ts : List Str} (h : Tok t) (hs : ∀ u ∈ ts, Tok u) : ∀ u ∈ t :: ts, Tok u := by
  intro u hu; simp only [List.mem_cons] at hu; rcases hu with rfl | hu
  · exact h
  · exact hs u hu

theorem toks_append {ts us : List Str} (h : ∀ u ∈ ts, Tok u) (h' : ∀ u ∈ us, Tok u) : ∀ u ∈ ts ++ us, Tok u := by
  intro u hu; rw [List.mem_append] at hu; rcases hu with hu | hu
  · exact h u hu
  · exact h' u hu

theorem toks_nil : ∀ u ∈ ([] : List Str), Tok u := by simp

/-- a fixed token -/
theorem tok_lit {t : Str} (h : t ≠ [] ∧ ∀ c ∈ t, WordChar c ∨ c ∈ symbols) : Tok t := tok_of_chars h.1 h.2

theorem toks_one {t : Str} (h : Tok t) : ∀ u ∈ [t], Tok u := toks_cons h toks_nil

mutual
theorem expr_toks : ∀ {e : Expr} {ts : List Str}, ExprText e ts → ∀ t ∈ ts, Tok t
  | _, _, .ident x h => toks_one (tok_name h)
  | _, _, .int ds h _ => toks_one (tok_numeral h)
  | _, _, .bool b => toks_one (by cases b <;> exact tok_lit (by decide))
  | _, _, .str s t h => toks_one (tok_literal h)
  | _, _, .paren e ts h => toks_cons (tok_lit (by decide)) (toks_append (expr_toks h) (toks_one (tok_lit (by decide))))
  | _, _, .field e ts x h hx => toks_append (expr_toks h) (toks_one (tok_dot hx))
  | _, _, .index e i ts us h h' => toks_append (expr_toks h)
      (toks_cons (tok_lit (by decide)) (toks_append (expr_toks h') (toks_one (tok_lit (by decide)))))
  | _, _, .call f args ts us h h' => toks_append (expr_toks h)
      (toks_cons (tok_lit (by decide)) (toks_append (args_toks h') (toks_one (tok_lit (by decide)))))
  | _, _, .bin op l r ts us h h' => toks_append (expr_toks h) (toks_cons (tok_op op) (expr_toks h'))
  | _, _, .un op e ts h => toks_cons (tok_un op) (expr_toks h)
  | _, _, .cast x e ts hx h => toks_cons (tok_lit (by decide)) (toks_cons (tok_lit (by decide)) (toks_cons (tok_name hx)
      (toks_cons (tok_lit (by decide)) (expr_toks h))))
theorem args_toks : ∀ {es : List Expr} {ts : List Str}, ArgsText es ts → ∀ t ∈ ts, Tok t
  | _, _, .nil => toks_nil
  | _, _, .one e ts h => expr_toks h
  | _, _, .cons e e' es ts us h h' => toks_append (expr_toks h) (toks_cons (tok_lit (by decide)) (args_toks h'))
end

mutual
theorem stmt_toks {u : List Str → Prop} : ∀ {s : Stmt} {ts : List Str}, StmtFormV Bare u s ts → ∀ t ∈ ts, Tok t
  | _, _, .assign l r ts us h h' _ => toks_append (expr_toks h.1) (toks_cons (tok_lit (by decide)) (toks_append (expr_toks h'.1) (toks_one tok_semi)))
  | _, _, .plusEq l r ts us h h' _ => toks_append (expr_toks h.1) (toks_cons (tok_lit (by decide)) (toks_append (expr_toks h'.1) (toks_one tok_semi)))
  | _, _, .minusEq l r ts us h h' _ => toks_append (expr_toks h.1) (toks_cons (tok_lit (by decide)) (toks_append (expr_toks h'.1) (toks_one tok_semi)))
  | _, _, .ite c t ts tt h h' => toks_cons (tok_lit (by decide)) (toks_append (expr_toks h.1) (toks_cons (tok_lit (by decide))
      (toks_append (prog_toks h') (toks_one (tok_lit (by decide))))))
  | _, _, .iteElse c t f ts tt ft h h' h'' => toks_cons (tok_lit (by decide)) (toks_append (expr_toks h.1) (toks_cons (tok_lit (by decide))
      (toks_append (prog_toks h') (toks_cons (tok_lit (by decide)) (toks_cons (tok_lit (by decide)) (toks_cons (tok_lit (by decide))
        (toks_append (prog_toks h'') (toks_one (tok_lit (by decide))))))))))
  | _, _, .while c b ts bt h h' => toks_cons (tok_lit (by decide)) (toks_append (expr_toks h.1) (toks_cons (tok_lit (by decide))
      (toks_append (prog_toks h') (toks_one (tok_lit (by decide))))))
  | _, _, .for x t r b ts bt hx hv h h' => by
    have hv : t = x := hv
    subst hv
    exact toks_cons (tok_lit (by decide)) (toks_cons (tok_name hx) (toks_cons (tok_lit (by decide))
      (toks_append (expr_toks h.1) (toks_cons (tok_lit (by decide)) (toks_append (prog_toks h') (toks_one (tok_lit (by decide))))))))
  | _, _, .brk => toks_cons (tok_lit (by decide)) (toks_one tok_semi)
  | _, _, .cont => toks_cons (tok_lit (by decide)) (toks_one tok_semi)
  | _, _, .help => toks_cons (tok_lit (by decide)) (toks_one tok_semi)
  | _, _, .quit => toks_cons (tok_lit (by decide)) (toks_one tok_semi)
  | _, _, .filesystem s t h => toks_cons (tok_lit (by decide)) (toks_cons (tok_literal h) (toks_one tok_semi))
  | _, _, .print e ts h => toks_cons (tok_lit (by decide)) (toks_append (expr_toks h.1) (toks_one tok_semi))
  | _, _, .expr e ts h _ => toks_append (expr_toks h.1) (toks_one tok_semi)
  | _, _, .semi s ts h => toks_append (stmt_toks h) (toks_one tok_semi)
theorem prog_toks {u : List Str → Prop} : ∀ {p : List Stmt} {ts : List Str}, ProgFormV Bare u p ts → ∀ t ∈ ts, Tok t
  | _, _, .nil => toks_nil
  | _, _, .cons s ss a b h h' => toks_append (stmt_toks h) (prog_toks h')
end

theorem word_range {c : Char} (h : WordChar c) :
    (48 ≤ c.toNat ∧ c.toNat ≤ 57) ∨ (65 ≤ c.toNat ∧ c.toNat ≤ 90) ∨ c.toNat = 95 ∨ (97 ≤ c.toNat ∧ c.toNat ≤ 122) := by
  have hle : ∀ a b : Char, a ≤ b → a.toNat ≤ b.toNat := fun a b h => h
  rcases h with (⟨h1, h2⟩ | ⟨h1, h2⟩ | rfl) | ⟨h1, h2⟩
  · exact .inr (.inr (.inr ⟨hle _ _ h1, hle _ _ h2⟩))
  · exact .inr (.inl ⟨hle _ _ h1, hle _ _ h2⟩)
  · exact .inr (.inr (.inl rfl))
  · exact .inl ⟨hle _ _ h1, hle _ _ h2⟩

/-- no token ends in white space -/
theorem tok_last {t : Str} (h : Tok t) : ∃ a c, t = a ++ [c] ∧ isWhitespace c = false ∧ (c = ';' → t = [';']) := by
  obtain ⟨hne, rfl | ⟨s, b, _, rfl⟩ | h⟩ := h
  · exact ⟨[], ';', rfl, by decide, fun _ => rfl⟩
  · exact ⟨'"' :: b, '"', by simp, by decide, fun h => absurd h (by decide)⟩
  · have hc := h (t.getLast hne) (List.getLast_mem hne)
    refine ⟨t.dropLast, t.getLast hne, (List.dropLast_concat_getLast hne).symm, ?_, ?_⟩
    · rw [Bool.eq_false_iff]
      intro hw
      rw [isWhitespace_iff] at hw
      rcases hc with hc | hc
      · have := word_range hc
        simp only [whiteSpace, List.mem_cons, List.not_mem_nil, or_false] at hw
        omega
      · revert hw hc
        generalize t.getLast hne = c
        intro hw hc
        simp only [symbols, List.mem_cons, List.not_mem_nil, or_false] at hc
        rcases hc with h | h | h | h | h | h | h | h | h | h | h | h | h | h | h | h | h | h | h | h | h <;> subst h <;> revert hw <;> decide
    · intro he
      rw [he] at hc
      exact absurd hc (by decide)

/-- a token that is not a string literal is quiet -/
theorem tok_quiet {t : Str} (h : Tok t) (hq : t.head? = some '"' → Quiet t) : Quiet t := by
  by_cases hh : t.head? = some '"'
  · exact hq hh
  · obtain ⟨hne, rfl | ⟨s, b, _, rfl⟩ | h⟩ := h
    · refine ⟨by decide, by decide, ?_⟩
      rintro i ⟨h1, _⟩
      rcases i with _ | i <;> simp at h1
    · simp at hh
    · have hno : ∀ c : Char, ¬ (WordChar c ∨ c ∈ symbols) → c ∉ t := fun c hc hm => hc (h c hm)
      refine ⟨hno _ (by decide), ?_, ?_⟩
      · rw [List.count_eq_zero_of_not_mem (hno _ (by decide))]
      · rintro i ⟨h1, _⟩
        exact hno '#' (by decide) (List.mem_of_getElem? h1)

/-! ### laid-out tokens -/

/-- Without comments and line breaks, laid-out tokens are spaced tokens. -/
theorem laidOut_spaced {ts : List Str} {s : Str} (h : LaidOut ts s) (ht : ∀ t ∈ ts, Tok t) (hq : QuietLiterals ts) :
    ∃ w text w2, Blank w ∧ Blank w2 ∧ Spaced ts text ∧ pass false false s = w ++ text ++ w2 ∧
      (w = [] → ts ≠ [] → s.head? = text.head?) := by
  induction h with
  | done g hg => exact ⟨_, [], [], pass_last hg, blank_nil, .nil, by simp, by simp⟩
  | trailing g text hg ht' => exact ⟨_, [], [], pass_trailing hg ht', blank_nil, .nil, by simp, by simp⟩
  | token g t ts r hg hglue _ ih =>
    obtain ⟨w', text', w2, hw', hw2, hs, he, hh⟩ := ih (fun u hu => ht u (by simp [hu])) (fun u hu => hq u (by simp [hu]))
    have htok := ht t (by simp)
    have hQ := tok_quiet htok (hq t (by simp))
    obtain ⟨c0, hc0⟩ : ∃ c0 cs0, t = c0 :: cs0 := by
      cases t with
      | nil => exact absurd rfl htok.1
      | cons c cs => exact ⟨c, cs, rfl⟩
    have hlast : t.getLast? ≠ some '\r' := by
      obtain ⟨a, c, rfl, hc, _⟩ := tok_last htok
      simp only [List.getLast?_append, List.getLast?_singleton, Option.some_or, ne_eq, Option.some.injEq]
      rintro rfl
      exact absurd hc (by decide)
    have hn0 : (t ++ r).head? ≠ some '\n' := by
      obtain ⟨cs0, rfl⟩ := hc0
      intro hx
      simp at hx
      exact hQ.1 (by simp [hx])
    obtain ⟨w, hw, hg1, hg2⟩ := pass_gap hg (r := t ++ r) (by obtain ⟨cs0, rfl⟩ := hc0; simp) hn0
    have hp : pass false false (t ++ r) = t ++ pass false false r :=
      pass_quiet r hQ.1 hlast (by simpa [CommentAt] using hQ.2.2) (by simpa using hQ.2.1)
    have hhead : ∀ x : Str, w = [] → (g ++ (t ++ r)).head? = (t ++ x).head? := by
      intro x h0
      rw [hg2 h0]
      obtain ⟨cs0, rfl⟩ := hc0
      rfl
    cases ts with
    | nil =>
      cases hs
      refine ⟨w, t, w' ++ w2, hw, blank_append hw' hw2, .one t, by rw [hg1, hp, he]; simp, fun h0 _ => ?_⟩
      simpa using hhead [] h0
    | cons t' ts' =>
      refine ⟨w, t ++ w' ++ text', w2, hw, hw2, .cons t w' t' ts' text' hw' ?_ hs, by rw [hg1, hp, he]; simp, fun h0 _ => ?_⟩
      · rintro h0 ⟨⟨c, hc, hcw⟩, d, hd, hdw⟩
        refine hglue c d hc ?_ hcw hdw
        rw [hh h0 (by simp)]
        obtain ⟨more, rfl⟩ := spaced_head hs
        rw [List.head?_append, hd]; rfl
      · simpa using hhead (w' ++ text') h0

end Btrd
