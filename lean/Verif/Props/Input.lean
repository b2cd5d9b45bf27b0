/-
C01-C04: comments, literals and continuation lines of the source text (`src/input.rs`, `src/main.rs`).
-/
import Verif.Model.Input
import Verif.Model.Parse
import Verif.Spec.Input
import Batteries.Data.List.Basic

namespace Btrd

open Spec

/-! ### helper lemmas about lines -/

theorem stripLine_spec (l : Str) : ∀ (b : Bool), ∃ n, stripLine b l = l.take n ∧ n ≤ l.length ∧
    (∀ i < n, ¬ (l[i]? = some '#' ∧ ((l.take i).count '"' + b.toNat) % 2 = 0)) ∧
    (n = l.length ∨ (l[n]? = some '#' ∧ ((l.take n).count '"' + b.toNat) % 2 = 0)) := by
  induction l with
  | nil => intro b; exact ⟨0, by simp [stripLine]⟩
  | cons c cs ih =>
    intro b
    by_cases hq : c = '"'
    · subst hq
      obtain ⟨n, h1, h2, h3, h4⟩ := ih (!b)
      refine ⟨n + 1, by simp [stripLine, h1], by simpa using h2, ?_, ?_⟩
      · intro i hi
        cases i with
        | zero => simp
        | succ i =>
          have := h3 i (by omega)
          simp only [List.getElem?_cons_succ, List.take_succ_cons, List.count_cons_self]
          intro ⟨ha, hb⟩
          apply this
          refine ⟨ha, ?_⟩
          cases b <;> simp at hb ⊢ <;> omega
      · rcases h4 with h4 | ⟨ha, hb⟩
        · left; simpa using h4
        · right
          refine ⟨by simpa using ha, ?_⟩
          simp only [List.take_succ_cons, List.count_cons_self]
          cases b <;> simp at hb ⊢ <;> omega
    · by_cases hh : c = '#' ∧ b = false
      · obtain ⟨rfl, rfl⟩ := hh
        exact ⟨0, by simp [stripLine]⟩
      · obtain ⟨n, h1, h2, h3, h4⟩ := ih b
        refine ⟨n + 1, by simp [stripLine, h1, hq, hh], by simpa using h2, ?_, ?_⟩
        · intro i hi
          cases i with
          | zero =>
            rintro ⟨ha, hb⟩
            simp at ha hb
            apply hh
            refine ⟨ha, ?_⟩
            cases b <;> simp_all
          | succ i =>
            have := h3 i (by omega)
            simp only [List.getElem?_cons_succ, List.take_succ_cons]
            rw [List.count_cons_of_ne (by simpa using hq)]
            exact this
        · rcases h4 with h4 | ⟨ha, hb⟩
          · left; simpa using h4
          · right
            refine ⟨by simpa using ha, ?_⟩
            simp only [List.take_succ_cons]
            rw [List.count_cons_of_ne (by simpa using hq)]
            exact hb

theorem stripLine_uncommented (l : Str) : Uncommented l (stripLine false l) := by
  obtain ⟨n, h1, h2, h3, h4⟩ := stripLine_spec l false
  exact ⟨n, h1, h2, by simpa [CommentAt] using h3, by simpa [CommentAt] using h4⟩

theorem uncommented_unique {l k k' : Str} (h : Uncommented l k) (h' : Uncommented l k') : k = k' := by
  obtain ⟨n, rfl, h2, h3, h4⟩ := h
  obtain ⟨m, rfl, g2, g3, g4⟩ := h'
  have : n = m := by
    rcases Nat.lt_trichotomy n m with hlt | heq | hgt
    · rcases h4 with h4 | h4
      · omega
      · exact absurd h4 (g3 n hlt)
    · exact heq
    · rcases g4 with g4 | g4
      · omega
      · exact absurd g4 (h3 m hgt)
  rw [this]

theorem lines_append_newline (l : Str) (h : '\n' ∉ l) (hr : l.getLast? ≠ some '\r') (rest : Str) :
    lines (l ++ '\n' :: rest) = l :: lines rest := by
  induction l with
  | nil => simp [lines]
  | cons c cs ih =>
    simp only [List.mem_cons, not_or] at h
    have hc : ¬ (c = '\r' ∧ (cs ++ '\n' :: rest).head? = some '\n') := by
      rintro ⟨rfl, hh⟩
      cases cs with
      | nil => simp at hr
      | cons d ds => simp at hh; exact h.2 (by simp [hh])
    have hr' : cs.getLast? ≠ some '\r' := by
      cases cs with
      | nil => simp
      | cons d ds => simpa [List.getLast?_cons_cons] using hr
    rw [List.cons_append, lines]
    rw [if_neg (fun e => h.1 e.symm), if_neg hc, ih h.2 hr']
    rfl

theorem lines_append_crlf (l : Str) (h : '\n' ∉ l) (rest : Str) :
    lines (l ++ '\r' :: '\n' :: rest) = l :: lines rest := by
  induction l with
  | nil => simp [lines]
  | cons c cs ih =>
    simp only [List.mem_cons, not_or] at h
    have hc : ¬ (c = '\r' ∧ (cs ++ '\r' :: '\n' :: rest).head? = some '\n') := by
      rintro ⟨rfl, hh⟩
      cases cs with
      | nil => simp at hh
      | cons d ds => simp at hh; exact h.2 (by simp [hh])
    rw [List.cons_append, lines]
    rw [if_neg (fun e => h.1 e.symm), if_neg hc, ih h.2]
    rfl

theorem lines_last (l : Str) (h : '\n' ∉ l) : lines l = if l = [] then [] else [l] := by
  induction l with
  | nil => simp [lines]
  | cons c cs ih =>
    simp only [List.mem_cons, not_or] at h
    have hc : ¬ (c = '\r' ∧ cs.head? = some '\n') := by
      rintro ⟨rfl, hh⟩
      cases cs with
      | nil => simp at hh
      | cons d ds => simp at hh; exact h.2 (by simp [hh])
    rw [lines, if_neg (fun e => h.1 e.symm), if_neg hc, ih h.2]
    split <;> simp_all [lines.consHead]

theorem lines_splitsInto {s : Str} {ls : List (Str × Bool)} {last : Str} (h : SplitsInto s ls last) :
    lines s = textLines ls last := by
  obtain ⟨rfl, h2, h3⟩ := h
  induction ls with
  | nil => simp [textLines, lines_last last h3]
  | cons p ps ih =>
    obtain ⟨l, b⟩ := p
    have hp := h2 (l, b) (by simp)
    have := ih (fun q hq => h2 q (by simp [hq]))
    cases b
    · simp only [List.flatMap_cons, termLine, Bool.false_eq_true, if_false, List.append_assoc,
        List.cons_append, List.nil_append]
      rw [lines_append_newline l hp.1 (hp.2 rfl)]
      rw [this]; simp [textLines]
    · simp only [List.flatMap_cons, termLine, if_true, List.append_assoc, List.cons_append, List.nil_append]
      rw [lines_append_crlf l hp.1]
      rw [this]; simp [textLines]

/-- every text splits into lines -/
theorem exists_splitsInto (s : Str) : ∃ ls last, SplitsInto s ls last := by
  induction s with
  | nil => exact ⟨[], [], by simp [SplitsInto]⟩
  | cons c cs ih =>
    obtain ⟨ls, last, h1, h2, h3⟩ := ih
    by_cases hc : c = '\n'
    · subst hc
      refine ⟨([], false) :: ls, last, by simp [termLine, h1], ?_, h3⟩
      intro p hp
      simp only [List.mem_cons] at hp
      rcases hp with rfl | hp
      · simp
      · exact h2 p hp
    · cases ls with
      | nil =>
        exact ⟨[], c :: last, by simpa using h1, by simp, by simp [h3, Ne.symm hc]⟩
      | cons p ps =>
        obtain ⟨l, b⟩ := p
        have hp := h2 (l, b) (by simp)
        have h2' : ∀ q ∈ ps, '\n' ∉ q.1 ∧ (q.2 = false → q.1.getLast? ≠ some '\r') :=
          fun q hq => h2 q (by simp [hq])
        by_cases hcr : c = '\r' ∧ l = [] ∧ b = false
        · obtain ⟨rfl, rfl, rfl⟩ := hcr
          refine ⟨([], true) :: ps, last, by simp [termLine, h1], ?_, h3⟩
          intro q hq
          simp only [List.mem_cons] at hq
          rcases hq with rfl | hq
          · simp
          · exact h2' q hq
        · refine ⟨(c :: l, b) :: ps, last, by simp [termLine, h1], ?_, h3⟩
          intro q hq
          simp only [List.mem_cons] at hq
          rcases hq with rfl | hq
          · refine ⟨by simp [Ne.symm hc, hp.1], ?_⟩
            intro hb
            simp only at hb
            cases l with
            | nil => simp; intro e; exact hcr ⟨e, rfl, hb⟩
            | cons d ds => simpa [List.getLast?_cons_cons] using hp.2 hb
          · exact h2' q hq

theorem flatMap_dropLast_intercalate (ks : List Str) :
    (ks.flatMap (fun k => k ++ [' '])).dropLast = List.intercalate [' '] ks := by
  induction ks with
  | nil => simp
  | cons k ks ih =>
    cases ks with
    | nil => simp
    | cons k' ks' =>
      rw [List.flatMap_cons, List.dropLast_append_of_ne_nil (by simp), ih]
      simp

theorem stripComments_eq (s : Str) :
    stripComments s = List.intercalate [' '] ((lines s).map (stripLine false)) := by
  rw [← flatMap_dropLast_intercalate, stripComments]
  simp [List.flatMap_map]

/-! ### C01 -/

/-- **C01**: for every text there is a unique way to read it as lines, and decommenting yields the lines
without their comments, joined by single spaces. -/
theorem C01_strip_comments (s : Str) :
    (∃ ls last, SplitsInto s ls last) ∧
    ∀ ls last, SplitsInto s ls last →
      ∃ ks, List.Forall₂ Uncommented (textLines ls last) ks ∧
        stripComments s = List.intercalate [' '] ks := by
  refine ⟨exists_splitsInto s, fun ls last h => ?_⟩
  refine ⟨(lines s).map (stripLine false), ?_, stripComments_eq s⟩
  rw [lines_splitsInto h]
  generalize textLines ls last = xs
  induction xs with
  | nil => exact .nil
  | cons x xs ih => exact .cons (stripLine_uncommented x) ih

/-- the part of a line that `Uncommented` describes is unique, so C01 determines the output -/
theorem C01_determined {l k k' : Str} (h : Uncommented l k) (h' : Uncommented l k') : k = k' :=
  uncommented_unique h h'

/-- **C01**: decommented text is a single line. -/
theorem C01_no_newline (s : Str) : '\n' ∉ stripComments s := by
  obtain ⟨ls, last, h⟩ := exists_splitsInto s
  obtain ⟨ks, hk, he⟩ := (C01_strip_comments s).2 ls last h
  rw [he]
  have hl : ∀ l ∈ textLines ls last, '\n' ∉ l := by
    intro l hl
    simp only [textLines, List.mem_append, List.mem_map] at hl
    rcases hl with ⟨p, hp, rfl⟩ | hl
    · exact (h.2.1 p hp).1
    · split at hl
      · simp at hl
      · simp at hl; subst hl; exact h.2.2
  clear he h
  intro hm
  generalize hxs : textLines ls last = xs at hk hl
  clear hxs
  induction hk with
  | nil => simp at hm
  | cons hab hr ih =>
    rename_i a b as bs
    have hb : '\n' ∉ b := by
      obtain ⟨n, rfl, -⟩ := hab
      exact fun hc => hl a (by simp) (List.mem_of_mem_take hc)
    have hl' : ∀ l ∈ as, '\n' ∉ l := fun l hl'' => hl l (by simp [hl''])
    cases bs with
    | nil => simp at hm; exact hb hm
    | cons b' bs' =>
      simp at hm
      rcases hm with hm | hm
      · exact hb hm
      · exact ih (by simpa using hm) hl'

example : stripComments s!' "x = 1; # set\nprint \"a#b\"; # show\r\n" = s!' "x = 1;  print \"a#b\"; " := by
  decide

example : Uncommented s!' "a \"#\" # c" s!' "a \"#\" " := by
  have := stripLine_uncommented s!' "a \"#\" # c"
  simpa [stripLine] using this

/-! ### C02 -/

/-- a line whose first part opens no comment and closes all its quotes keeps a following quoted text
without inner quotes -/
theorem stripLine_keeps (pre body post : Str) : ∀ b,
    (∀ i < pre.length, ¬ (pre[i]? = some '#' ∧ ((pre.take i).count '"' + b.toNat) % 2 = 0)) →
    (pre.count '"' + b.toNat) % 2 = 0 → '"' ∉ body →
    stripLine b (pre ++ '"' :: body ++ '"' :: post) =
      pre ++ '"' :: body ++ '"' :: stripLine false post := by
  have hbody : ∀ body : Str, '"' ∉ body → ∀ post,
      stripLine true (body ++ '"' :: post) = body ++ '"' :: stripLine false post := by
    intro body
    induction body with
    | nil => intro _ post; simp [stripLine]
    | cons c cs ih =>
      intro h post
      simp only [List.mem_cons, not_or] at h
      simp [stripLine, Ne.symm h.1, ih h.2]
  induction pre with
  | nil =>
    intro b _ hb hq
    cases b <;> simp at hb
    simp [stripLine, hbody body hq]
  | cons c cs ih =>
    intro b h hb hq
    have h0 := h 0 (by simp)
    by_cases hc : c = '"'
    · subst hc
      have := ih (!b) (fun i hi => by
        have := h (i + 1) (by simpa using hi)
        simp only [List.getElem?_cons_succ, List.take_succ_cons, List.count_cons_self] at this
        intro ⟨ha, hb⟩
        apply this
        refine ⟨ha, ?_⟩
        cases b <;> simp at hb ⊢ <;> omega) (by
        simp only [List.count_cons_self] at hb
        cases b <;> simp at hb ⊢ <;> omega) hq
      simp only [List.cons_append, List.append_assoc] at this ⊢
      simp [stripLine, this]
    · have hh : ¬ (c = '#' ∧ b = false) := by
        rintro ⟨rfl, rfl⟩
        simp at h0
      rw [List.count_cons_of_ne (by simpa using hc)] at hb
      have := ih b (fun i hi => by
        have := h (i + 1) (by simpa using hi)
        simp only [List.getElem?_cons_succ, List.take_succ_cons] at this
        rwa [List.count_cons_of_ne (by simpa using hc)] at this) hb hq
      simp only [List.cons_append, List.append_assoc] at this ⊢
      simp [stripLine, this, hc, hh]

/-- **C02 is false of the code**: there is a program whose string literal, as read by the parser, contains
an escaped quote followed by `#`; it parses as intended when given to the parser directly, but after
comment stripping (which every script and REPL line goes through) the literal is cut and the program no
longer parses. -/
theorem C02_negation :
    parse s!' "print \"a\\\"#b\";" = some [.print (.str s!' "a\"#b")] ∧
    stripComments s!' "print \"a\\\"#b\";" = s!' "print \"a\\\"" ∧
    parse (stripComments s!' "print \"a\\\"#b\";") = none :=
  ⟨by rfl, by rfl, by rfl⟩

/-- **C02, second defect**: a literal containing a line break reaches the parser with the break replaced. -/
theorem C02_negation_newline :
    parse s!' "print \"a\nb\";" = some [.print (.str s!' "a\nb")] ∧
    parse (stripComments s!' "print \"a\nb\";") = some [.print (.str s!' "a b")] :=
  ⟨by rfl, by rfl⟩

/-- **C02, partial**: in every script, a literal without escaped quotes and line breaks, on a line where no
comment has started and all earlier quotes are closed, is passed to the parser unchanged (together with
all of its line before it). Missing: literals with an escaped quote or a line break, see the negations. -/
theorem C02_literal_kept_partial (s pre body post : Str) (ls : List (Str × Bool)) (last : Str)
    (hs : SplitsInto s ls last) (hl : pre ++ '"' :: body ++ '"' :: post ∈ textLines ls last)
    (hpre : ∀ i < pre.length, ¬ CommentAt pre i) (heven : pre.count '"' % 2 = 0) (hbody : '"' ∉ body) :
    ∃ A B, stripComments s = A ++ (pre ++ '"' :: body ++ ['"']) ++ B := by
  have h := stripLine_keeps pre body post false (by simpa [CommentAt] using hpre) (by simpa using heven)
    hbody
  rw [stripComments_eq, lines_splitsInto hs]
  generalize textLines ls last = xs at hl
  clear hs
  induction xs with
  | nil => simp at hl
  | cons x xs ih =>
    simp only [List.mem_cons] at hl
    rcases hl with rfl | hl
    · cases xs with
      | nil =>
        refine ⟨[], stripLine false post, ?_⟩
        simp only [List.map_cons, List.map_nil, h]
        simp
      | cons y ys =>
        refine ⟨[], stripLine false post ++ [' '] ++ List.intercalate [' '] ((y :: ys).map (stripLine false)), ?_⟩
        simp only [List.map_cons, h]
        simp
    · obtain ⟨A, B, hAB⟩ := ih hl
      cases xs with
      | nil => simp at hl
      | cons y ys =>
        refine ⟨stripLine false x ++ [' '] ++ A, B, ?_⟩
        simp only [List.map_cons, List.append_assoc] at hAB ⊢
        rw [← hAB]
        simp

example : SplitsInto s!' "x = \"#1\"; # c\n" [(s!' "x = \"#1\"; # c", false)] [] ∧
    s!' "x = " ++ '"' :: s!' "#1" ++ '"' :: s!' "; # c" ∈ textLines [(s!' "x = \"#1\"; # c", false)] [] ∧
    (∀ i < (s!' "x = ").length, ¬ CommentAt s!' "x = " i) := by
  refine ⟨by unfold SplitsInto; decide, by decide, ?_⟩
  simp only [CommentAt]; decide

/-! ### C03 -/

theorem replaceContinuation_part (p rest : Str) (h : ¬ continuation <:+: p) :
    replaceContinuation (p ++ '\\' :: '\n' :: rest) = p ++ ' ' :: replaceContinuation rest := by
  induction p with
  | nil => simp [replaceContinuation]
  | cons c cs ih =>
    have h' : ¬ continuation <:+: cs := fun hi => h (hi.trans (List.suffix_cons c cs).isInfix)
    have hc : ∀ d, c = '\\' → cs ++ '\\' :: '\n' :: rest = '\n' :: d → False := by
      rintro d rfl hd
      cases cs with
      | nil => simp at hd
      | cons e es =>
        simp at hd
        apply h
        exact ⟨[], es, by simp [continuation, hd.1]⟩
    rw [List.cons_append, replaceContinuation]
    · rw [ih h']; rfl
    · intro d h1 h2; exact hc d h1 h2

theorem replaceContinuation_self (p : Str) (h : ¬ continuation <:+: p) : replaceContinuation p = p := by
  induction p with
  | nil => simp [replaceContinuation]
  | cons c cs ih =>
    have h' : ¬ continuation <:+: cs := fun hi => h (hi.trans (List.suffix_cons c cs).isInfix)
    rw [replaceContinuation]
    · rw [ih h']
    · rintro d rfl rfl
      exact h ⟨[], d, by simp [continuation]⟩

theorem replaceContinuation_join (parts : List Str) (h : ∀ p ∈ parts, ¬ continuation <:+: p) :
    replaceContinuation (List.intercalate continuation parts) = List.intercalate [' '] parts := by
  induction parts with
  | nil => simp [replaceContinuation]
  | cons p ps ih =>
    cases ps with
    | nil => simpa using replaceContinuation_self p (h p (by simp))
    | cons q qs =>
      have := ih (fun r hr => h r (by simp [hr]))
      simp only [List.intercalate_cons_cons] at this ⊢
      simp only [continuation, List.append_assoc, List.cons_append, List.nil_append] at this ⊢
      rw [replaceContinuation_part p _ (h p (by simp)), this]

theorem nl_not_cont {d : Str} {c : Char} (hc : c ≠ '\\' ∨ d.head? ≠ some '\n')
    (h : ¬ continuation <:+: d) : ¬ continuation <:+: c :: d := by
  intro hi
  rw [List.infix_cons_iff] at hi
  rcases hi with ⟨t, ht⟩ | hi
  · simp [continuation] at ht
    rcases hc with hc | hc
    · exact hc ht.1.symm
    · rw [← ht.2] at hc; simp at hc
  · exact h hi

theorem exists_parts (s : Str) : ∃ p ps, s = List.intercalate continuation (p :: ps) ∧
    ∀ q ∈ p :: ps, ¬ continuation <:+: q := by
  fun_induction replaceContinuation s with
  | case1 => exact ⟨[], [], by simp, by simp [continuation]⟩
  | case2 cs ih =>
    obtain ⟨p, ps, h1, h2⟩ := ih
    refine ⟨[], p :: ps, ?_, ?_⟩
    · rw [List.intercalate_cons_cons, ← h1]; simp [continuation]
    · intro q hq
      simp only [List.mem_cons] at hq
      rcases hq with rfl | hq
      · simp [continuation]
      · exact h2 q (by simpa using hq)
  | case3 c cs hne ih =>
    obtain ⟨p, ps, h1, h2⟩ := ih
    refine ⟨c :: p, ps, ?_, ?_⟩
    · rw [h1]; cases ps <;> simp
    · intro q hq
      simp only [List.mem_cons] at hq
      rcases hq with rfl | hq
      · refine nl_not_cont ?_ (h2 p (by simp))
        by_cases hc : c = '\\'
        · right
          intro hp
          cases p with
          | nil => simp at hp
          | cons d ds =>
            simp at hp; subst hp
            cases ps with
            | nil => simp at h1; exact hne _ hc h1
            | cons r rs =>
              simp at h1; exact hne _ hc h1
        · exact .inl hc
      · exact h2 q (by simp [hq])

theorem replaceContinuation_no_cont (s : Str) : ¬ continuation <:+: replaceContinuation s := by
  fun_induction replaceContinuation s with
  | case1 => simp [continuation]
  | case2 cs ih => exact nl_not_cont (.inl (by decide)) ih
  | case3 c cs hne ih =>
    refine nl_not_cont ?_ ih
    by_cases hc : c = '\\'
    · right
      intro hh
      cases cs with
      | nil => simp [replaceContinuation] at hh
      | cons d ds =>
        have : d = '\n' := by
          by_cases hd : ∃ e, d = '\\' ∧ ds = '\n' :: e
          · obtain ⟨e, rfl, rfl⟩ := hd
            simp [replaceContinuation] at hh
          · rw [replaceContinuation] at hh
            · simpa using hh
            · intro e h1 h2; exact hd ⟨e, h1, h2⟩
        exact hne ds hc (by rw [this])
    · exact .inl hc

theorem trimEnd_split (s : Str) : ∃ ws, s = trimEnd s ++ ws ∧ ∀ c ∈ ws, isWhitespace c = true := by
  refine ⟨(s.reverse.takeWhile isWhitespace).reverse, ?_, ?_⟩
  · rw [trimEnd, ← List.reverse_append, List.takeWhile_append_dropWhile, List.reverse_reverse]
  · intro c hc
    simp only [List.mem_reverse] at hc
    have h := @List.all_takeWhile _ isWhitespace s.reverse
    rw [List.all_eq_true] at h
    exact h c hc

theorem trimEnd_append (a ws : Str) (h : ∀ c ∈ ws, isWhitespace c = true) : trimEnd (a ++ ws) = trimEnd a := by
  simp only [trimEnd, List.reverse_append]
  rw [List.dropWhile_append_of_pos (by simpa using h)]

theorem trimEnd_semi (a : Str) : trimEnd (a ++ [';']) = a ++ [';'] := by
  have : isWhitespace ';' = false := by decide
  simp [trimEnd, this]

theorem isWhitespace_iff (c : Char) : isWhitespace c = true ↔ c.toNat ∈ whiteSpace := by
  have hle : ∀ n : UInt32, (n ≤ c.val ↔ n.toNat ≤ c.toNat) := fun n => UInt32.le_iff_toNat_le
  have hge : ∀ n : UInt32, (c.val ≤ n ↔ c.toNat ≤ n.toNat) := fun n => UInt32.le_iff_toNat_le
  have heq : ∀ n : UInt32, (c.val = n ↔ c.toNat = n.toNat) := fun n => UInt32.toNat_inj.symm
  simp only [isWhitespace, whiteSpace, Bool.or_eq_true, Bool.and_eq_true, decide_eq_true_eq, beq_iff_eq,
    hle, hge, heq, List.mem_cons, List.not_mem_nil, or_false, UInt32.reduceToNat]
  omega

theorem terminated_iff (t : Str) : (trimEnd t).getLast? = some ';' ↔ Terminated t := by
  constructor
  · intro h
    obtain ⟨ws, h1, h2⟩ := trimEnd_split t
    obtain ⟨b, hb⟩ := List.getLast?_eq_some_iff.mp h
    exact ⟨b, ws, by rw [← hb]; exact h1, fun c hc => (isWhitespace_iff c).1 (h2 c hc)⟩
  · rintro ⟨b, ws, rfl, h⟩
    rw [trimEnd_append _ _ fun c hc => (isWhitespace_iff c).2 (h c hc), trimEnd_semi]
    simp

/-- **C03**: for every entry, written as parts joined by continuations (which every text can be, in one
way), the fixed-up text is the parts joined by spaces, with one `;` added exactly when the text does not
end in `;` and white space already; and it always ends so; and fixing up again changes nothing. -/
theorem C03_fixup (s : Str) :
    (∃ p ps, s = List.intercalate continuation (p :: ps) ∧ ∀ q ∈ p :: ps, ¬ continuation <:+: q) ∧
    (∀ parts, (∀ q ∈ parts, ¬ continuation <:+: q) → s = List.intercalate continuation parts →
      (Terminated (List.intercalate [' '] parts) → fixupInput s = List.intercalate [' '] parts) ∧
      (¬ Terminated (List.intercalate [' '] parts) →
        fixupInput s = List.intercalate [' '] parts ++ [';'])) ∧
    Terminated (fixupInput s) ∧
    ¬ continuation <:+: fixupInput s ∧
    fixupInput (fixupInput s) = fixupInput s := by
  have hterm : Terminated (fixupInput s) := by
    unfold fixupInput
    simp only []
    split
    · rw [← terminated_iff]; assumption
    · exact ⟨replaceContinuation s, [], by simp, by simp⟩
  have hno : ¬ continuation <:+: fixupInput s := by
    unfold fixupInput
    simp only []
    split
    · exact replaceContinuation_no_cont s
    · have := replaceContinuation_no_cont s
      rintro ⟨a, b, hab⟩
      rcases List.eq_nil_or_concat b with rfl | ⟨b', x, rfl⟩
      · have := congrArg List.getLast? hab
        simp [continuation] at this
      · rw [List.concat_eq_append, ← List.append_assoc] at hab
        have := (List.append_inj' hab (by simp)).1
        exact replaceContinuation_no_cont s ⟨a, b', this⟩
  refine ⟨exists_parts s, ?_, hterm, hno, ?_⟩
  · rintro parts h rfl
    rw [fixupInput]
    simp only [replaceContinuation_join parts h]
    rw [← terminated_iff]
    exact ⟨fun ht => by rw [if_pos ht], fun ht => by rw [if_neg ht]⟩
  · have : replaceContinuation (fixupInput s) = fixupInput s := replaceContinuation_self _ hno
    rw [fixupInput]
    simp only [this]
    rw [if_pos ((terminated_iff _).mpr hterm)]

example : fixupInput s!' "a \\\nb" = s!' "a  b;" ∧ fixupInput s!' "a ; " = s!' "a ; " := by decide

/-! ### C04 -/

/-- **C04 is false of the code**: in every two-line entry joined by a trailing backslash (with no comment
sign), comment stripping runs first and turns the line break into a space, so the backslash survives into
the text given to the parser. -/
theorem C04_negation (l₁ l₂ : Str) (h₁ : '\n' ∉ l₁) (h₂ : '\n' ∉ l₂) (hne : l₂ ≠ [])
    (c₁ : '#' ∉ l₁) (c₂ : '#' ∉ l₂) :
    fixupInput (stripComments (l₁ ++ continuation ++ l₂)) = l₁ ++ s!' "\\ " ++ l₂ ∨
    fixupInput (stripComments (l₁ ++ continuation ++ l₂)) = l₁ ++ s!' "\\ " ++ l₂ ++ [';'] := by
  have hs : SplitsInto (l₁ ++ continuation ++ l₂) [(l₁ ++ ['\\'], false)] l₂ := by
    refine ⟨by simp [termLine, continuation], ?_, h₂⟩
    intro p hp
    simp at hp; subst hp
    simp [h₁]
  have hk : ∀ l : Str, '#' ∉ l → ∀ b, stripLine b l = l := by
    intro l
    induction l with
    | nil => intros; rfl
    | cons c cs ih =>
      intro hc b
      simp only [List.mem_cons, not_or] at hc
      simp only [stripLine]
      split
      · rw [ih hc.2]
      · rw [if_neg (fun e => hc.1 e.1.symm), ih hc.2]
  have he : stripComments (l₁ ++ continuation ++ l₂) = l₁ ++ s!' "\\ " ++ l₂ := by
    rw [stripComments_eq, lines_splitsInto hs]
    simp only [textLines, hne, if_false, List.map_cons, List.map_nil, List.cons_append, List.nil_append]
    rw [hk _ (by simp [c₁]), hk _ c₂]
    simp
  rw [he, fixupInput]
  have hn : ¬ continuation <:+: l₁ ++ s!' "\\ " ++ l₂ := by
    intro hi
    have : '\n' ∈ l₁ ++ s!' "\\ " ++ l₂ := hi.subset (by simp [continuation])
    simp [h₁, h₂] at this
  simp only [replaceContinuation_self _ hn]
  split
  · left; rfl
  · right; rfl

/-- **C04, witness**: the entry `x = 1 + \⏎2` is rejected by the parser, while the same entry on one line
is fine. -/
theorem C04_negation_witness :
    parse (fixupInput (stripComments s!' "x = 1 + \\\n2")) = none ∧
    parse (fixupInput (stripComments s!' "x = 1 + 2")) =
      some [.assign (.ident s!' "x") (.bin .plus (.int 1) (.int 2))] :=
  ⟨by rfl, by rfl⟩

/-- **C04, partial**: the line editor asks for another physical line exactly when what has been typed so
far ends in a backslash. -/
theorem C04_asks_for_more_partial (typed : Str) :
    needsMoreInput typed = true ↔ ∃ body, typed = body ++ ['\\'] := by
  rw [needsMoreInput, beq_iff_eq, List.getLast?_eq_some_iff]

example : needsMoreInput s!' "x = 1 + \\" = true ∧ needsMoreInput s!' "\\ x" = false := by decide

/-- **C04, partial**: the removal step itself is right: given the raw entry (instead of the decommented
one) it leaves no trace of the continuations. Missing: the REPL gives it the decommented entry. -/
theorem C04_fixup_removes_partial (p : Str) (ps : List Str) (h : ∀ q ∈ p :: ps, ¬ continuation <:+: q) :
    ∃ tail, (tail = [] ∨ tail = [';']) ∧
      fixupInput (List.intercalate continuation (p :: ps)) = List.intercalate [' '] (p :: ps) ++ tail := by
  have := (C03_fixup (List.intercalate continuation (p :: ps))).2.1 _ h rfl
  by_cases ht : Terminated (List.intercalate [' '] (p :: ps))
  · exact ⟨[], .inl rfl, by simpa using this.1 ht⟩
  · exact ⟨[';'], .inr rfl, this.2 ht⟩

example : ∀ q ∈ [s!' "x = 1 + ", s!' "2"], ¬ continuation <:+: q := by decide

end Btrd
