/-
C80: comments, line breaks and spacing do not matter, in scripts and at the prompt.
-/
import Verif.Lemmas.Source
import Verif.Props.Analysis
import Verif.Props.Accept

namespace Btrd
open P Spec

/-! ### comments in any text -/

theorem pass_before (pre : Str) : ∀ q cm, ∃ z, ∀ y, y ≠ [] → pass q cm (pre ++ '\n' :: y) = z ++ ' ' :: pass false false y := by
  induction pre with
  | nil => intro q cm; exact ⟨[], fun y hy => by simp [pass, hy]⟩
  | cons c cs ih =>
    intro q cm
    have hh : ∀ y z : Str, (cs ++ '\n' :: y).head? = (cs ++ '\n' :: z).head? := by
      intro y z; cases cs <;> rfl
    by_cases hn : c = '\n'
    · obtain ⟨z, hz⟩ := ih false false
      exact ⟨' ' :: z, fun y hy => by rw [List.cons_append, pass, if_pos hn, if_neg (by simp), hz y hy]; rfl⟩
    · by_cases hr : c = '\r' ∧ (cs ++ '\n' :: ['x']).head? = some '\n'
      · obtain ⟨z, hz⟩ := ih q cm
        exact ⟨z, fun y hy => by rw [List.cons_append, pass, if_neg hn, if_pos (by rw [hh y ['x']]; exact hr), hz y hy]⟩
      · by_cases hcm : cm = true
        · obtain ⟨z, hz⟩ := ih q cm
          exact ⟨z, fun y hy => by rw [List.cons_append, pass, if_neg hn, if_neg (by rw [hh y ['x']]; exact hr), if_pos hcm, hz y hy]⟩
        · by_cases hq : c = '"'
          · obtain ⟨z, hz⟩ := ih (!q) cm
            exact ⟨c :: z, fun y hy => by rw [List.cons_append, pass, if_neg hn, if_neg (by rw [hh y ['x']]; exact hr), if_neg hcm, if_pos hq, hz y hy]; rfl⟩
          · by_cases hx : c = '#' ∧ q = false
            · obtain ⟨z, hz⟩ := ih q true
              exact ⟨z, fun y hy => by rw [List.cons_append, pass, if_neg hn, if_neg (by rw [hh y ['x']]; exact hr), if_neg hcm, if_neg hq, if_pos hx, hz y hy]⟩
            · obtain ⟨z, hz⟩ := ih q cm
              exact ⟨c :: z, fun y hy => by rw [List.cons_append, pass, if_neg hn, if_neg (by rw [hh y ['x']]; exact hr), if_neg hcm, if_neg hq, if_neg hx, hz y hy]; rfl⟩

theorem pass_line {l r r' : Str} (hl : Quiet l) (hr : l.getLast? ≠ some '\r')
    (h : pass false false r = pass false false r') : pass false false (l ++ r) = pass false false (l ++ r') := by
  rw [pass_quiet r hl.1 hr (by simpa [CommentAt] using hl.2.2) (by simpa using hl.2.1),
    pass_quiet r' hl.1 hr (by simpa [CommentAt] using hl.2.2) (by simpa using hl.2.1), h]

/-- **C80** Whatever the text, a comment can be deleted up to the end of its line: the program sees the same
text. (`before` is the part of the line before the comment, `lines` the lines before that one.) -/
theorem C80_delete_comment (lines before text after : Str) (hlines : lines = [] ∨ ∃ a, lines = a ++ ['\n'])
    (hb : Quiet before) (hr : before.getLast? ≠ some '\r') (ht : '\n' ∉ text) :
    stripComments (lines ++ before ++ '#' :: text ++ '\n' :: after) = stripComments (lines ++ before ++ '\n' :: after) := by
  rw [stripComments_pass, stripComments_pass]
  have key : pass false false (before ++ ('#' :: (text ++ '\n' :: after))) = pass false false (before ++ '\n' :: after) := by
    refine pass_line hb hr ?_
    rw [pass, if_neg (by decide), if_neg (by rintro ⟨h, _⟩; exact absurd h (by decide)), if_neg (by simp), if_neg (by decide), if_pos (by simp),
      pass_skip false ht]
    simp [pass]
  rcases hlines with rfl | ⟨a, rfl⟩
  · simpa using key
  · obtain ⟨z, hz⟩ := pass_before a false false
    have h1 := hz (before ++ ('#' :: (text ++ '\n' :: after))) (by simp)
    have h2 := hz (before ++ '\n' :: after) (by simp)
    simp only [List.append_assoc, List.cons_append, List.nil_append] at h1 h2 ⊢
    rw [h1, h2, key]

/-- the same for a comment on a last line without line break, if something stands before it -/
theorem C80_delete_last_comment (lines before text : Str) (hlines : lines = [] ∨ ∃ a, lines = a ++ ['\n'])
    (hb : Quiet before) (hr : before.getLast? ≠ some '\r') (hne : before ≠ []) (ht : '\n' ∉ text) :
    stripComments (lines ++ before ++ '#' :: text) = stripComments (lines ++ before) := by
  rw [stripComments_pass, stripComments_pass]
  have key : pass false false (before ++ ('#' :: text)) = pass false false before := by
    have := pass_line (l := before) (r := '#' :: text) (r' := []) hb hr (by
      rw [pass.eq_2, if_neg (by decide), if_neg (by rintro ⟨h, _⟩; exact absurd h (by decide)), if_neg (by simp), if_neg (by decide), if_pos (by simp),
        pass_skip_all false ht, pass.eq_1])
    simpa using this
  rcases hlines with rfl | ⟨a, rfl⟩
  · simpa using key
  · obtain ⟨z, hz⟩ := pass_before a false false
    have h1 := hz (before ++ ('#' :: text)) (by simp)
    have h2 := hz before hne
    simp only [List.append_assoc, List.cons_append, List.nil_append] at h1 h2 ⊢
    rw [h1, h2, key]

/-- a comment on the second line -/
example : Quiet s!' "print \"#\"; " ∧ (s!' "print \"#\"; ").getLast? ≠ some '\r' ∧
    stripComments s!' "x = 1;\nprint \"#\"; # say \"hash\"\nquit;" = s!' "x = 1; print \"#\";  quit;" := by
  refine ⟨⟨by decide, by decide, ?_⟩, by decide, by decide⟩
  rintro i ⟨h1, h2⟩
  have : i < (s!' "print \"#\"; ").length := by
    rcases Nat.lt_or_ge i (s!' "print \"#\"; ").length with h | h
    · exact h
    · rw [List.getElem?_eq_none h] at h1; simp at h1
  revert h1 h2
  revert i
  decide

/-! ### scripts -/

/-- **C80** However the tokens of a program are laid out, with blanks, line breaks and comments before, between
and after them, the script is that program. -/
theorem C80_script_source {p : List Stmt} {ts : List Str} {s : Str} (hf : ProgFormV Bare Free p ts)
    (hq : QuietLiterals ts) (hs : LaidOut ts s) : parse (stripComments s) = some p := by
  obtain ⟨w, text, w2, hw, hw2, h1, h2, -⟩ := laidOut_spaced hs (prog_toks hf) hq
  rw [stripComments_pass, h2]
  exact C06_any_free hf h1 hw hw2

/-- **C80** So two scripts that differ only in layout and comments do the same in all respects: output,
variables, filesystem, result. -/
theorem C80_script_same {p : List Stmt} {ts : List Str} {s s' : Str} (hf : ProgFormV Bare Free p ts)
    (hq : QuietLiterals ts) (hs : LaidOut ts s) (hs' : LaidOut ts s') (cfg : Cfg) (room : Option Nat) :
    scriptRun cfg room s = scriptRun cfg room s' := by
  simp only [scriptRun, runtimeEval, C80_script_source hf hq hs, C80_script_source hf hq hs']

/-- a program, its tokens and one of its layouts -/
example : ProgFormV Bare Free [.print (.bin .plus (.ident s!' "x") (.int 1))] [s!' "print", s!' "x", s!' "+", s!' "1", s!' ";"] ∧
    QuietLiterals [s!' "print", s!' "x", s!' "+", s!' "1", s!' ";"] ∧
    LaidOut [s!' "print", s!' "x", s!' "+", s!' "1", s!' ";"] s!' "#! btrd\nprint# \"sum\n\tx+ 1 ;#end" := by
  refine ⟨?_, by
    intro t ht h
    simp only [List.mem_cons, List.not_mem_nil, or_false] at ht
    rcases ht with rfl | rfl | rfl | rfl | rfl <;> simp at h, ?_⟩
  · exact prog_free (progForm_of_text (progText_tokens [.print (.bin .plus (.ident s!' "x") (.int 1))] (by
      refine ⟨?_, trivial⟩
      refine ⟨by decide, by decide, ⟨⟨'x', [], rfl, by decide, by simp⟩, by decide, by decide⟩, by simp [Ladder]⟩)))
      (by simp [PlainProg, PlainStmt])
  · refine .token s!' "#! btrd\n" _ _ s!' "# \"sum\n\tx+ 1 ;#end" (.comment s!' "! btrd" [] (by decide) .nil) (by intro c d hc hd; cases hc; cases hd; decide) ?_
    refine .token s!' "# \"sum\n\t" _ _ s!' "+ 1 ;#end" (.comment s!' " \"sum" ['\t'] (by decide) (.blank '\t' [] (by simp [Blank]) .nil)) (by intro c d hc hd; cases hc; cases hd; decide) ?_
    refine .token [] _ _ s!' " 1 ;#end" .nil (by intro c d hc hd; cases hc; cases hd; decide) ?_
    refine .token [' '] _ _ s!' " ;#end" (.blank ' ' [] (by simp [Blank]) .nil) (by intro c d hc hd; cases hc; cases hd; decide) ?_
    refine .token [' '] _ _ s!' "#end" (.blank ' ' [] (by simp [Blank]) .nil) (by intro c d hc hd; cases hc; cases hd; decide) ?_
    exact .trailing [] s!' "end" .nil (by decide)

/-- a script without any token succeeds and does nothing -/
theorem C80_script_empty {s : Str} (hs : LaidOut [] s) (cfg : Cfg) (room : Option Nat) :
    scriptRun cfg room s = (RState.new cfg room, .ok) := by
  have h := C80_script_source (p := []) .nil (by intro t ht; simp at ht) hs
  simp only [scriptRun, runtimeEval, h]
  rfl

/-! ### the prompt -/

theorem spaced_last : ∀ {ts : List Str} {text t : Str}, Spaced ts text → ts.getLast? = some t → ∃ a, text = a ++ t := by
  intro ts text t h
  induction h with
  | nil => intro h; simp at h
  | one u => intro h; simp at h; exact ⟨[], by simp [h]⟩
  | cons u w t' ts rest _ _ _ ih =>
    intro h
    rw [List.getLast?_cons_cons] at h
    obtain ⟨a, rfl⟩ := ih h
    exact ⟨u ++ w ++ a, by simp⟩

theorem spaced_snoc : ∀ {ts : List Str} {text w t : Str}, Spaced ts text → ts ≠ [] → Blank w →
    (∀ c, t.head? = some c → ¬ WordChar c) → Spaced (ts ++ [t]) (text ++ w ++ t) := by
  intro ts text w t h
  induction h with
  | nil => intro h; exact absurd rfl h
  | one u =>
    intro _ hw ht
    refine .cons u w t [] t hw ?_ (.one t)
    rintro _ ⟨_, d, hd, hdw⟩
    exact ht d hd hdw
  | cons u w' t' ts rest h1 h2 _ ih =>
    intro _ hw ht
    have := ih (by simp) hw ht
    have h3 := Spaced.cons u w' t' (ts ++ [t]) _ h1 h2 this
    simpa using h3

theorem blank_whitespace {w : Str} (h : Blank w) : ∀ c ∈ w, isWhitespace c = true := by
  intro c hc
  rcases h c hc with rfl | rfl | rfl | rfl <;> decide

theorem not_cont_of_no_newline {x : Str} (h : '\n' ∉ x) : ¬ continuation <:+: x := by
  rintro ⟨a, b, rfl⟩
  exact h (by simp [continuation])

/-- **C80** However the tokens of an entry are laid out at the prompt, with or without the semicolon at the
end, the entry is its program. -/
theorem C80_entry_source {p : List Stmt} {ts : List Str} {s : Str} (hf : Entry p ts) (hne : ts ≠ [])
    (hq : QuietLiterals ts) (hs : LaidOut ts s) : parse (fixupInput (stripComments s)) = some p := by
  have htoks : ∀ t ∈ ts, Tok t := by
    rcases hf with ⟨_, h⟩ | ⟨_, h⟩
    · exact prog_toks h
    · exact fun t ht => prog_toks h t (by simp [ht])
  obtain ⟨w, text, w2, hw, hw2, h1, h2, -⟩ := laidOut_spaced hs htoks hq
  have hno : '\n' ∉ w ++ text ++ w2 := by
    rw [← h2, ← stripComments_pass]
    exact C01_no_newline s
  have hcont := not_cont_of_no_newline hno
  rw [stripComments_pass, h2]
  obtain ⟨t, ht⟩ : ∃ t, ts.getLast? = some t := by
    cases h : ts.getLast? with
    | none => exact absurd (List.getLast?_eq_none_iff.1 h) hne
    | some t => exact ⟨t, rfl⟩
  obtain ⟨a, ha⟩ := spaced_last h1 ht
  obtain ⟨b, c, hb, hws, hsemi⟩ := tok_last (htoks t (List.mem_of_getLast? ht))
  have htrim : trimEnd (w ++ text ++ w2) = w ++ text := by
    rw [trimEnd_append _ _ (blank_whitespace hw2), ha, hb]
    simp [trimEnd, hws]
  have hlast : (trimEnd (w ++ text ++ w2)).getLast? = some c := by
    rw [htrim, ha, hb]; simp
  simp only [fixupInput, replaceContinuation_self _ hcont, hlast]
  rcases hf with ⟨h, hf⟩ | ⟨h, hf⟩
  · rw [h] at ht
    have : t = [';'] := by simpa using ht.symm
    rw [this] at hb
    have hc : c = ';' := by
      cases b with
      | nil => simpa using hb.symm
      | cons d ds => simp at hb
    rw [if_pos (by rw [hc])]
    exact C06_any_free hf h1 hw hw2
  · have hc : c ≠ ';' := by
      intro hc
      apply h
      rw [ht, hsemi hc]
    rw [if_neg (by simpa using hc)]
    have h3 := spaced_snoc (t := s!' ";") h1 hne hw2 (by
      intro d hd
      simp at hd
      subst hd
      decide)
    have := C06_any_free hf h3 hw blank_nil
    simpa using this

/-- **C80** So two entries that differ only in layout, comments and the last semicolon do the same, in any
session. -/
theorem C80_entry_same {p : List Stmt} {ts ts' : List Str} {s s' : Str} (hf : Entry p ts) (hf' : Entry p ts') (hne : ts ≠ [])
    (hne' : ts' ≠ []) (hq : QuietLiterals ts) (hq' : QuietLiterals ts') (hs : LaidOut ts s)
    (hs' : LaidOut ts' s') (cfg : Cfg) (rs : RState) (events : List ReplEvent) :
    replRun cfg rs (.line s :: events) = replRun cfg rs (.line s' :: events) := by
  simp only [replRun, replStep, runtimeEval, C80_entry_source hf hne hq hs, C80_entry_source hf' hne' hq' hs']

/-- the same entry with and without its semicolon -/
example : Entry [.print (.int 1)] [s!' "print", s!' "1"] ∧ Entry [.print (.int 1)] [s!' "print", s!' "1", s!' ";"] := by
  have h : ProgFormV Bare Free [.print (.int 1)] [s!' "print", s!' "1", s!' ";"] :=
    prog_free (progForm_of_text (progText_tokens [.print (.int 1)] ⟨by simp [Writable, Ladder], trivial⟩))
      (by simp [PlainProg, PlainStmt])
  exact ⟨.inr ⟨by decide, h⟩, .inl ⟨by decide, h⟩⟩

theorem loose_mem {ts : List Str} {x : Str} (h : Loose ts x) : ∀ t ∈ ts, ∀ c ∈ t, c ∈ x := by
  induction h with
  | nil w hw => intro t ht; simp at ht
  | cons w t ts r hw _ ih =>
    intro u hu c hc
    simp only [List.mem_cons] at hu
    simp only [List.mem_append]
    rcases hu with rfl | hu
    · exact .inr (.inl hc)
    · exact .inr (.inr (ih u hu c hc))

theorem expr_not_semi {e : Expr} {ts : List Str} (h : ExprText e ts) (us : List Str) : ∃ t ∈ ts ++ us, t ≠ [';'] := by
  obtain ⟨t, ts', c, cs, rfl, rfl, hc⟩ := lead_head (lead h)
  refine ⟨c :: cs, by simp, ?_⟩
  rintro he
  simp at he
  rw [he.1] at hc
  exact absurd hc (by decide)

theorem stmt_not_semi : ∀ {s : Stmt} {ts : List Str}, StmtForm s ts → ∃ t ∈ ts, t ≠ [';']
  | _, _, .assign l r ts us h h' _ => expr_not_semi h.1 _
  | _, _, .plusEq l r ts us h h' _ => expr_not_semi h.1 _
  | _, _, .minusEq l r ts us h h' _ => expr_not_semi h.1 _
  | _, _, .ite c t ts tt h h' => ⟨_, List.mem_cons_self, by decide⟩
  | _, _, .iteElse c t f ts tt ft h h' h'' => ⟨_, List.mem_cons_self, by decide⟩
  | _, _, .while c b ts bt h h' => ⟨_, List.mem_cons_self, by decide⟩
  | _, _, .for x _ r b ts bt hx _ h h' => ⟨_, List.mem_cons_self, by decide⟩
  | _, _, .brk => ⟨_, List.mem_cons_self, by decide⟩
  | _, _, .cont => ⟨_, List.mem_cons_self, by decide⟩
  | _, _, .help => ⟨_, List.mem_cons_self, by decide⟩
  | _, _, .quit => ⟨_, List.mem_cons_self, by decide⟩
  | _, _, .filesystem s t h => ⟨_, List.mem_cons_self, by decide⟩
  | _, _, .print e ts h => ⟨_, List.mem_cons_self, by decide⟩
  | _, _, .expr e ts h _ => expr_not_semi h.1 _
  | _, _, .semi s ts h => by
    obtain ⟨t, ht, hne⟩ := stmt_not_semi h
    exact ⟨t, by simp [ht], hne⟩

/-- an entry of blanks -/
theorem blank_entry {x : Str} (hb : Blank x) (hno : '\n' ∉ x) : fixupInput x = x ++ [';'] ∧ parse (x ++ [';']) = none := by
  have hfix : fixupInput x = x ++ [';'] := by
    have h0 : trimEnd x = [] := by
      have := trimEnd_append [] x (blank_whitespace hb)
      simpa [trimEnd] using this
    simp only [fixupInput, replaceContinuation_self _ (not_cont_of_no_newline hno), h0]
    simp
  have hparse : parse (x ++ [';']) = none := by
    cases h : parse (x ++ [';']) with
    | none => rfl
    | some p =>
      exfalso
      obtain ⟨ts, hf, hl⟩ := C73_accepted h
      cases hf with
      | nil =>
        cases hl with
        | nil w hw => exact absurd (hw ';' (by simp)) (by decide)
      | cons s ss a b h1 h2 =>
        obtain ⟨t, ht, hne⟩ := stmt_not_semi h1
        obtain ⟨d, c, hd, hc, hs⟩ := tok_last (stmt_toks h1 t ht)
        have hm := loose_mem hl t (by simp [ht]) c (by simp [hd])
        rw [List.mem_append] at hm
        rcases hm with hm | hm
        · rw [blank_whitespace hb c hm] at hc
          simp at hc
        · exact hne (hs (by simpa using hm))
  exact ⟨hfix, hparse⟩

/-- **C80** An entry without any token, such as an empty line or a comment, is answered with an error (the added
semicolon is not a program), but it changes nothing. -/
theorem C80_entry_empty {s : Str} (hs : LaidOut [] s) (cfg : Cfg) (rs : RState) :
    (runtimeEval cfg rs (fixupInput (stripComments s))).2 = .fail (.err (parseError (fixupInput (stripComments s)))) ∧
    ∀ events, replRun cfg rs (.line s :: events) = replRun cfg rs events := by
  have hb : Blank (stripComments s) := by
    rw [stripComments_pass]
    cases hs with
    | done g hg => exact pass_last hg
    | trailing g text hg ht => exact pass_trailing hg ht
  have hno := C01_no_newline s
  simp only [replRun, replStep]
  generalize stripComments s = x at hb hno
  obtain ⟨hfix, hparse⟩ := blank_entry hb hno
  rw [hfix]
  refine ⟨by simp only [runtimeEval, hparse], fun events => ?_⟩
  simp only [runtimeEval, hparse]

end Btrd
