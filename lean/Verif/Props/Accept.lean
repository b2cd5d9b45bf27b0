/-
C73: what the parser accepts, C74: reprinting accepted programs, C09: exactly which string literals there are.
-/
import Verif.Lemmas.AcceptStmt

namespace Btrd
open P Spec

/-! ### soundness (C73) -/

/-- C73. Every accepted text is its program in writing: the tokens of the program, in order and complete,
with nothing else in the text but blanks, and every expression respects the precedence ladder. -/
theorem C73_accepted {s : Str} {p : List Stmt} (h : parse s = some p) : ∃ ts, ProgForm p ts ∧ Loose ts s := by
  obtain ⟨ts, h1, h2⟩ := parse_sound h
  obtain ⟨us, h3, h4⟩ := prog_bare h2 s h1
  exact ⟨us, prog_mono (fun _ _ => trivial) h3, h4⟩

/-- C73. Exactly which texts are read as which program: the tokens of the program in order, with any blanks (or
none) before, between and after them, except that a blank must follow the variable of a `for`, and that no
statement that begins with an expression may be taken for another one. -/
theorem C73_exact (s : Str) (p : List Stmt) : parse s = some p ↔ ∃ ts, ProgFormV Parted Free p ts ∧ Loose ts s := by
  constructor
  · intro h
    obtain ⟨ts, h1, h2⟩ := parse_sound h
    exact ⟨ts, h2, h1⟩
  · rintro ⟨ts, h1, h2⟩
    exact parse_loose h1 h2

/-- C73. Where statements begin plainly, none is taken for another one. -/
theorem C73_exact_plain (s : Str) (p : List Stmt) (hp : PlainProg p) :
    parse s = some p ↔ ∃ ts, ProgFormV Parted Anything p ts ∧ Loose ts s := by
  rw [C73_exact]
  constructor
  · rintro ⟨ts, h1, h2⟩
    exact ⟨ts, prog_mono (fun _ _ => trivial) h1, h2⟩
  · rintro ⟨ts, h1, h2⟩
    exact ⟨ts, prog_free h1 hp, h2⟩

/-- C73. A text is the writing of at most one program, however tightly it is set. -/
theorem C73_unambiguous {s : Str} {p q : List Stmt} {ts us : List Str}
    (h1 : ProgFormV Parted Free p ts) (h2 : Loose ts s) (h3 : ProgFormV Parted Free q us) (h4 : Loose us s) : p = q := by
  have e1 := (C73_exact s p).2 ⟨ts, h1, h2⟩
  have e2 := (C73_exact s q).2 ⟨us, h3, h4⟩
  rw [e1] at e2
  simpa using e2

/-- C73. A text is rejected exactly if it is no program in writing. -/
theorem C73_rejected (s : Str) : parse s = none ↔ ∀ p ts, ProgFormV Parted Free p ts → ¬ Loose ts s := by
  constructor
  · intro h p ts h1 h2
    rw [(C73_exact s p).2 ⟨ts, h1, h2⟩] at h
    exact absurd h (by simp)
  · intro h
    cases hp : parse s with
    | none => rfl
    | some p =>
      obtain ⟨ts, h1, h2⟩ := (C73_exact s p).1 hp
      exact absurd h2 (h p ts h1)

theorem loose_flatten : ∀ ts : List Str, Loose ts ts.flatten
  | [] => .empty
  | t :: ts => by
    have := (Loose.tok t).append (loose_flatten ts)
    simpa using this

/-- C73. No blanks are needed but those after loop variables: keywords and what follows them may be glued together. -/
theorem C73_tight {p : List Stmt} {ts : List Str} (h : ProgFormV Parted Free p ts) : parse ts.flatten = some p :=
  (C73_exact _ p).2 ⟨ts, h, loose_flatten ts⟩

/-- the characters of loosely spaced tokens -/
theorem loose_chars {ts : List Str} {x : Str} (h : Loose ts x) : ∀ c ∈ x, isSpaceChar c = true ∨ ∃ t ∈ ts, c ∈ t := by
  induction h with
  | nil w hw => intro c hc; exact .inl ((isSpaceChar_iff c).2 (hw c hc))
  | cons w t ts r hw _ ih =>
    intro c hc
    simp only [List.mem_append] at hc
    rcases hc with hc | hc | hc
    · exact .inl ((isSpaceChar_iff c).2 (hw c hc))
    · exact .inr ⟨t, by simp, hc⟩
    · rcases ih c hc with h | ⟨t', h1, h2⟩
      · exact .inl h
      · exact .inr ⟨t', by simp [h1], h2⟩

/-! ### reprinting (C74) -/

mutual
/-- the same statement with its literals in the short spelling -/
theorem text_of_form : ∀ {s : Stmt} {ts : List Str}, StmtForm s ts → PlainStmt s → ∃ us, StmtText s us
  | _, _, .assign l r _ _ h1 h2 _, hp => by simp only [PlainStmt] at hp; exact ⟨_, .assign l r h1.2 h2.2 hp⟩
  | _, _, .plusEq l r _ _ h1 h2 _, hp => by simp only [PlainStmt] at hp; exact ⟨_, .plusEq l r h1.2 h2.2 hp⟩
  | _, _, .minusEq l r _ _ h1 h2 _, hp => by simp only [PlainStmt] at hp; exact ⟨_, .minusEq l r h1.2 h2.2 hp⟩
  | _, _, .ite c t _ tt h1 h2, hp => by
    simp only [PlainStmt] at hp
    obtain ⟨us, hu⟩ := progText_of_form h2 hp.1
    exact ⟨_, .ite c t us h1.2 hu⟩
  | _, _, .iteElse c t f _ tt ft h1 h2 h3, hp => by
    simp only [PlainStmt] at hp
    obtain ⟨us, hu⟩ := progText_of_form h2 hp.1
    obtain ⟨vs, hv⟩ := progText_of_form h3 hp.2
    exact ⟨_, .iteElse c t f us vs h1.2 hu hv⟩
  | _, _, .while c b _ bt h1 h2, hp => by
    simp only [PlainStmt] at hp
    obtain ⟨us, hu⟩ := progText_of_form h2 hp
    exact ⟨_, .while c b us h1.2 hu⟩
  | _, _, .for x _ r b _ bt hx _ h1 h2, hp => by
    simp only [PlainStmt] at hp
    obtain ⟨us, hu⟩ := progText_of_form h2 hp
    exact ⟨_, .for x r b us hx h1.2 hu⟩
  | _, _, .brk, _ => ⟨_, .brk⟩
  | _, _, .cont, _ => ⟨_, .cont⟩
  | _, _, .help, _ => ⟨_, .help⟩
  | _, _, .quit, _ => ⟨_, .quit⟩
  | _, _, .filesystem s t _, _ => ⟨_, .filesystem s⟩
  | _, _, .print e _ h, _ => ⟨_, .print e h.2⟩
  | _, _, .expr e _ h _, hp => by simp only [PlainStmt] at hp; exact ⟨_, .expr e h.2 hp⟩
  | _, _, .semi s ts h, hp => text_of_form h hp
theorem progText_of_form : ∀ {p : List Stmt} {ts : List Str}, ProgForm p ts → PlainProg p → ∃ us, ProgText p us
  | _, _, .nil, _ => ⟨_, .nil⟩
  | _, _, .cons s ss a b h1 h2, hp => by
    simp only [PlainProg] at hp
    obtain ⟨us, hu⟩ := text_of_form h1 hp.1
    obtain ⟨vs, hv⟩ := progText_of_form h2 hp.2
    exact ⟨_, .cons s ss us vs hu hv⟩
end

/-- C74. Every accepted program whose statements begin plainly has a canonical text (short literals, one
blank between tokens, on one line) that is accepted and gives the same program. -/
theorem C74_reprint {s : Str} {p : List Stmt} (h : parse s = some p) (hp : PlainProg p) :
    ∃ ts, ProgText p ts ∧ parse (oneLine ts) = some p := by
  obtain ⟨ts, h1, -⟩ := C73_accepted h
  obtain ⟨us, hu⟩ := progText_of_form h1 hp
  refine ⟨us, hu, ?_⟩
  have := C06_round_trip hu (spaced_oneLine us) blank_nil blank_nil
  simpa using this

/-- the statement that prints an expression, in all its forms -/
theorem form_print : ∀ {s : Stmt} {ts : List Str}, StmtForm s ts → ∀ e, s = .print e →
    ∃ us n, Written e us ∧ ts = s!' "print" :: (us ++ List.replicate (n + 1) s!' ";")
  | _, _, .print e us h, e', he => by
    simp only [Stmt.print.injEq] at he
    subst he
    exact ⟨us, 0, h, rfl⟩
  | _, _, .semi s ts h, e, he => by
    obtain ⟨us, n, h1, rfl⟩ := form_print h e he
    refine ⟨us, n + 1, h1, ?_⟩
    rw [List.replicate_succ' (n := n + 1)]
    simp
  | _, _, .assign .., _, he | _, _, .plusEq .., _, he | _, _, .minusEq .., _, he | _, _, .ite .., _, he
  | _, _, .iteElse .., _, he | _, _, .while .., _, he | _, _, .for .., _, he | _, _, .brk, _, he | _, _, .cont, _, he
  | _, _, .help, _, he | _, _, .quit, _, he | _, _, .filesystem .., _, he | _, _, .expr .., _, he => by simp at he

/-- what prints an expression -/
theorem accepted_print {s : Str} {e : Expr} (h : parse s = some [.print e]) :
    ∃ us n, Written e us ∧ Loose (s!' "print" :: (us ++ List.replicate (n + 1) s!' ";")) s := by
  obtain ⟨ts, h1, h2⟩ := C73_accepted h
  cases h1 with
  | cons _ _ a b h3 h4 =>
    cases h4
    obtain ⟨us, n, h5, rfl⟩ := form_print h3 e rfl
    rw [List.append_nil] at h2
    exact ⟨us, n, h5, h2⟩

/-- C74. The expression of any accepted `print` can be printed and read back: the parser yields exactly the
trees of the ladder. -/
theorem C74_expressions (e : Expr) : (∃ s, parse s = some [.print e]) ↔ Ladder e := by
  constructor
  · rintro ⟨s, h⟩
    obtain ⟨us, n, h1, -⟩ := accepted_print h
    exact h1.2
  · intro h
    exact ⟨_, C05_round_trip h⟩

/-! ### string literals (C09) -/

/-- C09. Exactly the bodies of `Body` can stand between quotes, and they denote what it says. -/
theorem C09_exact (s t : Str) : parse (s!' "print \"" ++ t ++ s!' "\";") = some [.print (.str s)] ↔ Body s t := by
  constructor
  · intro h
    obtain ⟨us, n, h1, h2⟩ := accepted_print h
    have h1 := h1.1
    cases h1 with
    | str _ lit hl =>
      obtain ⟨b, hb, rfl⟩ := hl
      generalize hx : s!' "print \"" ++ t ++ s!' "\";" = x at h2
      cases h2 with
      | cons w _ _ r hw hr =>
        have hw0 : w = [] := by
          cases w with
          | nil => rfl
          | cons c w =>
            exfalso
            simp only [List.cons_append, List.cons.injEq] at hx
            have := hw c (by simp)
            rw [← hx.1] at this
            revert this; decide
        subst hw0
        simp only [List.cons_append, List.nil_append, List.cons.injEq, true_and] at hx
        cases hr with
        | cons w2 _ _ r2 hw2 hr2 =>
          cases w2 with
          | nil => simp at hx
          | cons c w2 =>
            simp only [List.cons_append, List.cons.injEq] at hx
            obtain ⟨-, hx⟩ := hx
            cases w2 with
            | cons d w2 =>
              exfalso
              simp only [List.cons_append, List.cons.injEq] at hx
              have := hw2 d (by simp)
              rw [← hx.1] at this
              revert this; decide
            | nil =>
              simp only [List.nil_append, List.cons_append, List.cons.injEq, true_and, List.append_assoc] at hx
              have hq : '"' ∉ r2 := by
                intro hm
                rcases loose_chars hr2 _ hm with h | ⟨t', h1, h2⟩
                · revert h; decide
                · rw [List.eq_of_mem_replicate h1] at h2
                  revert h2; decide
              rcases List.append_eq_append_iff.1 hx with ⟨a, h1, h2⟩ | ⟨a, h1, h2⟩
              · cases a with
                | nil => rw [h1, List.append_nil] at hb; exact hb
                | cons d a =>
                  exfalso
                  simp only [List.cons_append, List.cons.injEq] at h2
                  obtain ⟨-, h2⟩ := h2
                  cases a with
                  | nil => simp at h2
                  | cons d2 a =>
                    have := congrArg List.length h2
                    simp at this
              · cases a with
                | nil => rw [← h1.trans (List.append_nil _)] at hb; exact hb
                | cons d a =>
                  exfalso
                  simp only [List.cons_append, List.cons.injEq] at h2
                  apply hq
                  rw [h2.2]; simp
  · intro hb
    have hbl : Blank [' '] := by
      intro c hc
      simp only [List.mem_cons, List.not_mem_nil, or_false] at hc
      exact .inl hc
    have hl := stringLit_literal (s := s) (t := '"' :: (t ++ ['"'])) ⟨t, hb, rfl⟩ s!' ";"
    have h1 : primaryExpr expr ('"' :: (t ++ ['"']) ++ s!' ";") = some (.str s, s!' ";") := by
      have hc : constant ('"' :: (t ++ ['"']) ++ s!' ";") = none := rfl
      have hi : ident ('"' :: (t ++ ['"']) ++ s!' ";") = none := rfl
      simp only [primaryExpr, alt, hc, hi, string, map, hl]
    have h2 := parse_print (s := '"' :: (t ++ ['"'])) (e := .str s) ?_
    · simpa using h2
    · have := expr_of_primary hbl h1 rfl (noHead_cons.2 (by decide)) (closed_semi blank_nil)
      simpa using this

/-- C09. The denoted text is determined by the body. -/
theorem C09_body_unique {s s' t : Str} (h : Body s t) (h' : Body s' t) : s = s' := by
  have e1 := (C09_exact s t).2 h
  have e2 := (C09_exact s' t).2 h'
  rw [e1] at e2
  simpa using e2

/-! ### concrete cases -/

/-- keywords glued to what follows them: a program and its tokens -/
example : ∃ p ts, ProgFormV Parted Free p ts ∧ p.length = 2 ∧ ts.flatten = s!' "forx inxs{if(x){printx;}}while1{break;}" ∧
    parse s!' "forx inxs{if(x){printx;}}while1{break;}" = some p := by
  have hx : Name s!' "x" := ⟨'x', [], rfl, by unfold Letter; decide, by simp⟩
  have hxs : Name s!' "xs" := ⟨'x', ['s'], rfl, by unfold Letter; decide, by simp; unfold WordChar Letter; decide⟩
  have wx : Written (.ident s!' "x") [s!' "x"] := ⟨.ident _ hx, by simp only [Ladder]; exact ⟨hx, by decide, by decide⟩⟩
  have wxs : Written (.ident s!' "xs") [s!' "xs"] := ⟨.ident _ hxs, by simp only [Ladder]; exact ⟨hxs, by decide, by decide⟩⟩
  have wp : Written (.paren (.ident s!' "x")) [s!' "(", s!' "x", s!' ")"] :=
    ⟨.paren _ _ wx.1, by simp only [Ladder]; exact ⟨⟨hx, by decide, by decide⟩, by simp⟩⟩
  have w1 : Written (.int 1) [s!' "1"] :=
    ⟨.int s!' "1" ⟨by simp, by simp, by simp⟩ (by decide), by simp only [Ladder]; decide⟩
  have h : ProgFormV Parted Free [.for (.ident s!' "x") (.ident s!' "xs") [.ite (.paren (.ident s!' "x")) [.print (.ident s!' "x")] []],
      .while (.int 1) [.brk]] _ :=
    .cons _ _ _ _ (.for _ (s!' "x" ++ [' ']) _ _ _ _ hx ⟨' ', by simp [Blank], rfl⟩ wxs
      (.cons _ _ _ _ (.ite _ _ _ _ wp (.cons _ _ _ _ (.print _ _ wx) .nil)) .nil))
      (.cons _ _ _ _ (.while _ _ _ _ w1 (.cons _ _ _ _ .brk .nil)) .nil)
  exact ⟨_, _, h, rfl, rfl, C73_tight h⟩

set_option maxRecDepth 100000 in
/-- no blanks where words would seem to need them, a compound assignment, and a literal with an escape -/
theorem accepted_sample : parse s!' "x+=1<<2;if!x{print\"a\\u0041\";}else{print=-y.z;};" =
    some [.assign (.ident s!' "x") (.bin .plus (.ident s!' "x") (.bin .shl (.int 1) (.int 2))),
      .ite (.un .not (.ident s!' "x")) [.print (.str s!' "aA")]
        [.assign (.ident s!' "print") (.un .minus (.field (.ident s!' "y") (.ident s!' "z")))]] := rfl

/-- C73 applies to it -/
example : ∃ p ts, ProgForm p ts ∧ p ≠ [] ∧ Loose ts s!' "x+=1<<2;if!x{print\"a\\u0041\";}else{print=-y.z;};" :=
  have ⟨ts, h1, h2⟩ := C73_accepted accepted_sample
  ⟨_, ts, h1, by simp, h2⟩

set_option maxRecDepth 100000 in
/-- a program whose compound assignment is no tree of the ladder is reprinted all the same -/
example : ∃ ts, ProgText [.assign (.ident s!' "x") (.bin .plus (.ident s!' "x") (.bin .shl (.int 1) (.int 2)))] ts ∧
    parse (oneLine ts) = some [.assign (.ident s!' "x") (.bin .plus (.ident s!' "x") (.bin .shl (.int 1) (.int 2)))] := by
  refine C74_reprint (s := s!' "x+=1<<2;") rfl ?_
  simp only [PlainProg, PlainStmt, and_true]
  exact plain_ident (by decide)

/-- an unpaired surrogate denotes U+FFFD, here between two characters -/
example : Body ['a', Char.ofNat 0xFFFD, 'b'] s!' "a\\ud800b" := by
  refine .raw 'a' _ _ (by decide) (by decide) ?_
  refine .units [0xd800] [s!' "\\ud800"] [Char.ofNat 0xFFFD] ['b'] ['b'] (by simp) ?_ ?_ ?_ ?_
  · refine .cons ?_ .nil
    exact ⟨13, 8, 0, 0, 'd', '8', '0', '0', by unfold HexDigit; decide, by unfold HexDigit; decide, by unfold HexDigit; decide,
      by unfold HexDigit; decide, by decide, rfl⟩
  · exact .high _ [] [] (by decide) (by decide) (by simp) .nil
  · rintro u x r ⟨_, _, _, _, _, _, _, _, _, _, _, _, _, rfl⟩
    simp
  · exact .raw 'b' _ _ (by decide) (by decide) .nil

set_option maxRecDepth 100000 in
/-- an unknown escape makes no literal -/
example (s : Str) : ¬ Body s s!' "\\q" := by
  rw [← C09_exact]
  have : parse (s!' "print \"" ++ s!' "\\q" ++ s!' "\";") = none := rfl
  rw [this]; simp

end Btrd
