/-
The exact conditions under which properties hold that the code does not always have: C02 (literals and
comments), C11 (identifiers).
-/
import Verif.Props.Source

namespace Btrd
open P Spec

/-! ### C02 -/

theorem pass_skip_head (s : Str) : ∀ q, (pass q true s).head? = none ∨ (pass q true s).head? = some ' ' := by
  induction s with
  | nil => intro q; left; rfl
  | cons c cs ih =>
    intro q
    rw [pass]
    split
    · split
      · left; rfl
      · right; rfl
    · split
      · exact ih q
      · rw [if_pos rfl]; exact ih q

/-- which texts pass unchanged -/
theorem pass_prefix_iff (w : Str) : ∀ q r, (w.getLast? = some '\r' → r.head? ≠ some '\n') →
    (w <+: pass q false (w ++ r) ↔
      '\n' ∉ w ∧ ∀ i, ¬ (w[i]? = some '#' ∧ ((w.take i).count '"' + q.toNat) % 2 = 0)) := by
  induction w with
  | nil => intro q r _; simp
  | cons c cs ih =>
    intro q r hr
    have hr' : cs.getLast? = some '\r' → r.head? ≠ some '\n' := by
      intro h; apply hr
      cases cs with
      | nil => simp at h
      | cons d ds => simpa [List.getLast?_cons_cons] using h
    have head : ∀ s : Str, s.head? = none ∨ s.head? = some ' ' → c ≠ ' ' → ¬ (c :: cs <+: s) := by
      rintro s hs hc ⟨z, rfl⟩
      rcases hs with h | h
      · simp at h
      · simp at h; exact hc h
    rw [List.cons_append, pass]
    by_cases hn : c = '\n'
    · rw [if_pos hn]
      refine ⟨fun h => absurd h (head _ ?_ (by rw [hn]; decide)), fun h => absurd (by simp [hn]) h.1⟩
      split
      · left; rfl
      · right; rfl
    · rw [if_neg hn]
      by_cases hcr : c = '\r' ∧ (cs ++ r).head? = some '\n'
      · rw [if_pos hcr]
        obtain ⟨rfl, hh⟩ := hcr
        cases cs with
        | nil => exact absurd hh (hr rfl)
        | cons d ds =>
          simp at hh
          subst hh
          refine ⟨fun h => absurd h (head _ ?_ (by decide)), fun h => absurd (by simp) h.1⟩
          rw [List.cons_append, pass, if_pos rfl]
          split
          · left; rfl
          · right; rfl
      · rw [if_neg hcr, if_neg (by simp)]
        by_cases hq : c = '"'
        · subst hq
          rw [if_pos rfl, List.cons_prefix_cons, ih _ _ hr']
          simp only [true_and, List.mem_cons, not_or]
          constructor
          · rintro ⟨h1, h2⟩
            refine ⟨⟨by decide, h1⟩, fun i => ?_⟩
            cases i with
            | zero => simp
            | succ i =>
              rintro ⟨ha, hb⟩
              refine h2 i ⟨by simpa using ha, ?_⟩
              rw [List.take_succ_cons, List.count_cons_self] at hb
              cases q <;> simp at hb ⊢ <;> omega
          · rintro ⟨h1, h2⟩
            refine ⟨h1.2, fun i => ?_⟩
            rintro ⟨ha, hb⟩
            refine h2 (i + 1) ⟨by simpa using ha, ?_⟩
            rw [List.take_succ_cons, List.count_cons_self]
            cases q <;> simp at hb ⊢ <;> omega
        · rw [if_neg hq]
          by_cases hx : c = '#' ∧ q = false
          · rw [if_pos hx]
            obtain ⟨rfl, rfl⟩ := hx
            exact ⟨fun h => absurd h (head _ (pass_skip_head _ _) (by decide)),
              fun h => absurd ⟨rfl, by simp⟩ (h.2 0)⟩
          · rw [if_neg hx, List.cons_prefix_cons, ih _ _ hr']
            simp only [true_and, List.mem_cons, not_or]
            constructor
            · rintro ⟨h1, h2⟩
              refine ⟨⟨Ne.symm hn, h1⟩, fun i => ?_⟩
              cases i with
              | zero =>
                rintro ⟨ha, hb⟩
                simp at ha hb
                apply hx
                refine ⟨ha, ?_⟩
                cases q
                · rfl
                · simp at hb
              | succ i =>
                rintro ⟨ha, hb⟩
                refine h2 i ⟨by simpa using ha, ?_⟩
                rwa [List.take_succ_cons, List.count_cons_of_ne (by simpa using hq)] at hb
            · rintro ⟨h1, h2⟩
              refine ⟨h1.2, fun i => ?_⟩
              rintro ⟨ha, hb⟩
              refine h2 (i + 1) ⟨by simpa using ha, ?_⟩
              rwa [List.take_succ_cons, List.count_cons_of_ne (by simpa using hq)]

/-- a text in which no comment begins passes unchanged -/
theorem pass_keep (w : Str) : ∀ q r, (w.getLast? = some '\r' → r.head? ≠ some '\n') → '\n' ∉ w →
    (∀ i, ¬ (w[i]? = some '#' ∧ ((w.take i).count '"' + q.toNat) % 2 = 0)) →
    pass q false (w ++ r) = w ++ pass ((w.count '"' + q.toNat) % 2 == 1) false r := by
  induction w with
  | nil => intro q r _ _ _; cases q <;> rfl
  | cons c cs ih =>
    intro q r hr hn hc
    simp only [List.mem_cons, not_or] at hn
    have hr' : cs.getLast? = some '\r' → r.head? ≠ some '\n' := by
      intro h; apply hr
      cases cs with
      | nil => simp at h
      | cons d ds => simpa [List.getLast?_cons_cons] using h
    have hcr : ¬ (c = '\r' ∧ (cs ++ r).head? = some '\n') := by
      rintro ⟨rfl, hh⟩
      cases cs with
      | nil => exact hr rfl hh
      | cons d ds => simp at hh; exact hn.2 (by simp [hh])
    rw [List.cons_append, pass, if_neg (Ne.symm hn.1), if_neg hcr, if_neg (by simp)]
    by_cases h : c = '"'
    · subst h
      rw [if_pos rfl, ih _ r hr' hn.2]
      · rw [List.count_cons_self, List.cons_append]
        congr 3
        cases q
        · simp
        · simp only [Bool.not_true, Bool.toNat_false, Bool.toNat_true, Nat.add_zero]
          rw [show List.count '"' cs + 1 + 1 = List.count '"' cs + 2 from rfl, Nat.add_mod_right]
      · rintro i ⟨h1, h2⟩
        refine hc (i + 1) ⟨by simpa using h1, ?_⟩
        rw [List.take_succ_cons, List.count_cons_self]
        cases q <;> simp at h2 ⊢ <;> omega
    · have h0 : ¬ (c = '#' ∧ q = false) := by
        rintro ⟨rfl, rfl⟩
        exact hc 0 (by simp)
      rw [if_neg h, if_neg h0, ih _ r hr' hn.2]
      · rw [List.count_cons_of_ne (by simpa using h)]; rfl
      · rintro i ⟨h1, h2⟩
        refine hc (i + 1) ⟨by simpa using h1, ?_⟩
        rwa [List.take_succ_cons, List.count_cons_of_ne (by simpa using h)]

/-- **C02, exactly**: take any text with a literal `"body"` at a place where no comment and no other literal
is open (`lines` are the lines before, `before` is the rest of its line up to the opening quote). What the
parser is given begins with what it would be given for the text up to and including the opening quote, followed by
`body` and the closing quote, if and only if `body` has no line break and every `#` in it comes after an even
number of quotes (in `body`): so exactly those literals reach the parser unchanged. -/
theorem C02_exact (lines before body after : Str) (hlines : lines = [] ∨ lines.getLast? = some '\n')
    (h1 : '\n' ∉ before) (h2 : ∀ i, ¬ CommentAt before i) (h3 : before.count '"' % 2 = 0) :
    stripComments (lines ++ before ++ ['"']) ++ body ++ ['"'] <+: stripComments (lines ++ before ++ ['"'] ++ body ++ '"' :: after) ↔
      '\n' ∉ body ∧ ∀ i, body[i]? = some '#' → (body.take i).count '"' % 2 = 0 := by
  have hopen : ∀ r, pass false false (before ++ '"' :: r) = before ++ '"' :: pass true false r := by
    intro r
    rw [pass_keep before false ('"' :: r) (by simp) h1 (by simpa [CommentAt] using h2)]
    simp [pass, h3]
  have key : ∃ z, ∀ r, pass false false (lines ++ (before ++ '"' :: r)) = z ++ (before ++ '"' :: pass true false r) := by
    rcases hlines with rfl | hl
    · exact ⟨[], fun r => by simpa using hopen r⟩
    · obtain ⟨a, rfl⟩ : ∃ a, lines = a ++ ['\n'] := by
        refine ⟨lines.dropLast, ?_⟩
        have hne : lines ≠ [] := by rintro rfl; simp at hl
        rw [List.getLast?_eq_some_getLast hne] at hl
        have := List.dropLast_concat_getLast hne
        rw [Option.some.inj hl] at this
        exact this.symm
      obtain ⟨z, hz⟩ := pass_before a false false
      refine ⟨z ++ [' '], fun r => ?_⟩
      rw [List.append_assoc, List.singleton_append, hz _ (by simp), hopen]
      simp
  obtain ⟨z, hz⟩ := key
  have e1 := hz []
  have e2 := hz (body ++ '"' :: after)
  rw [stripComments_pass, stripComments_pass]
  simp only [List.append_assoc, List.cons_append, List.nil_append] at e1 e2 ⊢
  rw [e1, e2]
  simp only [List.append_assoc, List.cons_append]
  rw [List.prefix_append_right_inj, List.prefix_append_right_inj, List.cons_prefix_cons]
  simp only [true_and, pass, List.nil_append]
  have h := pass_prefix_iff (body ++ ['"']) true after (by simp)
  simp only [List.append_assoc, List.cons_append, List.nil_append] at h
  rw [h]
  simp only [List.mem_append, List.mem_singleton, not_or, Bool.toNat_true]
  constructor
  · rintro ⟨ha, hb⟩
    refine ⟨ha.1, fun i hi => ?_⟩
    have hlt : i < body.length := by
      rcases Nat.lt_or_ge i body.length with h | h
      · exact h
      · simp [List.getElem?_eq_none h] at hi
    have := hb i
    rw [List.getElem?_append_left hlt, List.take_append_of_le_length (by omega)] at this
    have h5 : ¬ ((body.take i).count '"' + 1) % 2 = 0 := fun h => this ⟨hi, h⟩
    omega
  · rintro ⟨ha, hb⟩
    refine ⟨⟨ha, by decide⟩, fun i => ?_⟩
    rintro ⟨hi, hc⟩
    rcases Nat.lt_or_ge i body.length with h | h
    · rw [List.getElem?_append_left h] at hi
      rw [List.take_append_of_le_length (by omega)] at hc
      have := hb i hi
      omega
    · rw [List.getElem?_append_right h] at hi
      cases hk : i - body.length with
      | zero => rw [hk] at hi; simp at hi
      | succ k => rw [hk] at hi; simp at hi

/-- a literal with an escaped quote that survives: the `#` comes after two of them -/
example : stripComments s!' "x = 1; # one\nprint \"a\\\"b\\\"#c\";" = s!' "x = 1;  print \"a\\\"b\\\"#c\";" ∧
    parse s!' "print \"a\\\"b\\\"#c\";" = some [.print (.str s!' "a\"b\"#c")] := ⟨by rfl, by rfl⟩

/-! ### C11 -/

/-- statements that assign a variable an integer, in all their forms -/
theorem form_assign : ∀ {s : Stmt} {ts : List Str}, StmtFormV Parted Free s ts → ∀ x n, s = .assign (.ident x) (.int n) →
    Written (.ident x) [x] ∧ ∃ us, Free (x :: s!' "=" :: us)
  | _, _, .assign l r ts us h1 h2 hu, x, n, he => by
    simp only [Stmt.assign.injEq] at he
    obtain ⟨rfl, rfl⟩ := he
    obtain ⟨h1, h3⟩ := h1
    cases h1 with
    | ident _ hx => exact ⟨⟨.ident x hx, h3⟩, _, hu⟩
  | _, _, .semi s ts h, x, n, he => form_assign h x n he
  | _, _, .plusEq .., _, _, he | _, _, .minusEq .., _, _, he | _, _, .ite .., _, _, he
  | _, _, .iteElse .., _, _, he | _, _, .while .., _, _, he | _, _, .for .., _, _, he | _, _, .brk, _, _, he
  | _, _, .cont, _, _, he | _, _, .help, _, _, he | _, _, .quit, _, _, he | _, _, .filesystem .., _, _, he
  | _, _, .print .., _, _, he | _, _, .expr .., _, _, he => by simp at he

theorem one_stmt {v : Str → Str → Prop} {u : List Str → Prop} {s : Stmt} {ts : List Str} (h : ProgFormV v u [s] ts) : StmtFormV v u s ts := by
  generalize hp : [s] = p at h
  cases h with
  | nil => simp at hp
  | cons s' ss a b h1 h2 =>
    simp only [List.cons.injEq] at hp
    obtain ⟨rfl, rfl⟩ := hp
    cases h2
    simpa using h1

theorem not_opening_eq {ts : List Str} : ¬ Opening (s!' "=" :: ts) := by
  intro h
  generalize hp : s!' "=" :: ts = p at h
  cases h with
  | minus ts => simp at hp
  | paren e us ts h =>
    obtain ⟨h1, _⟩ := h
    cases h1
    simp at hp
  | cast c cs ts _ _ _ => simp at hp

theorem written_ident {x : Str} (hx : Name x) (h1 : ¬ s!' "true" <+: x) (h2 : ¬ s!' "false" <+: x) : Written (.ident x) [x] :=
  ⟨.ident x hx, by simp only [Ladder]; exact ⟨hx, h1, h2⟩⟩

/-- **C11, exactly**: which identifiers can be read: those that do not begin with `true` or `false`. -/
theorem C11_exact_reference (x : Str) (hx : Name x) : parse (s!' "print " ++ x ++ s!' ";") = some [.print (.ident x)] ↔
    ¬ s!' "true" <+: x ∧ ¬ s!' "false" <+: x := by
  constructor
  · intro h
    obtain ⟨ts, h1, -⟩ := C73_accepted h
    obtain ⟨us, -, h2, -⟩ := form_print (one_stmt h1) _ rfl
    have := h2.2
    simp only [Ladder] at this
    exact this.2
  · rintro ⟨h1, h2⟩
    exact C11_reference_partial hx h1 h2

/-- **C11, exactly**: which identifiers can be assigned to: those that do not begin with `true`, `false`, `help`, `quit`,
`break` or `continue`, nor with `print`, unless they are `print` itself or `print` and a number too big to be written. -/
theorem C11_exact_assign (x : Str) (hx : Name x) : parse (x ++ s!' " = 1;") = some [.assign (.ident x) (.int 1)] ↔
    (¬ s!' "true" <+: x ∧ ¬ s!' "false" <+: x) ∧
    (∀ k ∈ [s!' "help", s!' "quit", s!' "break", s!' "continue"], ¬ k <+: x) ∧
    ∀ z, x = s!' "print" ++ z → z = [] ∨ Oversized z := by
  have hfree : ∀ us, Free (x :: s!' "=" :: us) ↔ (∀ k ∈ [s!' "help", s!' "quit", s!' "break", s!' "continue"], ¬ k <+: x) ∧
      ∀ z, x = s!' "print" ++ z → z = [] ∨ Oversized z := by
    intro us
    unfold Free Taken
    constructor
    · intro h
      refine ⟨fun k hk hp => h (.inl ⟨k, hk, hp⟩), fun z hz => ?_⟩
      by_cases h0 : z = []
      · exact .inl h0
      · right
        by_cases h1 : Oversized z
        · exact h1
        · exact absurd (.inr ⟨z, hz, .inr ⟨h0, h1⟩⟩) h
    · rintro ⟨h1, h2⟩ (⟨k, hk, hp⟩ | ⟨z, hz, ⟨_, ho⟩ | ⟨h0, ho⟩⟩)
      · exact h1 k hk hp
      · exact not_opening_eq ho
      · rcases h2 z hz with h | h
        · exact h0 h
        · exact ho h
  constructor
  · intro h
    obtain ⟨ts, h1, -⟩ := (C73_exact _ _).1 h
    obtain ⟨h2, us, h3⟩ := form_assign (one_stmt h1) _ _ rfl
    have := h2.2
    simp only [Ladder] at this
    exact ⟨this.2, (hfree us).1 h3⟩
  · rintro ⟨h1, h2⟩
    refine (C73_exact _ _).2 ⟨[x, s!' "=", s!' "1", s!' ";"], ?_, ?_⟩
    · have hs : StmtFormV Parted Free (.assign (.ident x) (.int 1)) ([x] ++ s!' "=" :: ([s!' "1"] ++ [s!' ";"])) :=
        .assign _ _ _ _ (written_ident hx h1.1 h1.2)
          ⟨.int s!' "1" ⟨by simp, by simp, by simp⟩ (by decide), by simp only [Ladder]; decide⟩ ((hfree _).2 h2)
      have := ProgFormV.cons _ [] _ [] hs .nil
      simpa using this
    · have := (Loose.tok x).append (.pre (show Blank [' '] by simp [Blank]) ((Loose.tok s!' "=").append
        (.pre (show Blank [' '] by simp [Blank]) ((Loose.tok s!' "1").append (Loose.tok s!' ";")))))
      simpa using this

/-- **C11, exactly**: every identifier can be the variable of a loop, even a word of the language. -/
theorem C11_exact_loop (x : Str) (hx : Name x) :
    parse (s!' "for " ++ x ++ s!' " in y {}") = some [.for (.ident x) (.ident s!' "y") []] := by
  refine (C73_exact _ _).2 ⟨[s!' "for", x ++ [' '], s!' "in", s!' "y", s!' "{", s!' "}"], ?_, ?_⟩
  · have hs : StmtFormV Parted Free (.for (.ident x) (.ident s!' "y") [])
        (s!' "for" :: (x ++ [' ']) :: s!' "in" :: ([s!' "y"] ++ s!' "{" :: ([] ++ [s!' "}"]))) :=
      .for x _ _ _ _ _ hx ⟨' ', by simp [Blank], rfl⟩
        (written_ident ⟨'y', [], rfl, by unfold Letter; decide, by simp⟩ (by decide) (by decide)) .nil
    have := ProgFormV.cons _ [] _ [] hs .nil
    simpa using this
  · have := (Loose.tok s!' "for").append (.pre (show Blank [' '] by simp [Blank]) ((Loose.tok (x ++ [' '])).append
      ((Loose.tok s!' "in").append (.pre (show Blank [' '] by simp [Blank]) ((Loose.tok s!' "y").append
        (.pre (show Blank [' '] by simp [Blank]) ((Loose.tok s!' "{").append (Loose.tok s!' "}"))))))))
    simpa using this

/-- **C11, exactly**: every identifier can be the name of a field, even a word of the language. -/
theorem C11_exact_field (x : Str) (hx : Name x) :
    parse (s!' "print y." ++ x ++ s!' ";") = some [.print (.field (.ident s!' "y") (.ident x))] := by
  have hy := written_ident (x := s!' "y") ⟨'y', [], rfl, by unfold Letter; decide, by simp⟩ (by decide) (by decide)
  refine (C73_exact _ _).2 ⟨[s!' "print", s!' "y", '.' :: x, s!' ";"], ?_, ?_⟩
  · have hs : StmtFormV Parted Free (.print (.field (.ident s!' "y") (.ident x))) (s!' "print" :: ([s!' "y", ['.'] ++ x] ++ [s!' ";"])) :=
      .print _ _ ⟨.field _ [s!' "y"] x hy.1 hx, by simp only [Ladder]; exact ⟨by simp [level], by simpa only [Ladder] using hy.2, x, rfl, hx⟩⟩
    have := ProgFormV.cons _ [] _ [] hs .nil
    simpa using this
  · have := (Loose.tok s!' "print").append (.pre (show Blank [' '] by simp [Blank]) ((Loose.tok s!' "y").append
      ((Loose.tok ('.' :: x)).append (Loose.tok s!' ";"))))
    simpa using this

/-- identifiers in various places: `quitter` cannot be assigned to but can be a loop variable, `falsehood` cannot be read,
`print` can be assigned to, `printed` cannot -/
example : Name s!' "quitter" ∧ Name s!' "falsehood" ∧ Name s!' "printed" ∧
    parse s!' "quitter = 1;" = none ∧ parse s!' "for quitter in y {}" = some [.for (.ident s!' "quitter") (.ident s!' "y") []] ∧
    parse s!' "print falsehood;" = none ∧ parse s!' "print = 1;" = some [.assign (.ident s!' "print") (.int 1)] ∧
    parse s!' "printed = 1;" = none := by
  refine ⟨?_, ?_, ?_, rfl, rfl, rfl, rfl, rfl⟩ <;>
    exact ⟨_, _, rfl, by unfold Letter; decide, by simp [WordChar, Letter]⟩

/-- a call of `print` with two arguments, or with `structx` alone, is no statement that prints: C73 covers it -/
example : ∃ ts us, ProgFormV Parted Free [.expr (.call (.ident s!' "print") [.ident s!' "a", .ident s!' "b"])] ts ∧
    Loose ts s!' "print(a, b);" ∧
    ProgFormV Parted Free [.expr (.call (.ident s!' "print") [.ident s!' "structx"])] us ∧ Loose us s!' "print(structx);" :=
  have ⟨ts, h1, h2⟩ := (C73_exact s!' "print(a, b);" [.expr (.call (.ident s!' "print") [.ident s!' "a", .ident s!' "b"])]).1 rfl
  have ⟨us, h3, h4⟩ := (C73_exact s!' "print(structx);" [.expr (.call (.ident s!' "print") [.ident s!' "structx"])]).1 rfl
  ⟨ts, us, h1, h2, h3, h4⟩

end Btrd
