/-
Soundness of the parser for statements and programs.
-/
import Verif.Lemmas.Accept

namespace Btrd
open P Spec

/-- a statement was read from a text -/
def GotS (s : Stmt) (x : Str) : Prop := ∃ ts, Loose ts x ∧ StmtFormV Parted Free s ts

/-- soundness of the rule for programs on one text -/
def ProgSound (s : Str) : Prop := ∀ p s', stmts s = some (p, s') → ∃ x ts, s = x ++ s' ∧ Loose ts x ∧ ProgFormV Parted Free p ts

/-- an assignment was read from a text, up to its semicolon -/
theorem assign_sound {s s' : Str} {a : Stmt} (h : assignStmt s = some (a, s')) :
    ∃ x ts e us vs, s = x ++ s' ∧ Loose ts x ∧ ts ++ [s!' ";"] = us ++ vs ∧ Written e us ∧ Tail vs ∧
      (Free (ts ++ [s!' ";"]) → StmtFormV Parted Free a (ts ++ [s!' ";"])) := by
  have core : ∀ {γ : Type} {q : P γ} {t : Str} {r : Expr × Expr}, (∀ s u s', q s = some (u, s') → s = t ++ s') →
      seq (seqL (seqL expr space) q) expr s = some (r, s') →
      ∃ x ts us, s = x ++ s' ∧ Loose (ts ++ t :: us) x ∧ Written r.1 ts ∧ Written r.2 us := by
    rintro γ q t ⟨l, r⟩ hq h
    obtain ⟨s1, h1, h2⟩ := seq_some h
    obtain ⟨_, s2, h3, h4⟩ := seqL_some h1
    obtain ⟨_, s3, h5, h6⟩ := seqL_some h3
    obtain ⟨x, ts, rfl, g1, g2⟩ := expr_sound h5
    obtain ⟨w, hw, rfl, -⟩ := space_stops h6
    have e4 := hq _ _ _ h4
    subst e4
    obtain ⟨y, us, rfl, g3, g4⟩ := expr_sound h2
    exact ⟨x ++ (w ++ (t ++ y)), ts, us, by simp, g1.append (.pre hw ((Loose.tok t).append g3)), g2, g4⟩
  simp only [assignStmt] at h
  rcases alt_some h with h1 | ⟨-, h1⟩
  · obtain ⟨r, h2, rfl⟩ := map_some h1
    obtain ⟨x, ts, us, rfl, hL, h3, h4⟩ := core (fun _ _ _ h => tag_inv _ _ _ _ h) h2
    refine ⟨x, _, r.1, ts, s!' "+=" :: (us ++ [s!' ";"]), rfl, hL, by simp, h3, .dead '+' ['='] _ (by decide) (by decide), fun hf => ?_⟩
    rw [List.append_assoc, List.cons_append] at hf ⊢
    exact .plusEq _ _ _ _ h3 h4 hf
  rcases alt_some h1 with h1 | ⟨-, h1⟩
  · obtain ⟨r, h2, rfl⟩ := map_some h1
    obtain ⟨x, ts, us, rfl, hL, h3, h4⟩ := core (fun _ _ _ h => tag_inv _ _ _ _ h) h2
    refine ⟨x, _, r.1, ts, s!' "-=" :: (us ++ [s!' ";"]), rfl, hL, by simp, h3, .minusEq _, fun hf => ?_⟩
    rw [List.append_assoc, List.cons_append] at hf ⊢
    exact .minusEq _ _ _ _ h3 h4 hf
  · obtain ⟨r, h2, rfl⟩ := map_some h1
    obtain ⟨x, ts, us, rfl, hL, h3, h4⟩ := core (t := s!' "=") (fun _ _ _ h => sym_inv h) h2
    refine ⟨x, _, r.1, ts, s!' "=" :: (us ++ [s!' ";"]), rfl, hL, by simp, h3, .dead '=' [] _ (by decide) (by decide), fun hf => ?_⟩
    rw [List.append_assoc, List.cons_append] at hf ⊢
    exact .assign _ _ _ _ h3 h4 hf

theorem builtin_sound {s s' : Str} {a : Stmt} (h : builtinStmt s = some (a, s')) :
    ∃ x ts, s = x ++ s' ∧ Loose ts x ∧ StmtFormV Parted Free a (ts ++ [s!' ";"]) := by
  simp only [builtinStmt] at h
  rcases alt_some h with h1 | ⟨-, h1⟩
  · obtain ⟨r, h2, rfl⟩ := map_some h1
    obtain ⟨_, s1, h3, h4⟩ := seqR_some h2
    obtain ⟨_, s2, h5, h6⟩ := seqR_some h3
    have e5 := tag_inv _ _ _ _ h5
    obtain ⟨w, hw, rfl, -⟩ := space_stops h6
    obtain ⟨b, t, rfl, hl, rfl⟩ := string_inv h4
    exact ⟨s!' "filesystem" ++ (w ++ t), [s!' "filesystem", t], by rw [e5]; simp,
      (Loose.tok s!' "filesystem").append (.pre hw (.tok t)), .filesystem b t hl⟩
  rcases alt_some h1 with h1 | ⟨-, h1⟩
  · obtain ⟨_, s1, h3, h4⟩ := seqR_some h1
    have e3 := tag_inv _ _ _ _ h3
    obtain ⟨e, h5, rfl⟩ := map_some h4
    obtain ⟨x, ts, rfl, g1, g2⟩ := expr_sound h5
    exact ⟨s!' "print" ++ x, s!' "print" :: ts, by rw [e3]; simp, (Loose.tok s!' "print").append g1, .print e ts g2⟩
  rcases alt_some h1 with h1 | ⟨-, h1⟩
  · obtain ⟨_, h2, rfl⟩ := map_some h1
    exact ⟨_, [s!' "help"], tag_inv _ _ _ _ h2, .tok _, .help⟩
  · obtain ⟨_, h2, rfl⟩ := map_some h1
    exact ⟨_, [s!' "quit"], tag_inv _ _ _ _ h2, .tok _, .quit⟩

/-- a statement that begins with an expression and was not claimed by the rules before -/
theorem claimed_free {s s' x w : Str} {ts us vs : List Str} {e : Expr} (hs : NoHead isSpaceChar s) (hw : Blank w)
    (e1 : s = x ++ (w ++ ';' :: s')) (hL : Loose ts x) (h1 : builtinStmt s = none) (h2 : jumpStmt s = none)
    (hts : ts ++ [s!' ";"] = us ++ vs) (he : Written e us) (ht : Tail vs) : Free (ts ++ [s!' ";"]) := by
  have hL2 : Loose (ts ++ [s!' ";"]) (x ++ (w ++ [';'])) := hL.append (.pre hw (.tok _))
  obtain ⟨w1, text, w2, hw1, hw2, hp, hx⟩ := hL2.packed
  have e2 : s = w1 ++ (text ++ (w2 ++ s')) := by
    rw [e1]
    have : x ++ (w ++ ';' :: s') = (x ++ (w ++ [';'])) ++ s' := by simp
    rw [this, hx]; simp
  have hw1' : w1 = [] := by
    cases w1 with
    | nil => rfl
    | cons c w1 =>
      rw [e2] at hs
      have hc := (isSpaceChar_iff c).2 (hw1 c (by simp))
      rw [List.cons_append] at hs
      rw [noHead_cons.1 hs] at hc
      exact absurd hc (by decide)
  subst hw1'
  rw [List.nil_append] at e2
  rw [e2] at h1 h2
  rw [hts] at hp ⊢
  exact (expr_claims he.1 he.2 ht hp _).1 ⟨h1, h2⟩

theorem semicolon_sound {s s' : Str} {a : Stmt} (hs : NoHead isSpaceChar s) (h : stmtSemicolon s = some (a, s')) :
    ∃ x, s = x ++ s' ∧ GotS a x := by
  obtain ⟨_, s1, h1, h2⟩ := seqL_some h
  obtain ⟨_, s2, h3, h4⟩ := seqL_some h1
  have e2 := sym_inv h2
  subst e2
  obtain ⟨w, hw, rfl, -⟩ := space_stops h4
  have key : ∃ x ts, s = x ++ (w ++ ';' :: s') ∧ Loose ts x ∧ StmtFormV Parted Free a (ts ++ [s!' ";"]) := by
    rcases alt_some h3 with h5 | ⟨hb, h5⟩
    · exact builtin_sound h5
    rcases alt_some h5 with h5 | ⟨hj, h5⟩
    · simp only [jumpStmt] at h5
      rcases alt_some h5 with h6 | ⟨-, h6⟩
      · obtain ⟨_, h7, rfl⟩ := map_some h6
        exact ⟨_, [s!' "break"], tag_inv _ _ _ _ h7, .tok _, .brk⟩
      · obtain ⟨_, h7, rfl⟩ := map_some h6
        exact ⟨_, [s!' "continue"], tag_inv _ _ _ _ h7, .tok _, .cont⟩
    rcases alt_some h5 with h5 | ⟨-, h5⟩
    · obtain ⟨x, ts, e, us, vs, e1, hL, hts, he, ht, hF⟩ := assign_sound h5
      exact ⟨x, ts, e1, hL, hF (claimed_free hs hw e1 hL hb hj hts he ht)⟩
    · obtain ⟨e, h6, rfl⟩ := map_some h5
      obtain ⟨x, ts, e1, g1, g2⟩ := expr_sound h6
      exact ⟨x, ts, e1, g1, .expr e ts g2 (claimed_free hs hw e1 g1 hb hj rfl g2 (.dead ';' [] _ (by decide) (by decide)))⟩
  obtain ⟨x, ts, rfl, hL, hF⟩ := key
  exact ⟨x ++ (w ++ s!' ";"), by simp, _, hL.append (.pre hw (.tok _)), hF⟩

/-- a block: braces around a program -/
theorem braces_sound {s1 s2 s3 s4 : Str} {p : List Stmt} {u : Unit} {c : Char} (hsub : ProgSound s1)
    (h1 : stmts s1 = some (p, s2)) (h2 : space s2 = some (u, s3)) (h3 : sym '}' s3 = some (c, s4)) :
    ∃ x ts, s1 = x ++ s4 ∧ Loose (ts ++ [s!' "}"]) x ∧ ProgFormV Parted Free p ts := by
  obtain ⟨x, ts, rfl, g1, g2⟩ := hsub _ _ h1
  obtain ⟨w, hw, rfl, -⟩ := space_stops h2
  have e3 := sym_inv h3
  subst e3
  exact ⟨x ++ (w ++ s!' "}"), ts, by simp, g1.append (.pre hw (.tok _)), g2⟩

theorem ifElse_sound {s s' : Str} {a : Stmt} (hsub : ∀ s1, s1.length < s.length → ProgSound s1)
    (h : ifElseStmt stmts s = some (a, s')) : ∃ x, s = x ++ s' ∧ GotS a x := by
  obtain ⟨⟨⟨c, t⟩, f⟩, h1, rfl⟩ := map_some h
  obtain ⟨s1, h2, h3⟩ := seq_some h1
  obtain ⟨_, s2, h4, h5⟩ := seqL_some h2
  obtain ⟨_, s3, h6, h7⟩ := seqL_some h4
  obtain ⟨s4, h8, h9⟩ := seq_some h6
  obtain ⟨_, s5, h10, h11⟩ := seqL_some h8
  obtain ⟨_, s6, h12, h13⟩ := seqL_some h10
  obtain ⟨_, s7, h14, h15⟩ := seqR_some h12
  have e14 := tag_inv _ _ _ _ h14
  subst e14
  obtain ⟨x, ts, rfl, g1, g2⟩ := expr_sound h15
  obtain ⟨w, hw, rfl, -⟩ := space_stops h13
  have e11 := sym_inv h11
  subst e11
  obtain ⟨y, us, rfl, g3, g4⟩ := braces_sound (hsub s4 (by simp; omega)) h9 h7 h5
  rcases opt_some h3 with ⟨f', hf', h16⟩ | ⟨hf', -, rfl⟩
  · simp only at hf'
    subst hf'
    obtain ⟨_, a1, i1, i2⟩ := seqL_some h16
    obtain ⟨_, a2, i3, i4⟩ := seqL_some i1
    obtain ⟨_, a3, i5, i6⟩ := seqR_some i3
    obtain ⟨_, a4, i7, i8⟩ := seqR_some i5
    obtain ⟨_, a5, i9, i10⟩ := seqR_some i7
    obtain ⟨_, a6, i11, i12⟩ := seqR_some i9
    obtain ⟨w1, hw1, rfl, -⟩ := space_stops i11
    have e12 := tag_inv _ _ _ _ i12
    subst e12
    obtain ⟨w2, hw2, rfl, -⟩ := space_stops i10
    have e8 := sym_inv i8
    subst e8
    obtain ⟨z, vs, rfl, g5, g6⟩ := braces_sound (hsub a3 (by simp; omega)) i6 i4 i2
    refine ⟨s!' "if" ++ (x ++ (w ++ (s!' "{" ++ (y ++ (w1 ++ (s!' "else" ++ (w2 ++ (s!' "{" ++ z)))))))), by simp, _, ?_,
      .iteElse c t f' ts us vs g2 g4 g6⟩
    have := (Loose.tok s!' "if").append (g1.append (.pre hw ((Loose.tok s!' "{").append (g3.append
      (.pre hw1 ((Loose.tok s!' "else").append (.pre hw2 ((Loose.tok s!' "{").append g5))))))))
    simpa using this
  · simp only at hf'
    subst hf'
    refine ⟨s!' "if" ++ (x ++ (w ++ (s!' "{" ++ y))), by simp, _, ?_, .ite c t ts us g2 g4⟩
    have := (Loose.tok s!' "if").append (g1.append (.pre hw ((Loose.tok s!' "{").append g3)))
    simpa using this

theorem while_sound {s s' : Str} {a : Stmt} (hsub : ∀ s1, s1.length < s.length → ProgSound s1)
    (h : whileStmt stmts s = some (a, s')) : ∃ x, s = x ++ s' ∧ GotS a x := by
  obtain ⟨⟨c, t⟩, h2, rfl⟩ := map_some h
  obtain ⟨_, s2, h4, h5⟩ := seqL_some h2
  obtain ⟨_, s3, h6, h7⟩ := seqL_some h4
  obtain ⟨s4, h8, h9⟩ := seq_some h6
  obtain ⟨_, s5, h10, h11⟩ := seqL_some h8
  obtain ⟨_, s6, h12, h13⟩ := seqL_some h10
  obtain ⟨_, s7, h14, h15⟩ := seqR_some h12
  have e14 := tag_inv _ _ _ _ h14
  subst e14
  obtain ⟨x, ts, rfl, g1, g2⟩ := expr_sound h15
  obtain ⟨w, hw, rfl, -⟩ := space_stops h13
  have e11 := sym_inv h11
  subst e11
  obtain ⟨y, us, rfl, g3, g4⟩ := braces_sound (hsub s4 (by simp; omega)) h9 h7 h5
  refine ⟨s!' "while" ++ (x ++ (w ++ (s!' "{" ++ y))), by simp, _, ?_, .while c t ts us g2 g4⟩
  have := (Loose.tok s!' "while").append (g1.append (.pre hw ((Loose.tok s!' "{").append g3)))
  simpa using this

theorem for_sound {s s' : Str} {a : Stmt} (hsub : ∀ s1, s1.length < s.length → ProgSound s1)
    (h : forStmt stmts s = some (a, s')) : ∃ x, s = x ++ s' ∧ GotS a x := by
  obtain ⟨⟨⟨v, r⟩, b⟩, h2, rfl⟩ := map_some h
  obtain ⟨_, s2, h4, h5⟩ := seqL_some h2
  obtain ⟨_, s3, h6, h7⟩ := seqL_some h4
  obtain ⟨s4, h8, h9⟩ := seq_some h6
  obtain ⟨_, s5, h10, h11⟩ := seqL_some h8
  obtain ⟨_, s6, h12, h13⟩ := seqL_some h10
  obtain ⟨s7, h14, h15⟩ := seq_some h12
  obtain ⟨_, s8, h16, h17⟩ := seqL_some h14
  obtain ⟨_, s9, h18, h19⟩ := seqL_some h16
  obtain ⟨_, s10, h20, h21⟩ := seqR_some h18
  obtain ⟨_, s11, h22, h23⟩ := seqR_some h20
  have e22 := tag_inv _ _ _ _ h22
  subst e22
  obtain ⟨w1, hw1, rfl, -⟩ := space_stops h23
  obtain ⟨x, hv, hx, rfl, hstop⟩ := ident_inv h21
  simp only at hv
  subst hv
  obtain ⟨w2, hw2, rfl, -⟩ := space_stops h19
  have e17 := tag_inv _ _ _ _ h17
  subst e17
  obtain ⟨y, ts, rfl, g1, g2⟩ := expr_sound h15
  obtain ⟨w, hw, rfl, -⟩ := space_stops h13
  have e11 := sym_inv h11
  subst e11
  obtain ⟨z, us, rfl, g3, g4⟩ := braces_sound (hsub s4 (by simp; omega)) h9 h7 h5
  cases w2 with
  | nil => exact absurd (noHead_cons.1 hstop) (by decide)
  | cons b0 w2 =>
    have hb0 : Blank [b0] := fun c hc => hw2 c (by simp at hc ⊢; exact .inl hc)
    have hw2 : Blank w2 := fun c hc => hw2 c (by simp [hc])
    refine ⟨s!' "for" ++ (w1 ++ (x ++ [b0] ++ (w2 ++ (s!' "in" ++ (y ++ (w ++ (s!' "{" ++ z))))))), by simp, _, ?_,
      .for x (x ++ [b0]) r b ts us hx ⟨b0, hb0, rfl⟩ g2 g4⟩
    have := (Loose.tok s!' "for").append (.pre hw1 ((Loose.tok (x ++ [b0])).append (.pre hw2 ((Loose.tok s!' "in").append
      (g1.append (.pre hw ((Loose.tok s!' "{").append g3)))))))
    simpa using this

/-- any number of semicolons may follow -/
theorem semis_sound : ∀ (n : Nat) {s s' : Str} {cs : List Char}, s.length ≤ n → many (seqR space (sym ';')) s = some (cs, s') →
    ∃ x, s = x ++ s' ∧ ∀ a y, GotS a y → GotS a (y ++ x)
  | n, s, s', cs, hn, h => by
    have he : Eats (seqR space (sym ';')) := seqR_eats_r space_reads (sym_eats _)
    cases hu : seqR space (sym ';') s with
    | none =>
      rw [many_none hu] at h
      simp only [Option.some.injEq, Prod.mk.injEq] at h
      obtain ⟨rfl, rfl⟩ := h
      exact ⟨[], rfl, fun a y h => by rw [List.append_nil]; exact h⟩
    | some r =>
      obtain ⟨c, s1⟩ := r
      have hlt := he.lt hu
      rw [many_some he hu] at h
      obtain ⟨⟨vs, s2⟩, hm⟩ := many_total (seqR space (sym ';')) s1
      rw [hm] at h
      simp only [Option.some.injEq, Prod.mk.injEq] at h
      obtain ⟨rfl, rfl⟩ := h
      cases n with
      | zero => omega
      | succ n =>
        obtain ⟨x, rfl, hx⟩ := semis_sound n (by omega) hm
        obtain ⟨_, s3, g1, g2⟩ := seqR_some hu
        have e2 := sym_inv g2
        subst e2
        obtain ⟨w, hw, rfl, -⟩ := space_stops g1
        refine ⟨(w ++ s!' ";") ++ x, by simp, ?_⟩
        rintro a y ⟨ts, hL, hF⟩
        rw [← List.append_assoc]
        exact hx a _ ⟨_, hL.append (.pre hw (.tok _)), .semi a ts hF⟩

theorem stmt_sound {s s' : Str} {a : Stmt} (hsub : ∀ s1, s1.length < s.length → ProgSound s1)
    (h : stmt stmts s = some (a, s')) : ∃ x, s = x ++ s' ∧ GotS a x := by
  obtain ⟨cs, s1, h1, h2⟩ := seqL_some h
  obtain ⟨_, s2, h3, h4⟩ := seqR_some h1
  obtain ⟨w, hw, rfl, hns⟩ := space_stops h3
  have hsub : ∀ s1, s1.length < s2.length → ProgSound s1 := fun s1 h => hsub s1 (by simp; omega)
  have key : ∃ x, s2 = x ++ s1 ∧ GotS a x := by
    rcases alt_some h4 with h5 | ⟨-, h5⟩
    · exact semicolon_sound hns h5
    simp only [blockStmt] at h5
    rcases alt_some h5 with h5 | ⟨-, h5⟩
    · exact ifElse_sound hsub h5
    rcases alt_some h5 with h5 | ⟨-, h5⟩
    · exact while_sound hsub h5
    · exact for_sound hsub h5
  obtain ⟨x, rfl, ts, hL, hF⟩ := key
  obtain ⟨y, rfl, hy⟩ := semis_sound _ (Nat.le_refl _) h2
  refine ⟨(w ++ x) ++ y, by simp, ?_⟩
  exact hy a _ ⟨ts, .pre hw hL, hF⟩

theorem many_stmt_sound : ∀ (n : Nat) {s s' : Str} {p : List Stmt}, s.length ≤ n →
    (∀ s1, s1.length < n → ProgSound s1) → many (stmt stmts) s = some (p, s') →
    ∃ x ts, s = x ++ s' ∧ Loose ts x ∧ ProgFormV Parted Free p ts
  | n, s, s', p, hn, hsub, h => by
    have he : Eats (stmt stmts) := stmt_eats stmts_reads
    cases hu : stmt stmts s with
    | none =>
      rw [many_none hu] at h
      simp only [Option.some.injEq, Prod.mk.injEq] at h
      obtain ⟨rfl, rfl⟩ := h
      exact ⟨[], [], rfl, .empty, .nil⟩
    | some r =>
      obtain ⟨a, s1⟩ := r
      have hlt := he.lt hu
      rw [many_some he hu] at h
      obtain ⟨⟨vs, s2⟩, hm⟩ := many_total (stmt stmts) s1
      rw [hm] at h
      simp only [Option.some.injEq, Prod.mk.injEq] at h
      obtain ⟨rfl, rfl⟩ := h
      cases n with
      | zero => omega
      | succ n =>
        obtain ⟨x, rfl, ts, hL, hF⟩ := stmt_sound (fun s1 h => hsub s1 (by omega)) hu
        obtain ⟨y, us, rfl, g1, g2⟩ := many_stmt_sound n (by omega) (fun s1 h => hsub s1 (by omega)) hm
        exact ⟨x ++ y, ts ++ us, by simp, hL.append g1, .cons a vs ts us hF g2⟩

theorem stmts_sound : ∀ (n : Nat) (s : Str), s.length ≤ n → ProgSound s := by
  intro n
  induction n with
  | zero =>
    intro s hs p s' h
    rw [stmts_unfold] at h
    exact many_stmt_sound 0 hs (fun s1 h => by omega) h
  | succ n ih =>
    intro s hs p s' h
    rw [stmts_unfold] at h
    exact many_stmt_sound (n + 1) hs (fun s1 h => ih s1 (by omega)) h

/-- an accepted text is a program in writing -/
theorem parse_sound {s : Str} {p : List Stmt} (h : parse s = some p) : ∃ ts, Loose ts s ∧ ProgFormV Parted Free p ts := by
  unfold parse at h
  split at h
  · rename_i p' r heq
    simp only [Option.some.injEq] at h
    subst h
    obtain ⟨_, s1, h1, h2⟩ := seqL_some heq
    obtain ⟨_, s2, h3, h4⟩ := seqL_some h1
    obtain ⟨x, ts, rfl, g1, g2⟩ := stmts_sound _ _ (Nat.le_refl _) _ _ h3
    obtain ⟨w, hw, rfl, -⟩ := space_stops h4
    cases s1 with
    | nil => exact ⟨ts, by rw [List.append_nil]; exact g1.post hw, g2⟩
    | cons c s1 => simp [eof] at h2
  · simp at h

end Btrd
