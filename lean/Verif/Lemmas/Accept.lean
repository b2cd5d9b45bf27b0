/-
Soundness of the parser: what an accepted text looks like.
-/
import Verif.Props.Parser
import Verif.Spec.Accept

namespace Btrd
open P Spec

/-! ### expressions -/

/-- an expression of at most level `k` was read from the text `x` -/
def Got (e : Expr) (x : Str) (k : Nat) : Prop := ∃ ts, Loose ts x ∧ Written e ts ∧ level e ≤ k

theorem Got.mono {e : Expr} {x : Str} {k j : Nat} (h : Got e x k) (hj : k ≤ j) : Got e x j := by
  obtain ⟨ts, h1, h2, h3⟩ := h; exact ⟨ts, h1, h2, by omega⟩

/-- soundness of a rule for expressions on one text -/
def SoundAt (p : P Expr) (s : Str) (k : Nat) : Prop := ∀ e s', p s = some (e, s') → ∃ x, s = x ++ s' ∧ Got e x k

theorem number_inv {s s' : Str} {i : Int} (h : number s = some (i, s')) (hm : NoHead (· == '-') s) :
    ∃ ds, Numeral ds ∧ decimal ds < 2 ^ 127 ∧ i = decimal ds ∧ s = ds ++ s' := by
  obtain ⟨⟨m, ds⟩, h1, h2⟩ := convert_some h
  obtain ⟨s1, h3, h4⟩ := seq_some h1
  rcases opt_some h3 with ⟨c, hc, h5⟩ | ⟨hc, h5, rfl⟩
  · have := sym_inv h5
    subst this
    have := noHead_cons.1 hm
    simp at this
  · simp only at hc h4
    subst hc
    obtain ⟨h6, rfl⟩ := integer_inv h4
    simp only [i128FromParts, Option.isSome_none, Bool.false_eq_true, if_false] at h2
    split at h2
    · rename_i hf
      simp only [Option.some.injEq] at h2
      rw [inI128_iff] at hf
      rw [digitsVal_eq] at hf h2
      refine ⟨ds, h6, ?_, h2.symm, rfl⟩
      have := hf.2
      exact_mod_cast this
    · simp at h2

theorem prefix_no_minus {s : Str} (h : prefixOp s = none) : NoHead (· == '-') s := by
  cases s with
  | nil => exact noHead_nil _
  | cons c s =>
    rw [noHead_cons, beq_eq_false_iff_ne]
    rintro rfl
    have : prefixOp ('-' :: s) = some (.op .minus, s) := rfl
    rw [this] at h; simp at h

/-- a parenthesis around a type name is a cast -/
theorem prefix_cast {w x w2 r : Str} {c : Char} {cs : Str} (hw : Blank w) (hx : x = s!' "struct" ++ c :: cs) (hn : Name x) (hc : Letter c)
    (hw2 : Blank w2) : prefixOp ('(' :: (w ++ (x ++ (w2 ++ ')' :: r)))) ≠ none := by
  subst hx
  have hword : ∀ d ∈ cs, WordChar d := by
    obtain ⟨d, ds, e, _, hd⟩ := hn
    simp only [List.cons_append, List.cons.injEq] at e
    intro d' hd'
    exact hd d' (by rw [← e.2]; simp [hd'])
  have h1 : tag s!' "(" ('(' :: (w ++ (s!' "struct" ++ c :: cs ++ (w2 ++ ')' :: r)))) = some ((), w ++ (s!' "struct" ++ c :: cs ++ (w2 ++ ')' :: r))) := rfl
  have h2 : space (w ++ (s!' "struct" ++ c :: cs ++ (w2 ++ ')' :: r))) = some ((), s!' "struct" ++ c :: cs ++ (w2 ++ ')' :: r)) :=
    space_blank hw (noHead_cons.2 (by decide))
  have hr : NoHead isIdentChar (w2 ++ ')' :: r) := by
    cases w2 with
    | nil => exact noHead_cons.2 (by decide)
    | cons d w2 =>
      refine noHead_cons.2 ?_
      rw [Bool.eq_false_iff]
      intro h
      have := word_not_space ((isIdentChar_iff d).1 h)
      rw [(isSpaceChar_iff d).2 (hw2 d (by simp))] at this
      simp at this
  have h3 : typeSpecifier (s!' "struct" ++ c :: cs ++ (w2 ++ ')' :: r)) = some (.ident (c :: cs), w2 ++ ')' :: r) := by
    have e1 : tag s!' "struct" (s!' "struct" ++ c :: cs ++ (w2 ++ ')' :: r)) = some ((), c :: cs ++ (w2 ++ ')' :: r)) := by
      rw [List.append_assoc]; exact tag_append _ _
    have e2 : space (c :: cs ++ (w2 ++ ')' :: r)) = some ((), c :: cs ++ (w2 ++ ')' :: r)) :=
      space_none (noHead_cons.2 (letter_not_space hc))
    simp only [typeSpecifier, seqR, seqL, e1, e2]
    exact ident_name ⟨c, cs, rfl, hc, hword⟩ hr
  have h4 : space (w2 ++ ')' :: r) = some ((), ')' :: r) := space_blank hw2 (noHead_cons.2 (by decide))
  have h5 : tag s!' ")" (')' :: r) = some ((), r) := rfl
  have t1 : tag s!' "~" ('(' :: (w ++ (s!' "struct" ++ c :: cs ++ (w2 ++ ')' :: r)))) = none := rfl
  have t2 : tag s!' "!" ('(' :: (w ++ (s!' "struct" ++ c :: cs ++ (w2 ++ ')' :: r)))) = none := rfl
  have t3 : tag s!' "-" ('(' :: (w ++ (s!' "struct" ++ c :: cs ++ (w2 ++ ')' :: r)))) = none := rfl
  simp only [prefixOp, alt, map, seqL, seqR, t1, t2, t3, h1, h2, h3, h4, h5]
  simp

theorem exprText_ident {x : Str} {ts : List Str} (h : ExprText (.ident x) ts) : ts = [x] := by cases h; rfl

theorem loose_one {t x : Str} (h : Loose [t] x) : ∃ w w2, Blank w ∧ Blank w2 ∧ x = w ++ (t ++ w2) := by
  cases h with
  | cons w _ _ r hw hr =>
    cases hr with
    | nil _ h2 => exact ⟨w, r, hw, h2, rfl⟩

theorem primary_sound {s : Str} (hp : prefixOp s = none) (hsub : ∀ s1, s1.length < s.length → SoundAt expr s1 12) :
    SoundAt (lv 0) s 0 := by
  intro e s' h
  change primaryExpr expr s = some (e, s') at h
  simp only [primaryExpr] at h
  rcases alt_some h with h1 | ⟨hcn, h1⟩
  · simp only [constant] at h1
    rcases alt_some h1 with h2 | ⟨-, h2⟩
    · obtain ⟨i, h3, rfl⟩ := map_some h2
      obtain ⟨ds, g1, g2, rfl, rfl⟩ := number_inv h3 (prefix_no_minus hp)
      exact ⟨ds, rfl, [ds], .tok _, ⟨.int ds g1 g2, by
        simp only [Ladder]
        exact ⟨by omega, by exact_mod_cast g2⟩⟩, Nat.le_refl _⟩
    rcases alt_some h2 with h3 | ⟨-, h3⟩
    · obtain ⟨i, h4, rfl⟩ := map_some h3
      exact ⟨s!' "true", tag_inv _ _ _ _ h4, [s!' "true"], .tok _, ⟨.bool true, by simp only [Ladder]⟩, Nat.le_refl _⟩
    · obtain ⟨i, h4, rfl⟩ := map_some h3
      exact ⟨s!' "false", tag_inv _ _ _ _ h4, [s!' "false"], .tok _, ⟨.bool false, by simp only [Ladder]⟩, Nat.le_refl _⟩
  rcases alt_some h1 with h2 | ⟨-, h2⟩
  · obtain ⟨x, rfl, hx, rfl, -⟩ := ident_inv h2
    refine ⟨x, rfl, [x], .tok _, ⟨.ident x hx, ?_⟩, Nat.le_refl _⟩
    simp only [Ladder]
    refine ⟨hx, ?_, ?_⟩
    · rintro ⟨y, rfl⟩
      rw [List.append_assoc] at hcn
      have ht := tag_append s!' "true" (y ++ s')
      simp only [constant, alt, map, ht] at hcn
      split at hcn <;> simp at hcn
    · rintro ⟨y, rfl⟩
      rw [List.append_assoc] at hcn
      have ht := tag_append s!' "false" (y ++ s')
      simp only [constant, alt, map, ht] at hcn
      split at hcn
      · simp at hcn
      · split at hcn <;> simp at hcn
  rcases alt_some h2 with h3 | ⟨-, h3⟩
  · obtain ⟨a, t, rfl, hl, rfl⟩ := string_inv h3
    exact ⟨t, rfl, [t], .tok _, ⟨.str a t hl, by simp only [Ladder]⟩, Nat.le_refl _⟩
  · obtain ⟨e1, h4, rfl⟩ := map_some h3
    obtain ⟨c, s1, h5, h6⟩ := seqL_some h4
    obtain ⟨u, s2, h7, h8⟩ := seqL_some h5
    obtain ⟨c2, s3, h9, h10⟩ := seqR_some h7
    have e6 := sym_inv h6
    have e9 := sym_inv h9
    subst e6; subst e9
    obtain ⟨w, hw, rfl, -⟩ := space_stops h8
    obtain ⟨x, rfl, ts, hL, ⟨hT, hlad⟩, -⟩ := hsub s3 (by simp) _ _ h10
    refine ⟨'(' :: (x ++ (w ++ [')'])), by simp, ['('] :: (ts ++ [[')']]), ?_, ⟨.paren _ _ hT, ?_⟩, Nat.le_refl _⟩
    · have := (Loose.tok ['(']).append (hL.append (Loose.pre hw (.tok [')'])))
      exact this
    · simp only [Ladder]
      refine ⟨hlad, ?_⟩
      rintro d ds rfl hd
      have := exprText_ident hT
      subst this
      obtain ⟨v, v2, hv, hv2, rfl⟩ := loose_one hL
      simp only [Ladder] at hlad
      refine prefix_cast (r := s') hv rfl hlad.1 hd (blank_append hv2 hw) ?_
      rw [← hp]; simp

/-- further arguments -/
theorem args_sound : ∀ (n : Nat) {s s' : Str} {as : List Expr}, s.length ≤ n →
    (∀ s1, s1.length < s.length → SoundAt expr s1 12) →
    many (seqR (seqR space (sym ',')) expr) s = some (as, s') →
    ∃ x us, s = x ++ s' ∧ Loose us x ∧ LadderArgs as ∧ ∀ e ts, ExprText e ts → ArgsText (e :: as) (ts ++ us)
  | n, s, s', as, hn, hsub, h => by
    have he : Eats (seqR (seqR space (sym ',')) expr) := seqR_eats_r (seqR_reads space_reads (sym_eats _).reads) expr_eats
    cases hu : seqR (seqR space (sym ',')) expr s with
    | none =>
      rw [many_none hu] at h
      simp only [Option.some.injEq, Prod.mk.injEq] at h
      obtain ⟨rfl, rfl⟩ := h
      exact ⟨[], [], rfl, .empty, by simp only [LadderArgs], fun e ts ht => by rw [List.append_nil]; exact .one e ts ht⟩
    | some r =>
      obtain ⟨a, s1⟩ := r
      have hlt := he.lt hu
      rw [many_some he hu] at h
      obtain ⟨⟨vs, s2⟩, hm⟩ := many_total (seqR (seqR space (sym ',')) expr) s1
      rw [hm] at h
      simp only [Option.some.injEq, Prod.mk.injEq] at h
      obtain ⟨rfl, rfl⟩ := h
      cases n with
      | zero => omega
      | succ n =>
        obtain ⟨x, us, rfl, h1, h2, h3⟩ := args_sound n (by omega) (fun s1 h => hsub s1 (by omega)) hm
        obtain ⟨c, s3, g1, g2⟩ := seqR_some hu
        obtain ⟨u, s4, g3, g4⟩ := seqR_some g1
        have g4 := sym_inv g4
        subst g4
        obtain ⟨w, hw, rfl, -⟩ := space_stops g3
        obtain ⟨y, rfl, ts, hL, ⟨hT, hlad⟩, -⟩ := hsub s3 (by simp; omega) _ _ g2
        refine ⟨w ++ (',' :: (y ++ x)), [','] :: (ts ++ us), by simp, ?_, ?_, ?_⟩
        · exact .pre hw ((Loose.tok [',']).append (hL.append h1))
        · simp only [LadderArgs]; exact ⟨hlad, h2⟩
        · intro e ts' ht
          exact .cons e a vs ts' _ ht (h3 a ts hT)

theorem postItem_sound {s s' : Str} {o : PostfixOp} (hsub : ∀ s1, s1.length < s.length → SoundAt expr s1 12)
    (h : postItem s = some (o, s')) :
    ∃ y, s = y ++ s' ∧ ∀ e x, Got e x 1 → Got (applyPostfix e o) (x ++ y) 1 := by
  obtain ⟨u, s0, h1, h2⟩ := seqR_some h
  obtain ⟨w, hw, rfl, -⟩ := space_stops h1
  have hsub : ∀ s1, s1.length < s0.length → SoundAt expr s1 12 := fun s1 h => hsub s1 (by simp; omega)
  simp only [postfixOp] at h2
  rcases alt_some h2 with h3 | ⟨-, h3⟩
  · obtain ⟨as, h4, rfl⟩ := map_some h3
    obtain ⟨c, s1, h5, h6⟩ := seqL_some h4
    obtain ⟨u, s2, h7, h8⟩ := seqL_some h5
    obtain ⟨c2, s3, h9, h10⟩ := seqR_some h7
    have e6 := sym_inv h6
    have e9 := sym_inv h9
    subst e6; subst e9
    obtain ⟨w2, hw2, rfl, -⟩ := space_stops h8
    have key : ∃ x us, s3 = x ++ (w2 ++ ')' :: s') ∧ Loose us x ∧ LadderArgs as ∧ ArgsText as us := by
      simp only [list] at h10
      cases ha : expr s3 with
      | none =>
        rw [ha] at h10
        simp only [Option.some.injEq, Prod.mk.injEq] at h10
        obtain ⟨rfl, rfl⟩ := h10
        exact ⟨[], [], rfl, .empty, by simp only [LadderArgs], .nil⟩
      | some r =>
        obtain ⟨a, s4⟩ := r
        rw [ha] at h10
        simp only at h10
        obtain ⟨⟨vs, s5⟩, hm⟩ := many_total (seqR (seqR space (sym ',')) expr) s4
        rw [hm] at h10
        simp only [Option.some.injEq, Prod.mk.injEq] at h10
        obtain ⟨rfl, rfl⟩ := h10
        have hlt := expr_eats.lt ha
        obtain ⟨x, us, rfl, g1, g2, g3⟩ := args_sound _ (Nat.le_refl _) (fun s1 h => hsub s1 (by simp; omega)) hm
        obtain ⟨y, rfl, ts, hL, ⟨hT, hlad⟩, -⟩ := hsub s3 (by simp) _ _ ha
        exact ⟨y ++ x, ts ++ us, by simp, hL.append g1, by simp only [LadderArgs]; exact ⟨hlad, g2⟩, g3 a ts hT⟩
    obtain ⟨x, us, rfl, g1, g2, g3⟩ := key
    refine ⟨w ++ '(' :: (x ++ (w2 ++ [')'])), by simp, ?_⟩
    rintro e y ⟨ts, hL, ⟨hT, hlad⟩, hlev⟩
    refine ⟨_, ?_, ⟨.call e as ts us hT g3, ?_⟩, Nat.le_refl _⟩
    · exact hL.append (.pre hw ((Loose.tok ['(']).append (g1.append (.pre hw2 (.tok [')'])))))
    · simp only [applyPostfix, Ladder]; exact ⟨hlev, hlad, g2⟩
  rcases alt_some h3 with h3 | ⟨-, h3⟩
  · obtain ⟨i, h4, rfl⟩ := map_some h3
    obtain ⟨c, s1, h5, h6⟩ := seqL_some h4
    obtain ⟨u, s2, h7, h8⟩ := seqL_some h5
    obtain ⟨c2, s3, h9, h10⟩ := seqR_some h7
    have e6 := sym_inv h6
    have e9 := sym_inv h9
    subst e6; subst e9
    obtain ⟨w2, hw2, rfl, -⟩ := space_stops h8
    obtain ⟨x, rfl, us, g1, ⟨g2, g3⟩, -⟩ := hsub s3 (by simp) _ _ h10
    refine ⟨w ++ '[' :: (x ++ (w2 ++ [']'])), by simp, ?_⟩
    rintro e y ⟨ts, hL, ⟨hT, hlad⟩, hlev⟩
    refine ⟨_, ?_, ⟨.index e i ts us hT g2, ?_⟩, Nat.le_refl _⟩
    · exact hL.append (.pre hw ((Loose.tok ['[']).append (g1.append (.pre hw2 (.tok [']'])))))
    · simp only [applyPostfix, Ladder]; exact ⟨hlev, hlad, g3⟩
  · obtain ⟨i, h4, rfl⟩ := map_some h3
    obtain ⟨c, s1, h5, h6⟩ := seqR_some h4
    have e5 := sym_inv h5
    subst e5
    obtain ⟨f, rfl, hf, rfl, -⟩ := ident_inv h6
    refine ⟨w ++ (['.'] ++ f), by simp, ?_⟩
    rintro e y ⟨ts, hL, ⟨hT, hlad⟩, hlev⟩
    refine ⟨_, ?_, ⟨.field e ts f hT hf, ?_⟩, Nat.le_refl _⟩
    · exact hL.append (.pre hw (.tok _))
    · simp only [applyPostfix, Ladder]; exact ⟨hlev, hlad, f, rfl, hf⟩

/-- soundness of what follows the first operand -/
def LoopSound (k : Nat) (s : Str) : Prop := ∀ e x e' s', Got e x k → loop k e s = some (e', s') → ∃ y, s = y ++ s' ∧ Got e' (x ++ y) k

theorem post_loop_sound : ∀ (n : Nat) {s : Str}, s.length ≤ n → (∀ s1, s1.length < s.length → SoundAt expr s1 12) → LoopSound 1 s
  | n, s, hn, hsub => by
    intro e x e' s' hg h
    cases hi : postItem s with
    | none =>
      have hst : Stop 1 s := by unfold Stop; rw [if_neg (by omega), if_pos rfl]; exact hi
      rw [loop_stop e hst] at h
      simp only [Option.some.injEq, Prod.mk.injEq] at h
      obtain ⟨rfl, rfl⟩ := h
      exact ⟨[], rfl, by rw [List.append_nil]; exact hg⟩
    | some r =>
      obtain ⟨o, s1⟩ := r
      have hlt := postItem_eats.lt hi
      rw [loop_post e hi] at h
      obtain ⟨y, rfl, hy⟩ := postItem_sound hsub hi
      cases n with
      | zero => omega
      | succ n =>
        obtain ⟨z, rfl, hz⟩ := post_loop_sound n (by omega) (fun s2 h => hsub s2 (by omega)) _ _ _ _ (hy e x hg) h
        exact ⟨y ++ z, by simp, by rw [← List.append_assoc]; exact hz⟩

theorem opsAt_inv {k : Nat} {s s' : Str} {op : BinOp} (h : opsAt k s = some (op, s')) : s = opText op ++ s' ∧ opLevel op = k := by
  have ht : ∀ {t : Str} {o : BinOp}, opTag t o s = some (op, s') → op = o ∧ s = t ++ s' := by
    intro t o h
    obtain ⟨u, hh, rfl⟩ := map_some h
    exact ⟨rfl, tag_inv _ _ _ _ hh⟩
  have hs : ∀ {c : Char} {o : BinOp}, map (fun _ => o) (sym c) s = some (op, s') → op = o ∧ s = [c] ++ s' := by
    intro t o h
    obtain ⟨u, hh, rfl⟩ := map_some h
    exact ⟨rfl, sym_inv hh⟩
  unfold opsAt at h
  split at h
  · rcases alt_some h with h | ⟨-, h⟩
    · obtain ⟨rfl, e⟩ := ht h; exact ⟨e, rfl⟩
    rcases alt_some h with h | ⟨-, h⟩ <;> obtain ⟨rfl, e⟩ := ht h <;> exact ⟨e, rfl⟩
  · rcases alt_some h with h | ⟨-, h⟩ <;> obtain ⟨rfl, e⟩ := ht h <;> exact ⟨e, rfl⟩
  · rcases alt_some h with h | ⟨-, h⟩ <;> obtain ⟨rfl, e⟩ := ht h <;> exact ⟨e, rfl⟩
  · rcases alt_some h with h | ⟨-, h⟩
    · obtain ⟨rfl, e⟩ := ht h; exact ⟨e, rfl⟩
    rcases alt_some h with h | ⟨-, h⟩
    · obtain ⟨rfl, e⟩ := ht h; exact ⟨e, rfl⟩
    rcases alt_some h with h | ⟨-, h⟩ <;> obtain ⟨rfl, e⟩ := ht h <;> exact ⟨e, rfl⟩
  · rcases alt_some h with h | ⟨-, h⟩ <;> obtain ⟨rfl, e⟩ := ht h <;> exact ⟨e, rfl⟩
  · obtain ⟨rfl, e⟩ := hs h; exact ⟨e, rfl⟩
  · obtain ⟨rfl, e⟩ := hs h; exact ⟨e, rfl⟩
  · obtain ⟨rfl, e⟩ := hs h; exact ⟨e, rfl⟩
  · obtain ⟨rfl, e⟩ := ht h; exact ⟨e, rfl⟩
  · obtain ⟨rfl, e⟩ := ht h; exact ⟨e, rfl⟩
  · simp at h

/-- the rules of the ladder are sound on texts that do not begin with a blank -/
def LevelsSound (s : Str) : Prop := NoHead isSpaceChar s → ∀ k, 2 ≤ k → k ≤ 12 → SoundAt (lv k) s k

theorem item_sound {k : Nat} (hk : 3 ≤ k) (hk2 : k ≤ 12) {s s' : Str} {q : BinOp × Expr}
    (hsub : ∀ s1, s1.length < s.length → LevelsSound s1) (h : item k s = some (q, s')) :
    ∃ y, s = y ++ s' ∧ ∀ e x, Got e x (if k = 7 then 6 else k) → Got (.bin q.1 e q.2) (x ++ y) k := by
  obtain ⟨op, r⟩ := q
  obtain ⟨s1, h1, h2⟩ := seq_some h
  obtain ⟨u, s2, h3, h4⟩ := seqL_some h1
  obtain ⟨u2, s3, h5, h6⟩ := seqR_some h3
  obtain ⟨w, hw, rfl, -⟩ := space_stops h5
  obtain ⟨w2, hw2, rfl, hnh⟩ := space_stops h4
  obtain ⟨rfl, hop⟩ := opsAt_inv h6
  have hop : opLevel op = k := hop
  have hopne : 0 < (opText op).length := by cases op <;> decide
  simp only at h2
  obtain ⟨z, rfl, us, g1, ⟨g2, g3⟩, g4⟩ := hsub s1 (by simp; omega) hnh (k - 1) (by omega) (by omega) _ _ h2
  refine ⟨w ++ (opText op ++ (w2 ++ z)), by simp, ?_⟩
  rintro e x ⟨ts, hL, ⟨hT, hlad⟩, hlev⟩
  refine ⟨_, ?_, ⟨.bin op e r ts us hT g2, ?_⟩, by simp only [level]; omega⟩
  · exact hL.append (.pre hw ((Loose.tok (opText op)).append (.pre hw2 g1)))
  · simp only [Ladder]
    refine ⟨?_, by omega, hlad, g3⟩
    cases op <;> simp only [opLevel] at hop <;> subst hop <;> simpa [leftLevel, opLevel] using hlev

theorem loop_sound {k : Nat} (hk : 3 ≤ k) (hk2 : k ≤ 12) (h7 : k ≠ 7) : ∀ (n : Nat) {s : Str}, s.length ≤ n →
    (∀ s1, s1.length < s.length → LevelsSound s1) → LoopSound k s
  | n, s, hn, hsub => by
    intro e x e' s' hg h
    cases hi : item k s with
    | none =>
      have hst : Stop k s := by unfold Stop; rw [if_neg (by omega), if_neg (by omega)]; exact hi
      rw [loop_stop e hst] at h
      simp only [Option.some.injEq, Prod.mk.injEq] at h
      obtain ⟨rfl, rfl⟩ := h
      exact ⟨[], rfl, by rw [List.append_nil]; exact hg⟩
    | some r =>
      obtain ⟨⟨op, r⟩, s1⟩ := r
      have hlt := (item_eats k).lt hi
      rw [loop_item e hk h7 hi] at h
      obtain ⟨y, rfl, hy⟩ := item_sound hk hk2 hsub hi
      rw [if_neg h7] at hy
      cases n with
      | zero => omega
      | succ n =>
        obtain ⟨z, rfl, hz⟩ := loop_sound hk hk2 h7 n (by omega) (fun s2 h => hsub s2 (by omega)) _ _ _ _ (hy e x hg) h
        exact ⟨y ++ z, by simp, by rw [← List.append_assoc]; exact hz⟩

theorem prefixOp_inv {s s' : Str} {o : PrefixOp} (h : prefixOp s = some (o, s')) :
    ∃ y, s = y ++ s' ∧ ∀ e x, Got e x 2 → ∀ w, Blank w → Got (applyPrefix o e) (y ++ (w ++ x)) 2 := by
  have simple : ∀ (op : UnOp), s = unText op ++ s' → o = .op op →
      ∃ y, s = y ++ s' ∧ ∀ e x, Got e x 2 → ∀ w, Blank w → Got (applyPrefix o e) (y ++ (w ++ x)) 2 := by
    rintro op rfl rfl
    refine ⟨_, rfl, ?_⟩
    rintro e x ⟨ts, hL, ⟨hT, hlad⟩, hlev⟩ w hw
    exact ⟨_, (Loose.tok _).append (.pre hw hL), ⟨.un op e ts hT, by simp only [applyPrefix, Ladder]; exact ⟨hlev, hlad⟩⟩, Nat.le_refl _⟩
  simp only [prefixOp] at h
  rcases alt_some h with h | ⟨-, h⟩
  · obtain ⟨u, hh, rfl⟩ := map_some h
    exact simple .bitNot (tag_inv _ _ _ _ hh) rfl
  rcases alt_some h with h | ⟨-, h⟩
  · obtain ⟨u, hh, rfl⟩ := map_some h
    exact simple .not (tag_inv _ _ _ _ hh) rfl
  rcases alt_some h with h | ⟨-, h⟩
  · obtain ⟨u, hh, rfl⟩ := map_some h
    exact simple .minus (tag_inv _ _ _ _ hh) rfl
  · obtain ⟨ty, hh, rfl⟩ := map_some h
    obtain ⟨_, s1, h1, h2⟩ := seqL_some hh
    obtain ⟨_, s2, h3, h4⟩ := seqL_some h1
    obtain ⟨_, s3, h5, h6⟩ := seqR_some h3
    obtain ⟨_, s4, h7, h8⟩ := seqR_some h5
    obtain ⟨_, s5, h9, h10⟩ := seqR_some h6
    obtain ⟨_, s6, h11, h12⟩ := seqL_some h9
    have e2 := tag_inv _ _ _ _ h2
    have e7 := tag_inv _ _ _ _ h7
    have e11 := tag_inv _ _ _ _ h11
    obtain ⟨w1, hw1, e4, -⟩ := space_stops h4
    obtain ⟨w2, hw2, e8, -⟩ := space_stops h8
    obtain ⟨w3, hw3, e12, -⟩ := space_stops h12
    obtain ⟨f, rfl, hf, e10, -⟩ := ident_inv h10
    subst e10 e4 e2 e12 e11 e8 e7
    refine ⟨['('] ++ (w2 ++ (s!' "struct" ++ (w3 ++ (f ++ (w1 ++ [')']))))), by simp, ?_⟩
    rintro e x ⟨ts, hL, ⟨hT, hlad⟩, hlev⟩ w hw
    refine ⟨['('] :: s!' "struct" :: f :: [')'] :: ts, ?_, ⟨.cast f e ts hf hT, ?_⟩, Nat.le_refl _⟩
    · have := (Loose.tok ['(']).append (.pre hw2 ((Loose.tok s!' "struct").append (.pre hw3 ((Loose.tok f).append
        (.pre hw1 ((Loose.tok [')']).append (.pre hw hL)))))))
      simpa using this
    · simp only [applyPrefix, Ladder]; exact ⟨hlev, hlad, f, rfl, hf⟩

theorem levels_sound : ∀ (n : Nat) (s : Str), s.length ≤ n → LevelsSound s ∧ SoundAt expr s 12 := by
  intro n
  induction n with
  | zero =>
    intro s hs
    have : s = [] := by cases s <;> simp at hs ⊢
    subst this
    refine ⟨?_, ?_⟩
    · intro _ k _ _ e s' h
      rw [lv_nil] at h; simp at h
    · intro e s' h
      rw [expr_empty] at h; simp at h
  | succ n ih =>
    intro s hs
    have key : ∀ s, s.length ≤ n + 1 → LevelsSound s := by
      intro s hs
      have hlv : ∀ s1 : Str, s1.length < s.length → LevelsSound s1 := fun s1 h => (ih s1 (by omega)).1
      have hex : ∀ s1 : Str, s1.length < s.length → SoundAt expr s1 12 := fun s1 h => (ih s1 (by omega)).2
      intro hnh
      have h2 : SoundAt (lv 2) s 2 := by
        intro e s' h
        cases hp : prefixOp s with
        | none =>
          rw [unary_none hp hnh, lv_step (by omega) (by omega) (by omega)] at h
          simp only [Nat.sub_self] at h
          split at h
          · rename_i e0 s0 h0
            obtain ⟨x, rfl, hg⟩ := primary_sound hp hex _ _ h0
            obtain ⟨y, rfl, hg2⟩ := post_loop_sound _ (Nat.le_refl _) (fun s1 h => hex s1 (by simp; omega)) _ _ _ _ (hg.mono (by omega)) h
            exact ⟨x ++ y, by simp, hg2.mono (by omega)⟩
          · simp at h
        | some r =>
          obtain ⟨o, s1⟩ := r
          obtain ⟨⟨_, s2⟩, hsp⟩ : ∃ r, space s1 = some r := by
            simp only [space, map]
            obtain ⟨⟨a, b⟩, hm⟩ := many_total (isA isSpaceChar) s1
            exact ⟨((), b), by rw [hm]⟩
          rw [unary_prefix hp hsp] at h
          have hlt := prefixOp_eats.lt hp
          obtain ⟨w, hw, rfl, hnh2⟩ := space_stops hsp
          obtain ⟨y, rfl, hy⟩ := prefixOp_inv hp
          split at h
          · rename_i e0 s0 h0
            simp only [Option.some.injEq, Prod.mk.injEq] at h
            obtain ⟨rfl, rfl⟩ := h
            obtain ⟨z, rfl, hg⟩ := hlv s2 (by simp at hlt ⊢; omega) hnh2 2 (by omega) (by omega) _ _ h0
            exact ⟨y ++ (w ++ z), by simp, hy _ _ hg w hw⟩
          · simp at h
      intro k hk hk2
      induction k with
      | zero => omega
      | succ k ihk =>
        by_cases hk2' : k + 1 = 2
        · rw [hk2']; exact h2
        · have ihk := ihk (by omega) (by omega)
          intro e s' h
          rw [lv_step (by omega) hk2' hk2] at h
          simp only [Nat.add_sub_cancel] at h
          split at h
          · rename_i e0 s0 h0
            obtain ⟨x, rfl, hg⟩ := ihk _ _ h0
            have hlv' : ∀ s1 : Str, s1.length < s0.length → LevelsSound s1 := fun s1 h => hlv s1 (by simp; omega)
            by_cases h7 : k + 1 = 7
            · have hk6 : k = 6 := by omega
              subst hk6
              cases hi : item 7 s0 with
              | none =>
                have hst : Stop 7 s0 := by unfold Stop; rw [if_neg (by omega), if_neg (by omega)]; exact hi
                rw [loop_stop e0 hst] at h
                simp only [Option.some.injEq, Prod.mk.injEq] at h
                obtain ⟨rfl, rfl⟩ := h
                exact ⟨x, rfl, hg.mono (by omega)⟩
              | some r =>
                obtain ⟨⟨op, r⟩, s1⟩ := r
                rw [loop_eq_item e0 hi] at h
                simp only [Option.some.injEq, Prod.mk.injEq] at h
                obtain ⟨rfl, rfl⟩ := h
                obtain ⟨y, rfl, hy⟩ := item_sound (by omega) (by omega) hlv' hi
                rw [if_pos rfl] at hy
                exact ⟨x ++ y, by simp, hy _ _ hg⟩
            · obtain ⟨y, rfl, hg2⟩ := loop_sound (by omega) hk2 h7 _ (Nat.le_refl _) hlv' _ _ _ _ (hg.mono (by omega)) h
              exact ⟨x ++ y, by simp, hg2⟩
          · simp at h
    refine ⟨key s hs, ?_⟩
    intro e s' h
    rw [expr_eq] at h
    obtain ⟨_, s1, h1, h2⟩ := seqR_some h
    obtain ⟨w, hw, rfl, hnh⟩ := space_stops h1
    obtain ⟨x, rfl, ts, hL, hW, hlev⟩ := key s1 (by simp at hs; omega) hnh 12 (by omega) (by omega) _ _ h2
    exact ⟨w ++ x, by simp, ts, .pre hw hL, hW, hlev⟩

/-- every expression the parser reads -/
theorem expr_sound {s s' : Str} {e : Expr} (h : expr s = some (e, s')) : ∃ x ts, s = x ++ s' ∧ Loose ts x ∧ Written e ts := by
  obtain ⟨x, h1, ts, h2, h3, -⟩ := (levels_sound _ s (Nat.le_refl _)).2 e s' h
  exact ⟨x, ts, h1, h2, h3⟩

end Btrd
