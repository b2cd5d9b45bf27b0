/-
C105: how deep the parser calls itself.
-/
import Verif.Lemmas.Nesting
import Verif.Lemmas.NestingTree
import Verif.Lemmas.RoundTripStmt
import Verif.Props.Parser

namespace Btrd
open P Spec

/-- Taken with no limit, this is the parser: the calls at the limit are those of the grammar. -/
theorem C105_same (n m : Nat) (s : Str) : parseWith expr stmts n m s = parse s := by
  have h1 : ∀ n, exprWith expr n = expr := by
    intro n
    induction n with
    | zero => rfl
    | succ n ih => funext s; rw [exprWith, ih, expr_unfold]
  have h2 : ∀ m, stmtsWith expr stmts m = stmts := by
    intro m
    induction m with
    | zero => rfl
    | succ m ih =>
      funext s
      rw [stmtsWith, ih, stmts_unfold]
      rfl
  simp only [parseWith, parse, h1, h2]
  cases seqL (seqL stmts space) eof s <;> rfl

/-- With room for one more call than there are round and square brackets opened in the text, and for one more than
there are blocks opened, no call goes beyond: whatever would happen there, the text is read as without any limit. -/
theorem C105_enough (s : Str) (n m : Nat) (deep : P Expr) (deepS : P (List Stmt)) (hn : bracketsIn s < n) (hm : blocksIn s < m) :
    parseWith deep deepS n m s = parse s := by
  have he : AgreeOn (UpTo (some (bracketsIn s)) (some (blocksIn s))) expr (exprWith deep n) :=
    exprWith_enough deep _ _ _ hn
  have h := stmtsWith_enough (some (bracketsIn s)) deepS (blocksIn s) m hm he s
    ⟨fun k hk => by simp only [Option.some.injEq] at hk; omega, fun k hk => by simp only [Option.some.injEq] at hk; omega⟩
  have hq : seqL (seqL (stmtsWith (exprWith deep n) deepS m) space) eof s = seqL (seqL stmts space) eof s := by
    simp only [seqL, h]
  simp only [parseWith, parse, hq]
  cases seqL (seqL stmts space) eof s <;> rfl

/-- A text without brackets and blocks, however long, needs one call of each. -/
theorem C105_flat (s : Str) (deep : P Expr) (deepS : P (List Stmt)) (h : ∀ c ∈ s, c ≠ '(' ∧ c ≠ '[' ∧ c ≠ '{') :
    parseWith deep deepS 1 1 s = parse s := by
  refine C105_enough s 1 1 deep deepS ?_ ?_
  · have : bracketsIn s = 0 := by
      simp only [bracketsIn, List.countP_eq_zero, opensExpr]
      intro c hc
      simp [(h c hc).1, (h c hc).2.1]
    omega
  · have : blocksIn s = 0 := by
      simp only [blocksIn, List.countP_eq_zero, opensBlock]
      intro c hc
      simp [(h c hc).2.2]
    omega

/-- such a text: a program of two statements -/
example : ∀ c ∈ s!' "x = 1 + 2; print x;", c ≠ '(' ∧ c ≠ '[' ∧ c ≠ '{' := by decide

/-! ### texts that need the room -/

theorem opened_nested (n : Nat) (r : Str) : bracketsIn (nestedText n ++ r) = n + bracketsIn r := by
  have h1 : List.countP opensExpr (List.replicate n '(') = n := by
    rw [List.countP_replicate]; rfl
  have h2 : List.countP opensExpr (List.replicate n ')') = 0 := by
    rw [List.countP_replicate]; rfl
  have h3 : opensExpr '1' = false := rfl
  simp only [bracketsIn, nestedText, List.countP_append, List.countP_cons, h1, h2, h3]
  simp

theorem blocks_nested (n : Nat) : blocksIn (nestedText n ++ s!' ";") = 0 := by
  have h1 : List.countP opensBlock (List.replicate n '(') = 0 := by
    rw [List.countP_replicate]; rfl
  have h2 : List.countP opensBlock (List.replicate n ')') = 0 := by
    rw [List.countP_replicate]; rfl
  have h3 : opensBlock '1' = false := rfl
  have h4 : opensBlock ';' = false := rfl
  simp only [blocksIn, nestedText, List.countP_append, List.countP_cons, h1, h2, h3, h4]
  simp

theorem nested_succ (n : Nat) : nestedText (n + 1) = '(' :: (nestedText n ++ s!' ")") := by
  simp only [nestedText, List.replicate_succ, List.cons_append, List.append_assoc]
  rw [show ')' :: List.replicate n ')' = List.replicate n ')' ++ [')'] from by
    rw [← List.replicate_succ, List.replicate_succ']]

theorem nested_head (n : Nat) (r : Str) : (∃ t, nestedText n ++ r = '(' :: t) ∨ ∃ t, nestedText n ++ r = '1' :: t := by
  cases n with
  | zero => exact .inr ⟨_, rfl⟩
  | succ n => rw [nested_succ]; exact .inl ⟨_, rfl⟩

/-- a bracket is no operand if there is no room for what it holds -/
theorem or_bracket {sub : P Expr} {t : Str} (ht : (∃ u, t = '(' :: u) ∨ ∃ u, t = '1' :: u) (h : sub t = none) :
    orExpr sub ('(' :: t) = none := by
  refine or_none ?_
  have hp : prefixOp ('(' :: t) = none := by
    rcases ht with ⟨u, rfl⟩ | ⟨u, rfl⟩ <;> rfl
  have hm : many (seqL prefixOp space) ('(' :: t) = some ([], '(' :: t) := many_none (by simp only [seqL, hp])
  have hsp : space ('(' :: t) = some ((), '(' :: t) := rfl
  have e1 : constant ('(' :: t) = none := rfl
  have e2 : ident ('(' :: t) = none := rfl
  have e3 : string ('(' :: t) = none := rfl
  have hpr : primaryExpr sub ('(' :: t) = none := by
    simp only [primaryExpr, alt, map, e1, e2, e3, seqL, seqR, sym_cons, h]
  simp only [unaryExpr, map, seq, seqL, hm, hsp, postfixExpr, hpr]

theorem exprWith_short : ∀ (n k : Nat) (r : Str), n ≤ k → exprWith noRoom n (nestedText k ++ r) = none
  | 0, _, _, _ => rfl
  | n + 1, 0, _, h => by omega
  | n + 1, k + 1, r, h => by
    rw [nested_succ]
    have hsp : ∀ t, space ('(' :: t) = some ((), '(' :: t) := fun _ => rfl
    rw [List.cons_append, exprWith]
    simp only [seqR, hsp]
    refine or_bracket ?_ ?_
    · rw [List.append_assoc]; exact nested_head k _
    · rw [List.append_assoc]; exact exprWith_short n k _ (by omega)

theorem spaced_closed {ts : List Str} {t : Str} (h : Spaced ts t) (hne : ts ≠ []) {c : Char} (hc : ¬ WordChar c) :
    Spaced (ts ++ [[c]]) (t ++ [c]) := by
  have hg : ∀ u, ¬ Glue u [c] := by
    rintro u ⟨_, d, hd, hw⟩
    simp only [List.head?_cons, Option.some.injEq] at hd
    subst hd; exact hc hw
  induction h with
  | nil => exact absurd rfl hne
  | one u =>
    have := Spaced.cons u [] [c] [] _ blank_nil (fun _ => hg u) (.one [c])
    simpa using this
  | cons u w u' us rest hb hgl hs ih =>
    have := Spaced.cons u w u' (us ++ [[c]]) _ hb hgl (ih (by simp))
    simpa using this

theorem spaced_open {ts : List Str} {t : Str} (h : Spaced ts t) {u : Str} (hu : ∀ c, u.getLast? = some c → ¬ WordChar c) :
    Spaced (u :: ts) (u ++ t) := by
  have hg : ∀ v, ¬ Glue u v := by
    rintro v ⟨⟨d, hd, hw⟩, _⟩
    exact hu d hd hw
  cases ts with
  | nil => cases h; simpa using Spaced.one u
  | cons v vs =>
    have := Spaced.cons u [] v vs t blank_nil (fun _ => hg v) h
    simpa using this

theorem nested_tokens : ∀ n, Ladder (nestedExpr n) ∧ PlainStart (nestedExpr n) ∧ tokens (nestedExpr n) ≠ [] ∧
    Spaced (tokens (nestedExpr n)) (nestedText n)
  | 0 => by
    refine ⟨by simp [nestedExpr, Ladder], ?_, by simp [nestedExpr, tokens], ?_⟩
    · intro t ts h
      have ht : t = s!' "1" := by
        have h' : [s!' "1"] = t :: ts := h
        simp only [List.cons.injEq] at h'
        exact h'.1.symm
      subst ht
      unfold StartsReserved
      decide
    · exact .one s!' "1"
  | n + 1 => by
    obtain ⟨h1, _, h3, h4⟩ := nested_tokens n
    refine ⟨?_, ?_, by simp [nestedExpr, tokens], ?_⟩
    · simp only [nestedExpr, Ladder]
      refine ⟨h1, fun c cs h => ?_⟩
      cases n <;> simp [nestedExpr] at h
    · intro t ts h
      have ht : t = s!' "(" := by
        simp only [nestedExpr, tokens, List.cons.injEq] at h
        exact h.1.symm
      subst ht
      unfold StartsReserved
      decide
    · rw [nested_succ]
      simp only [nestedExpr, tokens]
      have hp : ∀ c, (c = '(' ∨ c = ')') → ¬ WordChar c := by
        rintro c (rfl | rfl) <;> unfold WordChar Letter <;> decide
      exact spaced_open (u := s!' "(") (spaced_closed h4 h3 (hp _ (.inr rfl))) fun c hc => by
        simp only [List.getLast?_singleton, Option.some.injEq] at hc
        exact hp c (.inl hc.symm)

/-- `n` brackets around a number are a program. -/
theorem C105_nested_read (n : Nat) : parse (nestedText n ++ s!' ";") = some [.expr (nestedExpr n)] := by
  obtain ⟨h1, h2, h3, h4⟩ := nested_tokens n
  have hp : ProgText [.expr (nestedExpr n)] ((tokens (nestedExpr n) ++ [s!' ";"]) ++ []) := .cons _ _ _ _ (.expr _ h1 h2) .nil
  have hs := spaced_closed h4 h3 (c := ';') (by unfold WordChar Letter; decide)
  have := C06_round_trip (w := []) (w2 := []) hp (by rw [List.append_nil]; exact hs) blank_nil blank_nil
  simpa using this

/-- a text that begins with a bracket or a digit is no statement if it is no expression -/
theorem stmtE_none {e : P Expr} {sub : P (List Stmt)} {s : Str} (ht : (∃ u, s = '(' :: u) ∨ ∃ u, s = '1' :: u)
    (h : e s = none) : stmtE e sub s = none := by
  have hsp : space s = some ((), s) := by rcases ht with ⟨u, rfl⟩ | ⟨u, rfl⟩ <;> rfl
  have hb : builtinStmtE e s = none := by rcases ht with ⟨u, rfl⟩ | ⟨u, rfl⟩ <;> rfl
  have hj : jumpStmt s = none := by rcases ht with ⟨u, rfl⟩ | ⟨u, rfl⟩ <;> rfl
  have hk : blockStmtE e sub s = none := by rcases ht with ⟨u, rfl⟩ | ⟨u, rfl⟩ <;> rfl
  have ha : assignStmtE e s = none := by simp only [assignStmtE, alt, map, seq, seqL, h]
  have hx : map Stmt.expr e s = none := by simp only [map, h]
  have hs : stmtSemicolonE e s = none := by simp only [stmtSemicolonE, seqL, alt, hb, hj, ha, hx]
  simp only [stmtE, seqL, seqR, hsp, alt, hs, hk]

/-- Exactly as many calls as there are brackets, and one more: with room for fewer, the text is not read. No fixed
room is enough for all programs. -/
theorem C105_nested_needed (n k : Nat) : (parseWith noRoom noRoom k 1 (nestedText n ++ s!' ";")).isSome ↔ n < k := by
  refine ⟨fun h => ?_, fun h => ?_⟩
  · refine Classical.byContradiction fun hk => ?_
    have he : exprWith noRoom k (nestedText n ++ s!' ";") = none := exprWith_short k n _ (by omega)
    have hs : stmtE (exprWith noRoom k) (stmtsWith (exprWith noRoom k) noRoom 0) (nestedText n ++ s!' ";") = none :=
      stmtE_none (nested_head n _) he
    have hm : stmtsWith (exprWith noRoom k) noRoom 1 (nestedText n ++ s!' ";") = some ([], nestedText n ++ s!' ";") := many_none hs
    have hf : seqL (seqL (stmtsWith (exprWith noRoom k) noRoom 1) space) eof (nestedText n ++ s!' ";") = none := by
      rcases nested_head n s!' ";" with ⟨u, hu⟩ | ⟨u, hu⟩ <;> rw [hu] at hm ⊢ <;> simp only [seqL, hm] <;> rfl
    simp [parseWith, hf] at h
  · have h2 : bracketsIn (nestedText n ++ s!' ";") = n := by rw [opened_nested]; rfl
    rw [C105_enough _ k 1 noRoom noRoom (by omega) (by rw [blocks_nested]; omega), C105_nested_read]
    rfl

/-! ### blocks in blocks -/

theorem loops_head (n : Nat) (r : Str) : nestedLoops (n + 1) ++ r = s!' "while 1{" ++ (nestedLoops n ++ '}' :: r) := by
  simp [nestedLoops]

theorem loops_noSemi (t : Str) : stmtSemicolonE expr (s!' "while 1{" ++ t) = none := by
  have hb : Blank [' '] := by
    intro c hc
    simp only [List.mem_cons, List.not_mem_nil, or_false] at hc
    exact .inl hc
  have hl : Ladder (.int 1) := by simp [Ladder]
  have hc : Written (.int 1) [s!' "1"] := ⟨exprText_tokens (.int 1) hl, hl⟩
  have htc : Packed [s!' "while", s!' "1"] s!' "while 1" := Packed.cons s!' "while" [' '] s!' "1" [] s!' "1" hb (.one _)
  exact block_noSemi keyword_while hc htc (w := []) (r := t) blank_nil rfl rfl

/-- the loops are no statement if there is no room for what the first one holds -/
theorem loops_stmt {sub : P (List Stmt)} {t : Str}
    (h : sub t = none ∨ ∃ p u, sub t = some (p, 'w' :: u)) : stmtE expr sub (s!' "while 1{" ++ t) = none := by
  have hsp : space (s!' "while 1{" ++ t) = some ((), s!' "while 1{" ++ t) := rfl
  have hl : Ladder (.int 1) := by simp [Ladder]
  have hb : Blank [' '] := by
    intro c hc
    simp only [List.mem_cons, List.not_mem_nil, or_false] at hc
    exact .inl hc
  have he : expr (s!' " 1{" ++ t) = some (.int 1, '{' :: t) := by
    have := (parses (exprText_tokens (.int 1) hl) hl s!' "1" (.one _)).expr (exprText_tokens (.int 1) hl) (.one _) hb
      (closed_brace (r := t) blank_nil)
    simpa using this
  have h1 : ifElseStmtE expr sub (s!' "while 1{" ++ t) = none := rfl
  have h2 : forStmtE expr sub (s!' "while 1{" ++ t) = none := rfl
  have ht : tag s!' "while" (s!' "while 1{" ++ t) = some ((), s!' " 1{" ++ t) := rfl
  have hs2 : ∀ u, space ('{' :: u) = some ((), '{' :: u) := fun _ => rfl
  have hs3 : ∀ u, space ('w' :: u) = some ((), 'w' :: u) := fun _ => rfl
  have h3 : whileStmtE expr sub (s!' "while 1{" ++ t) = none := by
    rcases h with h | ⟨p, u, h⟩
    · simp only [whileStmtE, map, seqL, seq, seqR, ht, he, hs2, sym_cons, h]
    · simp only [whileStmtE, map, seqL, seq, seqR, ht, he, hs2, sym_cons, h, hs3, sym_ne (show ('w' : Char) ≠ '}' by decide)]
  simp only [stmtE, seqL, seqR, hsp, alt, loops_noSemi, blockStmtE, h1, h2, h3]

theorem stmtsWith_short : ∀ (m k : Nat) (r : Str), m ≤ k → stmtsWith expr noRoom (m + 1) (nestedLoops (k + 1) ++ r) =
    some ([], nestedLoops (k + 1) ++ r)
  | 0, k, r, _ => by
    refine many_none ?_
    rw [loops_head]
    exact loops_stmt (.inl rfl)
  | m + 1, 0, _, h => by omega
  | m + 1, k + 1, r, h => by
    refine many_none ?_
    rw [loops_head]
    refine loops_stmt (.inr ⟨[], s!' "hile 1{" ++ (nestedLoops k ++ '}' :: '}' :: r), ?_⟩)
    rw [stmtsWith_short m k _ (by omega), loops_head]
    rfl

theorem loops_tokens : ∀ n, ProgText (nestedWhile n) (progTokens (nestedWhile n)) ∧
    (Spaced (progTokens (nestedWhile n)) (nestedLoops n)) ∧ (n ≠ 0 → progTokens (nestedWhile n) ≠ [])
  | 0 => ⟨.nil, .nil, fun h => absurd rfl h⟩
  | n + 1 => by
    obtain ⟨h1, h2, h3⟩ := loops_tokens n
    have hl : Ladder (.int 1) := by simp [Ladder]
    have hb : Blank [' '] := by
      intro c hc
      simp only [List.mem_cons, List.not_mem_nil, or_false] at hc
      exact .inl hc
    have hp : ∀ c, (c = '{' ∨ c = '}') → ¬ WordChar c := by
      rintro c (rfl | rfl) <;> unfold WordChar Letter <;> decide
    have hts : progTokens (nestedWhile (n + 1)) =
        s!' "while" :: s!' "1" :: s!' "{" :: (progTokens (nestedWhile n) ++ [s!' "}"]) := by
      simp only [nestedWhile, progTokens, stmtTokens, tokens]
      have hd : Nat.toDigits 10 (Int.natAbs 1) = s!' "1" := rfl
      rw [hd]
      simp
    refine ⟨?_, ?_, fun _ => by rw [hts]; simp⟩
    · have hw : Writable (.while (.int 1) (nestedWhile n)) ∧ True := by
        refine ⟨?_, trivial⟩
        have : ∀ n, WritableAll (nestedWhile n) := by
          intro n
          induction n with
          | zero => simp [nestedWhile, WritableAll]
          | succ n ih => simp [nestedWhile, WritableAll, Writable, ih, hl]
        exact ⟨hl, this n⟩
      exact progText_tokens _ (by simp only [nestedWhile, WritableAll]; exact hw)
    · rw [hts]
      have hc : Spaced (progTokens (nestedWhile n) ++ [s!' "}"]) (nestedLoops n ++ s!' "}") := by
        cases n with
        | zero => exact .one s!' "}"
        | succ n => exact spaced_closed h2 (h3 (by omega)) (hp _ (.inr rfl))
      have ho : Spaced (s!' "{" :: (progTokens (nestedWhile n) ++ [s!' "}"])) (s!' "{" ++ (nestedLoops n ++ s!' "}")) :=
        spaced_open hc fun c hcc => by
          simp only [List.getLast?_singleton, Option.some.injEq] at hcc
          exact hp c (.inl hcc.symm)
      have hg : ¬ Glue s!' "1" s!' "{" := by
        rintro ⟨_, d, hd, hw⟩
        simp only [List.head?_cons, Option.some.injEq] at hd
        exact hp d (.inl hd.symm) hw
      have := Spaced.cons s!' "while" [' '] s!' "1" _ _ hb (by simp) (Spaced.cons s!' "1" [] s!' "{" _ _ blank_nil (fun _ => hg) ho)
      simpa [nestedLoops] using this

/-- `n` loops inside each other are a program. -/
theorem C105_loops_read (n : Nat) : parse (nestedLoops n) = some (nestedWhile n) := by
  obtain ⟨h1, h2, _⟩ := loops_tokens n
  have := C06_round_trip (w := []) (w2 := []) h1 h2 blank_nil blank_nil
  simpa using this

theorem blocks_loops : ∀ n, blocksIn (nestedLoops n) = n ∧ bracketsIn (nestedLoops n) = 0
  | 0 => ⟨rfl, rfl⟩
  | n + 1 => by
    obtain ⟨h1, h2⟩ := blocks_loops n
    have e1 : List.countP opensBlock s!' "while 1{" = 1 := rfl
    have e2 : List.countP opensExpr s!' "while 1{" = 0 := rfl
    have e3 : List.countP opensBlock s!' "}" = 0 := rfl
    have e4 : List.countP opensExpr s!' "}" = 0 := rfl
    simp only [blocksIn, bracketsIn] at h1 h2 ⊢
    simp only [nestedLoops, List.countP_append, e1, e2, e3, e4, h1, h2]
    exact ⟨by omega, trivial⟩

/-- The same of blocks: `n` loops inside each other need `n + 1` calls, whatever room there is for expressions. -/
theorem C105_loops_needed (n m : Nat) : (parseWith expr noRoom 1 m (nestedLoops n)).isSome ↔ n < m := by
  have hx : exprWith expr 1 = expr := by funext s; rw [exprWith, exprWith, expr_unfold]
  refine ⟨fun h => ?_, fun h => ?_⟩
  · refine Classical.byContradiction fun hm => ?_
    cases m with
    | zero => simp [parseWith, seqL, stmtsWith, noRoom] at h
    | succ m =>
      cases n with
      | zero => omega
      | succ n =>
        have hs := stmtsWith_short m n [] (by omega)
        rw [List.append_nil] at hs
        have hh : ∃ u, nestedLoops (n + 1) = 'w' :: u := ⟨_, rfl⟩
        obtain ⟨u, hu⟩ := hh
        have hf : seqL (seqL (stmtsWith (exprWith expr 1) noRoom (m + 1)) space) eof (nestedLoops (n + 1)) = none := by
          rw [hx]
          rw [hu] at hs ⊢
          simp only [seqL, hs]; rfl
        simp [parseWith, hf] at h
  · obtain ⟨h1, h2⟩ := blocks_loops n
    rw [C105_enough _ 1 m expr noRoom (by omega) (by omega), C105_loops_read]
    rfl

/-- No room is enough: for every limit there is a program that is read only beyond it. -/
theorem C105_no_limit (n m : Nat) : (∃ s p, parse s = some p ∧ bracketsIn s = n ∧ blocksIn s = 0 ∧ parseWith noRoom noRoom n 1 s = none) ∧
    ∃ s p, parse s = some p ∧ bracketsIn s = 0 ∧ blocksIn s = m ∧ parseWith expr noRoom 1 m s = none := by
  refine ⟨⟨_, _, C105_nested_read n, ?_, blocks_nested n, ?_⟩, ⟨_, _, C105_loops_read m, (blocks_loops m).2, (blocks_loops m).1, ?_⟩⟩
  · rw [opened_nested]; rfl
  · have := mt (C105_nested_needed n n).1 (by omega)
    simpa using this
  · have := mt (C105_loops_needed m m).1 (by omega)
    simpa using this

/-- What is read with room for `n` calls of the one kind and `m` of the other nests less deep than that: whatever the
text, the room needed is more than the tree nests. -/
theorem C105_tree {s : Str} {p : List Stmt} {n m : Nat} (h : parseWith noRoom noRoom n m s = some p) :
    (∀ e ∈ progExprs p, exprNest e < n) ∧ progNest p < m := by
  unfold parseWith at h
  split at h
  · rename_i p' r heq
    simp only [Option.some.injEq] at h
    subst h
    exact yields_seqL (yields_seqL (stmtsWith_nest (exprWith_nest n) m)) _ _ _ heq
  · simp at h

/-- So no tree nests deeper than there are brackets in its text. -/
theorem C105_tree_brackets {s : Str} {p : List Stmt} (h : parse s = some p) :
    (∀ e ∈ progExprs p, exprNest e ≤ bracketsIn s) ∧ progNest p ≤ blocksIn s := by
  rw [← C105_enough s (bracketsIn s + 1) (blocksIn s + 1) noRoom noRoom (by omega) (by omega)] at h
  obtain ⟨h1, h2⟩ := C105_tree h
  exact ⟨fun e he => by have := h1 e he; omega, by omega⟩

/-- a program that nests three deep in its expressions and two deep in its blocks -/
def threeDeep : Str := s!' "while 1{if a[f((1))]{b=(2);}}"

set_option maxRecDepth 100000 in
theorem threeDeep_read : parse threeDeep = some [.while (.int 1) [.ite (.index (.ident s!' "a") (.call (.ident s!' "f")
    [.paren (.int 1)])) [.assign (.ident s!' "b") (.paren (.int 2))] []]] := by with_unfolding_all rfl

example : ∃ p, parse threeDeep = some p ∧ (∃ e ∈ progExprs p, exprNest e = 3) ∧ progNest p = 2 ∧
    bracketsIn threeDeep = 4 ∧ blocksIn threeDeep = 2 :=
  ⟨_, threeDeep_read, ⟨_, .tail _ (.head _), rfl⟩, rfl, rfl, rfl⟩

/-- the texts are what they look like -/
example : nestedText 2 = s!' "((1))" ∧ nestedLoops 2 = s!' "while 1{while 1{}}" := ⟨rfl, rfl⟩

end Btrd
