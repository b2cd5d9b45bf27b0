/-
How deep the trees nest that the grammar with limited calls returns.
-/
import Verif.Lemmas.ParserRes
import Verif.Model.Nesting
import Verif.Spec.Nesting

namespace Btrd
open P Spec

/-- the rules build expressions with `Q` out of such expressions, and of expressions with `R` in brackets -/
structure BuiltIn (Q R : Expr → Prop) : Prop where
  ident : ∀ x, Q (.ident x)
  int : ∀ i, Q (.int i)
  bool : ∀ b, Q (.bool b)
  str : ∀ s, Q (.str s)
  paren : ∀ e, R e → Q (.paren e)
  field : ∀ e x, Q e → Q (.field e (.ident x))
  index : ∀ e i, Q e → R i → Q (.index e i)
  call : ∀ f args, Q f → (∀ a ∈ args, R a) → Q (.call f args)
  bin : ∀ op l r, Q l → Q r → Q (.bin op l r)
  un : ∀ op e, Q e → Q (.un op e)
  cast : ∀ x e, Q e → Q (.cast (.ident x) e)

section
variable {Q R : Expr → Prop} (hQ : BuiltIn Q R)
include hQ

theorem primary_builds {sub : P Expr} (hs : Yields sub R) : Yields (primaryExpr sub) Q := by
  refine yields_alt ?_ (yields_alt ?_ (yields_alt ?_ ?_))
  · exact yields_alt (yields_map (fun _ _ _ _ => hQ.int _))
      (yields_alt (yields_map (fun _ _ _ _ => hQ.bool _)) (yields_map (fun _ _ _ _ => hQ.bool _)))
  · exact yields_ident.mono (by rintro _ ⟨x, rfl⟩; exact hQ.ident x)
  · exact yields_map (fun _ _ _ _ => hQ.str _)
  · exact yields_map ((yields_seqL (yields_seqL (yields_seqR hs))).mono hQ.paren)

theorem postfix_builds {sub : P Expr} (hs : Yields sub R) : Yields (postfixExpr sub) Q := by
  refine yields_map ?_
  refine (yields_seq (primary_builds hQ hs) (yields_many (yields_seqR (yields_postfixOp hs)))).mono ?_
  rintro ⟨e, ops⟩ ⟨h1, h2⟩
  simp only at h1 h2 ⊢
  induction ops generalizing e with
  | nil => exact h1
  | cons o ops ih =>
    simp only [List.mem_cons, forall_eq_or_imp] at h2
    simp only [List.foldl_cons]
    refine ih _ ?_ h2.2
    cases o with
    | call args => exact hQ.call _ _ h1 h2.1
    | index i => exact hQ.index _ _ h1 h2.1
    | field f => obtain ⟨x, rfl⟩ := h2.1; exact hQ.field _ _ h1

theorem unary_builds {sub : P Expr} (hs : Yields sub R) : Yields (unaryExpr sub) Q := by
  refine yields_map ?_
  refine (yields_seq (yields_seqL (yields_many (yields_seqL yields_prefixOp))) (postfix_builds hQ hs)).mono ?_
  rintro ⟨ops, e⟩ ⟨h1, h2⟩
  simp only at h1 h2 ⊢
  induction ops with
  | nil => exact h2
  | cons o ops ih =>
    simp only [List.mem_cons, forall_eq_or_imp] at h1
    simp only [List.foldr_cons]
    rcases h1.1 with ⟨u, rfl⟩ | ⟨x, rfl⟩
    · exact hQ.un _ _ (ih h1.2)
    · exact hQ.cast _ _ (ih h1.2)

theorem level_builds {ops : P BinOp} {next : P Expr} (hn : Yields next Q) : Yields (binLevel ops next) Q := by
  refine yields_map ?_
  refine (yields_seq hn (yields_many (yields_seq (yields_true _) hn))).mono ?_
  rintro ⟨e, rest⟩ ⟨h1, h2⟩
  simp only at h1 h2 ⊢
  induction rest generalizing e with
  | nil => exact h1
  | cons q rest ih =>
    simp only [List.mem_cons, forall_eq_or_imp] at h2
    simp only [List.foldl_cons]
    exact ih _ (hQ.bin _ _ _ h1 h2.1.2) h2.2

theorem eq_builds {sub : P Expr} (hn : Yields (relationExpr sub) Q) : Yields (eqExpr sub) Q := by
  refine yields_map ?_
  refine (yields_seq hn (yields_opt (yields_seq (yields_true _) hn))).mono ?_
  rintro ⟨e, o⟩ ⟨h1, h2⟩
  cases o with
  | none => exact h1
  | some q => exact hQ.bin _ _ _ h1 (h2 q rfl).2

theorem or_builds {sub : P Expr} (hs : Yields sub R) : Yields (orExpr sub) Q :=
  level_builds hQ <| level_builds hQ <| level_builds hQ <| level_builds hQ <| level_builds hQ <| eq_builds hQ <|
    level_builds hQ <| level_builds hQ <| level_builds hQ <| level_builds hQ <| unary_builds hQ hs

end

theorem argsNest_lt {n : Nat} : ∀ {args : List Expr}, (∀ a ∈ args, exprNest a < n) → argsNest args < n + 1
  | [], _ => by simp [argsNest]
  | e :: es, h => by
    have h1 := h e (by simp)
    have h2 := argsNest_lt (args := es) fun a ha => h a (by simp [ha])
    simp only [argsNest]; omega

theorem built_nest (n : Nat) : BuiltIn (fun e => exprNest e < n + 1) (fun e => exprNest e < n) where
  ident _ := by simp [exprNest]
  int _ := by simp [exprNest]
  bool _ := by simp [exprNest]
  str _ := by simp [exprNest]
  paren e h := by simp only [exprNest]; omega
  field e x h := by simpa only [exprNest] using h
  index e i h h2 := by simp only [exprNest]; omega
  call f args h h2 := by have := argsNest_lt h2; simp only [exprNest]; omega
  bin op l r h h2 := by simp only [exprNest]; omega
  un op e h := by simpa only [exprNest] using h
  cast x e h := by simpa only [exprNest] using h

theorem exprWith_nest : ∀ n, Yields (exprWith noRoom n) fun e => exprNest e < n
  | 0 => by intro s a s' h; simp [exprWith, noRoom] at h
  | n + 1 => yields_seqR (or_builds (built_nest n) (exprWith_nest n))

/-! ### statements -/

/-- the expressions nest less than `n` deep, the blocks less than `m` -/
def StmtWithin (n m : Nat) (s : Stmt) : Prop := (∀ e ∈ stmtExprs s, exprNest e < n) ∧ stmtNest s < m

/-- the same of programs -/
def ProgWithin (n m : Nat) (p : List Stmt) : Prop := (∀ e ∈ progExprs p, exprNest e < n) ∧ progNest p < m

theorem progWithin_of {n m : Nat} : ∀ {p : List Stmt}, (∀ s ∈ p, StmtWithin n (m + 1) s) → ProgWithin n (m + 1) p
  | [], _ => ⟨by simp [progExprs], by simp [progNest]⟩
  | s :: ss, h => by
    obtain ⟨h1, h2⟩ := h s (by simp)
    obtain ⟨h3, h4⟩ := progWithin_of (p := ss) fun x hx => h x (by simp [hx])
    refine ⟨fun e he => ?_, by simp only [progNest]; omega⟩
    simp only [progExprs, List.mem_append] at he
    rcases he with he | he
    · exact h1 e he
    · exact h3 e he

section
variable {n m : Nat} {x : P Expr} (he : Yields x fun e => exprNest e < n)
include he

theorem assign_within : Yields (assignStmtE x) (StmtWithin n (m + 1)) := by
  have h : Yields (seq (seqL (seqL x space) (sym '=')) x) fun r => exprNest r.1 < n ∧ exprNest r.2 < n :=
    yields_seq (yields_seqL (yields_seqL he)) he
  have h' : ∀ t, Yields (seq (seqL (seqL x space) (tag t)) x) fun r => exprNest r.1 < n ∧ exprNest r.2 < n :=
    fun t => yields_seq (yields_seqL (yields_seqL he)) he
  refine yields_alt (yields_map ((h' _).mono ?_)) (yields_alt (yields_map ((h' _).mono ?_)) (yields_map (h.mono ?_)))
  all_goals
    rintro ⟨l, r⟩ ⟨h1, h2⟩
    simp only at h1 h2
    refine ⟨?_, by simp [stmtNest]⟩
    simp only [stmtExprs, List.mem_cons, List.not_mem_nil, or_false, forall_eq_or_imp, forall_eq, exprNest]
    omega

theorem builtin_within : Yields (builtinStmtE x) (StmtWithin n (m + 1)) := by
  refine yields_alt ?_ (yields_alt (yields_seqR (yields_map (he.mono fun a ha => ?_))) (yields_alt ?_ ?_))
  · exact yields_map fun _ _ _ _ => ⟨by simp [stmtExprs], by simp [stmtNest]⟩
  · exact ⟨by simpa [stmtExprs] using ha, by simp [stmtNest]⟩
  · exact yields_map fun _ _ _ _ => ⟨by simp [stmtExprs], by simp [stmtNest]⟩
  · exact yields_map fun _ _ _ _ => ⟨by simp [stmtExprs], by simp [stmtNest]⟩

theorem semicolon_within : Yields (stmtSemicolonE x) (StmtWithin n (m + 1)) := by
  refine yields_seqL (yields_seqL (yields_alt (builtin_within he) (yields_alt ?_ (yields_alt (assign_within he) ?_))))
  · exact yields_alt (yields_map fun _ _ _ _ => ⟨by simp [stmtExprs], by simp [stmtNest]⟩)
      (yields_map fun _ _ _ _ => ⟨by simp [stmtExprs], by simp [stmtNest]⟩)
  · exact yields_map (he.mono fun a ha => ⟨by simpa [stmtExprs] using ha, by simp [stmtNest]⟩)

theorem block_within {sub : P (List Stmt)} (hs : Yields sub (ProgWithin n m)) :
    Yields (blockStmtE x sub) (StmtWithin n (m + 1)) := by
  refine yields_alt ?_ (yields_alt ?_ ?_)
  · refine yields_map ((yields_seq (yields_seqL (yields_seqL (yields_seq (yields_seqL (yields_seqL (yields_seqR he))) hs)))
      (yields_opt (yields_seqL (yields_seqL (yields_seqR hs))))).mono ?_)
    rintro ⟨⟨c, t⟩, o⟩ ⟨⟨h1, h2⟩, h3⟩
    have hf : ProgWithin n m (o.getD []) := by
      cases o with
      | none => exact ⟨by simp [progExprs], by have := h2.2; simp only [Option.getD_none, progNest]; omega⟩
      | some f => exact h3 f rfl
    refine ⟨fun e hm => ?_, ?_⟩
    · simp only [stmtExprs, List.mem_cons, List.mem_append] at hm
      rcases hm with rfl | hm | hm
      · exact h1
      · exact h2.1 e hm
      · exact hf.1 e hm
    · have h4 : progNest t < m := h2.2
      have h5 := hf.2
      simp only [stmtNest]; omega
  · refine yields_map ((yields_seqL (yields_seqL (yields_seq (yields_seqL (yields_seqL (yields_seqR he))) hs))).mono ?_)
    rintro ⟨c, b⟩ ⟨h1, h2⟩
    refine ⟨fun e hm => ?_, ?_⟩
    · simp only [stmtExprs, List.mem_cons] at hm
      rcases hm with rfl | hm
      · exact h1
      · exact h2.1 e hm
    · have h4 : progNest b < m := h2.2
      simp only [stmtNest]; omega
  · refine yields_map ((yields_seqL (yields_seqL (yields_seq (yields_seqL (yields_seqL
      (yields_seq (yields_true _) he))) hs))).mono ?_)
    rintro ⟨⟨v, r⟩, b⟩ ⟨⟨_, h1⟩, h2⟩
    refine ⟨fun e hm => ?_, ?_⟩
    · simp only [stmtExprs, List.mem_cons] at hm
      rcases hm with rfl | hm
      · exact h1
      · exact h2.1 e hm
    · have h4 : progNest b < m := h2.2
      simp only [stmtNest]; omega

theorem stmtsWith_nest : ∀ m, Yields (stmtsWith x noRoom m) (ProgWithin n m)
  | 0 => by intro s a s' h; simp [stmtsWith, noRoom] at h
  | m + 1 => (yields_many (yields_seqL (yields_seqR (yields_alt (semicolon_within he)
      (block_within he (stmtsWith_nest m)))))).mono fun _ h => progWithin_of h

end

end Btrd
