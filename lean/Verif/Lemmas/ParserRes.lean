/-
What the results of the parser look like: integer literals fit 128 bits, names after `.`, loop variables
and cast types are identifiers, and so on.
-/
import Verif.Model.Parse
import Verif.Lemmas.EvalInd
import Verif.Spec.Arith
import Verif.Spec.Ints
import Verif.Lemmas.Arith

namespace Btrd
open Spec P

/-- every result of the parser satisfies `Q` -/
def Yields {α : Type} (p : P α) (Q : α → Prop) : Prop := ∀ s a s', p s = some (a, s') → Q a

section
variable {α β : Type} {p : P α} {q : P β} {Q : α → Prop} {Q' : β → Prop}

theorem yields_true (p : P α) : Yields p fun _ => True := fun _ _ _ _ => trivial

theorem Yields.mono (h : Yields p Q) {Q₂ : α → Prop} (h2 : ∀ a, Q a → Q₂ a) : Yields p Q₂ :=
  fun s a s' hs => h2 a (h s a s' hs)

theorem yields_map {f : α → β} (h : Yields p fun a => Q' (f a)) : Yields (map f p) Q' := by
  intro s b s' hs
  simp only [map] at hs
  split at hs
  · rename_i a s2 heq
    simp only [Option.some.injEq, Prod.mk.injEq] at hs
    rw [← hs.1]; exact h _ _ _ heq
  · simp at hs

theorem yields_seq (h1 : Yields p Q) (h2 : Yields q Q') : Yields (seq p q) fun r => Q r.1 ∧ Q' r.2 := by
  intro s b s' hs
  simp only [seq] at hs
  split at hs
  · rename_i a s2 heq
    split at hs
    · rename_i b s3 heq2
      simp only [Option.some.injEq, Prod.mk.injEq] at hs
      rw [← hs.1]; exact ⟨h1 _ _ _ heq, h2 _ _ _ heq2⟩
    · simp at hs
  · simp at hs

theorem yields_seqR (h2 : Yields q Q') : Yields (seqR p q) Q' := by
  intro s b s' hs
  simp only [seqR] at hs
  split at hs
  · exact h2 _ _ _ hs
  · simp at hs

theorem yields_seqL (h1 : Yields p Q) : Yields (seqL p q) Q := by
  intro s b s' hs
  simp only [seqL] at hs
  split at hs
  · rename_i a s2 heq
    split at hs
    · simp only [Option.some.injEq, Prod.mk.injEq] at hs
      rw [← hs.1]; exact h1 _ _ _ heq
    · simp at hs
  · simp at hs

theorem yields_alt {p' : P α} (h1 : Yields p Q) (h2 : Yields p' Q) : Yields (alt p p') Q := by
  intro s b s' hs
  simp only [alt] at hs
  split at hs
  · rename_i r heq
    simp only [Option.some.injEq] at hs; subst hs
    exact h1 _ _ _ heq
  · exact h2 _ _ _ hs

theorem yields_opt (h1 : Yields p Q) : Yields (opt p) fun o => ∀ a, o = some a → Q a := by
  intro s b s' hs
  simp only [opt] at hs
  split at hs
  · rename_i a s2 heq
    simp only [Option.some.injEq, Prod.mk.injEq] at hs
    rw [← hs.1]; rintro _ ⟨⟩; exact h1 _ _ _ heq
  · simp only [Option.some.injEq, Prod.mk.injEq] at hs
    rw [← hs.1]; simp

theorem yields_convert {f : α → Option β} (h : ∀ a b, f a = some b → Q' b) : Yields (convert f p) Q' := by
  intro s b s' hs
  simp only [convert] at hs
  split at hs
  · split at hs
    · rename_i b hb
      simp only [Option.some.injEq, Prod.mk.injEq] at hs
      rw [← hs.1]; exact h _ _ hb
    · simp at hs
  · simp at hs

theorem yields_manyF (n : Nat) (h : Yields p Q) : Yields (manyF n p) fun as => ∀ a ∈ as, Q a := by
  induction n with
  | zero => intro s b s' hs; simp only [manyF, Option.some.injEq, Prod.mk.injEq] at hs; rw [← hs.1]; simp
  | succ n ih =>
    intro s b s' hs
    simp only [manyF] at hs
    split at hs
    · rename_i a s2 heq
      split at hs
      · rename_i as s3 heq2
        simp only [Option.some.injEq, Prod.mk.injEq] at hs
        rw [← hs.1]
        simp only [List.mem_cons, forall_eq_or_imp]
        exact ⟨h _ _ _ heq, ih _ _ _ heq2⟩
      · simp at hs
    · simp only [Option.some.injEq, Prod.mk.injEq] at hs; rw [← hs.1]; simp

theorem yields_many (h : Yields p Q) : Yields (many p) fun as => ∀ a ∈ as, Q a :=
  fun s => yields_manyF _ h s

theorem yields_list (h : Yields p Q) : Yields (list p q) fun as => ∀ a ∈ as, Q a := by
  intro s b s' hs
  simp only [list] at hs
  split at hs
  · rename_i a s2 heq
    split at hs
    · rename_i as s3 heq2
      simp only [Option.some.injEq, Prod.mk.injEq] at hs
      rw [← hs.1]
      simp only [List.mem_cons, forall_eq_or_imp]
      exact ⟨h _ _ _ heq, yields_many (yields_seqR h) _ _ _ heq2⟩
    · simp at hs
  · simp only [Option.some.injEq, Prod.mk.injEq] at hs; rw [← hs.1]; simp

end

/-! ### a predicate on expressions that every rule preserves -/

/-- closed under the ways the rules build expressions -/
structure Built (Q : Expr → Prop) : Prop where
  ident : ∀ x, Q (.ident x)
  int : ∀ i, Fits i → Q (.int i)
  bool : ∀ b, Q (.bool b)
  str : ∀ s, Q (.str s)
  paren : ∀ e, Q e → Q (.paren e)
  field : ∀ e x, Q e → Q (.field e (.ident x))
  index : ∀ e i, Q e → Q i → Q (.index e i)
  call : ∀ f args, Q f → (∀ a ∈ args, Q a) → Q (.call f args)
  bin : ∀ op l r, Q l → Q r → Q (.bin op l r)
  un : ∀ op e, Q e → Q (.un op e)
  cast : ∀ x e, Q e → Q (.cast (.ident x) e)

section
variable {Q : Expr → Prop}

theorem yields_ident : Yields ident fun e => ∃ x, e = .ident x :=
  yields_map (fun _ _ _ _ => ⟨_, rfl⟩)

theorem yields_number : Yields number Fits := by
  refine yields_convert ?_
  intro a b h
  simp only [i128FromParts] at h
  by_cases hi : inI128 (if a.1.isSome = true then -(digitsVal a.2 : Int) else (digitsVal a.2 : Int)) = true
  · rw [if_pos hi] at h
    simp only [Option.some.injEq] at h
    rw [← h]; exact (inI128_iff _).1 hi
  · rw [if_neg hi] at h; simp at h

theorem yields_primary (hQ : Built Q) {sub : P Expr} (hs : Yields sub Q) : Yields (primaryExpr sub) Q := by
  refine yields_alt ?_ (yields_alt ?_ (yields_alt ?_ ?_))
  · exact yields_alt (yields_map (yields_number.mono hQ.int))
      (yields_alt (yields_map (fun _ _ _ _ => hQ.bool _)) (yields_map (fun _ _ _ _ => hQ.bool _)))
  · exact yields_ident.mono (by rintro _ ⟨x, rfl⟩; exact hQ.ident x)
  · exact yields_map (fun _ _ _ _ => hQ.str _)
  · exact yields_map ((yields_seqL (yields_seqL (yields_seqR hs))).mono hQ.paren)

/-- a postfix operator whose parts are fine -/
def PostfixOp.Ok (Q : Expr → Prop) : PostfixOp → Prop
  | .call args => ∀ a ∈ args, Q a
  | .index i => Q i
  | .field f => ∃ x, f = .ident x

theorem yields_postfixOp {sub : P Expr} (hs : Yields sub Q) : Yields (postfixOp sub) (PostfixOp.Ok Q) := by
  refine yields_alt ?_ (yields_alt ?_ ?_)
  · exact yields_map (yields_seqL (yields_seqL (yields_seqR (yields_list hs))))
  · exact yields_map (yields_seqL (yields_seqL (yields_seqR hs)))
  · exact yields_map (yields_seqR yields_ident)

theorem foldl_postfix (hQ : Built Q) : ∀ (ops : List PostfixOp) (e : Expr), Q e → (∀ o ∈ ops, o.Ok Q) →
    Q (ops.foldl applyPostfix e) := by
  intro ops
  induction ops with
  | nil => intro e he _; exact he
  | cons o ops ih =>
    intro e he ho
    simp only [List.mem_cons, forall_eq_or_imp] at ho
    simp only [List.foldl_cons]
    refine ih _ ?_ ho.2
    cases o with
    | call args => exact hQ.call _ _ he ho.1
    | index i => exact hQ.index _ _ he ho.1
    | field f => obtain ⟨x, rfl⟩ := ho.1; exact hQ.field _ _ he

theorem yields_postfix (hQ : Built Q) {sub : P Expr} (hs : Yields sub Q) : Yields (postfixExpr sub) Q := by
  refine yields_map ?_
  exact (yields_seq (yields_primary hQ hs) (yields_many (yields_seqR (yields_postfixOp hs)))).mono
    fun p hp => foldl_postfix hQ _ _ hp.1 hp.2

theorem yields_prefixOp : Yields prefixOp fun o => (∃ u, o = .op u) ∨ ∃ x, o = .cast (.ident x) := by
  refine yields_alt ?_ (yields_alt ?_ (yields_alt ?_ ?_))
  · exact yields_map (fun _ _ _ _ => .inl ⟨_, rfl⟩)
  · exact yields_map (fun _ _ _ _ => .inl ⟨_, rfl⟩)
  · exact yields_map (fun _ _ _ _ => .inl ⟨_, rfl⟩)
  · refine yields_map (yields_seqL (yields_seqL (yields_seqR ?_)))
    exact (yields_seqR yields_ident).mono (by rintro _ ⟨x, rfl⟩; exact .inr ⟨x, rfl⟩)

theorem yields_unary (hQ : Built Q) {sub : P Expr} (hs : Yields sub Q) : Yields (unaryExpr sub) Q := by
  refine yields_map ?_
  refine (yields_seq (yields_seqL (yields_many (yields_seqL yields_prefixOp))) (yields_postfix hQ hs)).mono ?_
  rintro ⟨ops, e⟩ ⟨h1, h2⟩
  simp only at h1 h2 ⊢
  induction ops with
  | nil => exact h2
  | cons o ops ih =>
    simp only [List.mem_cons, forall_eq_or_imp] at h1
    simp only [List.foldr_cons]
    rcases h1.1 with ⟨u, rfl⟩ | ⟨x, rfl⟩
    · exact hQ.un _ _ (ih h1.2)
    · exact hQ.cast _ _ (ih h1.2)

theorem yields_binLevel (hQ : Built Q) {ops : P BinOp} {next : P Expr} (hn : Yields next Q) :
    Yields (binLevel ops next) Q := by
  refine yields_map ?_
  refine (yields_seq hn (yields_many (yields_seq (yields_true _) hn))).mono ?_
  rintro ⟨e, rest⟩ ⟨h1, h2⟩
  simp only at h1 h2 ⊢
  induction rest generalizing e with
  | nil => exact h1
  | cons q rest ih =>
    simp only [List.mem_cons, forall_eq_or_imp] at h2
    simp only [List.foldl_cons]
    exact ih _ (hQ.bin _ _ _ h1 h2.1.2) h2.2

theorem yields_eq (hQ : Built Q) {sub : P Expr} (hn : Yields (relationExpr sub) Q) : Yields (eqExpr sub) Q := by
  refine yields_map ?_
  refine (yields_seq hn (yields_opt (yields_seq (yields_true _) hn))).mono ?_
  rintro ⟨e, o⟩ ⟨h1, h2⟩
  cases o with
  | none => exact h1
  | some q => exact hQ.bin _ _ _ h1 (h2 q rfl).2

theorem yields_or (hQ : Built Q) {sub : P Expr} (hs : Yields sub Q) : Yields (orExpr sub) Q := by
  have h := yields_unary hQ hs
  have h := yields_binLevel hQ (ops := alt (opTag s!' "*" .mul) <| alt (opTag s!' "/" .div) (opTag s!' "%" .mod)) h
  have h := yields_binLevel hQ (ops := alt (opTag s!' "+" .plus) (opTag s!' "-" .minus)) h
  have h := yields_binLevel hQ (ops := alt (opTag s!' "<<" .shl) (opTag s!' ">>" .shr)) h
  have h := yields_binLevel hQ (ops := alt (opTag s!' "<=" .le) <| alt (opTag s!' "<" .lt) <|
    alt (opTag s!' ">=" .ge) (opTag s!' ">" .gt)) h
  have h := yields_eq hQ (sub := sub) h
  have h := yields_binLevel hQ (ops := map (fun _ => .band) (sym '&')) h
  have h := yields_binLevel hQ (ops := map (fun _ => .bxor) (sym '^')) h
  have h := yields_binLevel hQ (ops := map (fun _ => .bor) (sym '|')) h
  have h := yields_binLevel hQ (ops := opTag s!' "&&" .land) h
  exact yields_binLevel hQ h

theorem yields_exprF (hQ : Built Q) : ∀ n, Yields (exprF n) Q
  | 0 => by intro s a s' h; simp [exprF] at h
  | n + 1 => yields_seqR (yields_or hQ (yields_exprF hQ n))

theorem yields_expr (hQ : Built Q) : Yields expr Q := fun s => yields_exprF hQ _ s

/-! ### statements -/

mutual
/-- a statement the parser can build out of expressions with `Q` -/
def Stmt.Shaped (Q : Expr → Prop) : Stmt → Prop
  | .assign l r => Q l ∧ Q r
  | .ite c t f => Q c ∧ shaped Q t ∧ shaped Q f
  | .while c b => Q c ∧ shaped Q b
  | .for x r b => (∃ n, x = .ident n) ∧ Q r ∧ shaped Q b
  | .filesystem e => ∃ s, e = .str s
  | .print e => Q e
  | .expr e => Q e
  | .brk => True
  | .cont => True
  | .help => True
  | .quit => True
def shaped (Q : Expr → Prop) : List Stmt → Prop
  | [] => True
  | s :: ss => s.Shaped Q ∧ shaped Q ss
end

theorem shaped_iff (Q : Expr → Prop) (ss : List Stmt) : shaped Q ss ↔ ∀ s ∈ ss, s.Shaped Q := by
  induction ss with
  | nil => simp [shaped]
  | cons s ss ih => simp [shaped, ih]

theorem yields_assign (hQ : Built Q) : Yields assignStmt (Stmt.Shaped Q) := by
  have he := yields_expr hQ
  refine yields_alt ?_ (yields_alt ?_ ?_)
  · refine yields_map ((yields_seq (yields_seqL (yields_seqL he)) he).mono ?_)
    rintro ⟨l, r⟩ ⟨h1, h2⟩
    simp only [Stmt.Shaped]
    exact ⟨h1, hQ.bin _ _ _ h1 h2⟩
  · refine yields_map ((yields_seq (yields_seqL (yields_seqL he)) he).mono ?_)
    rintro ⟨l, r⟩ ⟨h1, h2⟩
    simp only [Stmt.Shaped]
    exact ⟨h1, hQ.bin _ _ _ h1 h2⟩
  · refine yields_map ((yields_seq (yields_seqL (yields_seqL he)) he).mono ?_)
    rintro ⟨l, r⟩ ⟨h1, h2⟩
    simp only [Stmt.Shaped]
    exact ⟨h1, h2⟩

theorem yields_block (hQ : Built Q) {sub : P (List Stmt)} (hs : Yields sub (shaped Q)) :
    Yields (blockStmt sub) (Stmt.Shaped Q) := by
  have he := yields_expr hQ
  refine yields_alt ?_ (yields_alt ?_ ?_)
  · refine yields_map ((yields_seq (yields_seqL (yields_seqL (yields_seq (yields_seqL (yields_seqL (yields_seqR he))) hs)))
      (yields_opt (yields_seqL (yields_seqL (yields_seqR hs))))).mono ?_)
    rintro ⟨⟨c, t⟩, o⟩ ⟨⟨h1, h2⟩, h3⟩
    simp only [Stmt.Shaped]
    refine ⟨h1, h2, ?_⟩
    cases o with
    | none => simp [shaped]
    | some f => exact h3 f rfl
  · refine yields_map ((yields_seqL (yields_seqL (yields_seq (yields_seqL (yields_seqL (yields_seqR he))) hs))).mono ?_)
    rintro ⟨c, b⟩ ⟨h1, h2⟩
    simp only [Stmt.Shaped]
    exact ⟨h1, h2⟩
  · refine yields_map ((yields_seqL (yields_seqL (yields_seq (yields_seqL (yields_seqL
      (yields_seq (yields_seqL (yields_seqL (yields_seqR yields_ident))) he))) hs))).mono ?_)
    rintro ⟨⟨x, r⟩, b⟩ ⟨⟨h1, h2⟩, h3⟩
    simp only [Stmt.Shaped]
    exact ⟨h1, h2, h3⟩

theorem yields_stmt (hQ : Built Q) {sub : P (List Stmt)} (hs : Yields sub (shaped Q)) :
    Yields (stmt sub) (Stmt.Shaped Q) := by
  have he := yields_expr hQ
  refine yields_seqL (yields_seqR (yields_alt ?_ (yields_block hQ hs)))
  refine yields_seqL (yields_seqL (yields_alt ?_ (yields_alt ?_ (yields_alt (yields_assign hQ) ?_))))
  · refine yields_alt ?_ (yields_alt ?_ (yields_alt ?_ ?_))
    · refine yields_map (yields_seqR (yields_map (fun _ _ _ _ => ?_)))
      simp only [Stmt.Shaped]; exact ⟨_, rfl⟩
    · refine yields_seqR (yields_map (he.mono ?_))
      intro e h; simp only [Stmt.Shaped]; exact h
    · exact yields_map (fun _ _ _ _ => by simp only [Stmt.Shaped])
    · exact yields_map (fun _ _ _ _ => by simp only [Stmt.Shaped])
  · refine yields_alt ?_ ?_
    · exact yields_map (fun _ _ _ _ => by simp only [Stmt.Shaped])
    · exact yields_map (fun _ _ _ _ => by simp only [Stmt.Shaped])
  · refine yields_map (he.mono ?_)
    intro e h; simp only [Stmt.Shaped]; exact h

theorem yields_stmtsF (hQ : Built Q) : ∀ n, Yields (stmtsF n) (shaped Q)
  | 0 => by intro s a s' h; simp [stmtsF] at h
  | n + 1 => by
    refine (yields_many (yields_stmt hQ (yields_stmtsF hQ n))).mono ?_
    intro ss h; exact (shaped_iff Q ss).2 h

/-- every accepted program is built out of expressions with `Q` -/
theorem parse_shaped (hQ : Built Q) {input : Str} {p : List Stmt} (h : parse input = some p) : shaped Q p := by
  unfold parse at h
  split at h
  · rename_i q s' heq
    simp only [Option.some.injEq] at h; subst h
    exact (yields_seqL (yields_seqL (fun s => yields_stmtsF hQ _ s))) _ _ _ heq
  · simp at h

end

mutual
theorem Stmt.Shaped.allE {Q : Expr → Prop} (hQ : Built Q) : ∀ s : Stmt, s.Shaped Q → s.AllE Q
  | .assign _ _, h => by simpa only [Stmt.Shaped, Stmt.AllE] using h
  | .ite c t f, h => by
    simp only [Stmt.Shaped, Stmt.AllE] at *
    exact ⟨h.1, shaped_allE hQ t h.2.1, shaped_allE hQ f h.2.2⟩
  | .while c b, h => by
    simp only [Stmt.Shaped, Stmt.AllE] at *
    exact ⟨h.1, shaped_allE hQ b h.2⟩
  | .for x r b, h => by
    simp only [Stmt.Shaped, Stmt.AllE] at *
    obtain ⟨⟨n, rfl⟩, h2, h3⟩ := h
    exact ⟨hQ.ident n, h2, shaped_allE hQ b h3⟩
  | .filesystem e, h => by
    simp only [Stmt.Shaped, Stmt.AllE] at *
    obtain ⟨s, rfl⟩ := h
    exact hQ.str s
  | .print _, h => by simpa only [Stmt.Shaped, Stmt.AllE] using h
  | .expr _, h => by simpa only [Stmt.Shaped, Stmt.AllE] using h
  | .brk, _ => trivial
  | .cont, _ => trivial
  | .help, _ => trivial
  | .quit, _ => trivial
theorem shaped_allE {Q : Expr → Prop} (hQ : Built Q) : ∀ ss : List Stmt, shaped Q ss → Btrd.allE Q ss
  | [], _ => trivial
  | s :: ss, h => by
    simp only [shaped, Btrd.allE] at *
    exact ⟨Stmt.Shaped.allE hQ s h.1, shaped_allE hQ ss h.2⟩
end

theorem literalsL_iff (P : Int → Prop) (es : List Expr) :
    (∀ i ∈ literalsL es, P i) ↔ ∀ e ∈ es, ∀ i ∈ e.literals, P i := by
  induction es with
  | nil => simp [literalsL]
  | cons e es ih =>
    simp only [literalsL, List.mem_append, List.mem_cons, forall_eq_or_imp, ← ih]
    constructor
    · intro h; exact ⟨fun i hi => h i (.inl hi), fun i hi => h i (.inr hi)⟩
    · rintro ⟨h1, h2⟩ i (hi | hi)
      · exact h1 i hi
      · exact h2 i hi

theorem built_literals : Built fun e => ∀ i ∈ e.literals, Fits i where
  ident := by simp [Expr.literals]
  int := by simp [Expr.literals]
  bool := by simp [Expr.literals]
  str := by simp [Expr.literals]
  paren := by intro e h; simpa only [Expr.literals] using h
  field := by intro e x h; simpa only [Expr.literals] using h
  index := by
    intro e i h1 h2 j hj
    simp only [Expr.literals, List.mem_append] at hj
    exact hj.elim (h1 j) (h2 j)
  call := by
    intro f args h1 h2 j hj
    simp only [Expr.literals, List.mem_append] at hj
    exact hj.elim (h1 j) ((literalsL_iff Fits args).2 h2 j)
  bin := by
    intro op l r h1 h2 j hj
    simp only [Expr.literals, List.mem_append] at hj
    exact hj.elim (h1 j) (h2 j)
  un := by intro op e h; simpa only [Expr.literals] using h
  cast := by intro x e h; simpa only [Expr.literals] using h

/-- every integer literal of an accepted program fits 128 bits -/
theorem parse_literals {input : Str} {p : List Stmt} (h : parse input = some p) :
    allE (fun e => ∀ i ∈ e.literals, Fits i) p :=
  shaped_allE built_literals p (parse_shaped built_literals h)

end Btrd
