/-
How deep the rules of the grammar call themselves: the argument of `Lemmas/ParserFuel` with the number of brackets in
the rest of the text in the place of its length.
-/
import Verif.Model.Nesting
import Verif.Spec.Nesting
import Verif.Lemmas.ParserFuel

namespace Btrd
open P Spec

/-- a kind of texts that contains the rest of each of its texts -/
class TailKind (D : Str → Prop) : Prop where
  tail : ∀ t s, D (t ++ s) → D s

/-- the parsers agree on the texts of the kind `D` -/
def AgreeOn (D : Str → Prop) {α : Type} (p p' : P α) : Prop := ∀ s : Str, D s → p s = p' s

/-- the texts with at most `n` open brackets and `m` open blocks -/
def UpTo (n m : Option Nat) (s : Str) : Prop :=
  (∀ k, n = some k → bracketsIn s ≤ k) ∧ (∀ k, m = some k → blocksIn s ≤ k)

instance (n m : Option Nat) : TailKind (UpTo n m) where
  tail t s h := by
    refine ⟨fun k hk => ?_, fun k hk => ?_⟩
    · have := h.1 k hk; simp only [bracketsIn, List.countP_append] at this ⊢; omega
    · have := h.2 k hk; simp only [blocksIn, List.countP_append] at this ⊢; omega

instance : TailKind (fun _ => False) where
  tail _ _ h := h

/-- a success reads one of the characters of the kind `S` -/
def Drops (S : Char → Bool) {α : Type} (p : P α) : Prop := ∀ s a s', p s = some (a, s') → s'.countP S < s.countP S

section
variable {S : Char → Bool} {D : Str → Prop} [TailKind D] {α β : Type} {p p' : P α} {q q' : P β}

theorem Reads.fewer (h : Reads p) (S : Char → Bool) {s : Str} {a : α} {s' : Str} (hs : p s = some (a, s')) :
    s'.countP S ≤ s.countP S := by
  obtain ⟨t, rfl⟩ := h s a s' hs; simp

theorem sym_drops {c : Char} (hc : S c = true) : Drops S (sym c) := by
  intro s a s' h
  cases s with
  | nil => simp [sym, isA] at h
  | cons d ds =>
    simp only [sym, isA] at h
    split at h
    · rename_i hd
      simp only [Option.some.injEq, Prod.mk.injEq] at h
      have hd' : d = c := by simpa using hd
      subst hd'
      rw [← h.2, List.countP_cons_of_pos hc]; omega
    · simp at h

theorem seqR_drops_r (h : Reads p) (h2 : Drops S q) : Drops S (seqR p q) := fun s b s' hs => by
  obtain ⟨a, s1, h1, h3⟩ := seqR_some hs
  have := h.fewer S h1
  have := h2 _ _ _ h3
  omega

theorem seqL_drops_r (h : Reads p) (h2 : Drops S q) : Drops S (seqL p q) := fun s b s' hs => by
  obtain ⟨a, s1, h1, h3⟩ := seqL_some hs
  have := h.fewer S h1
  have := h2 _ _ _ h3
  omega

theorem Reads.stays (h : Reads p) {s : Str} {a : α} {s' : Str} (hs : p s = some (a, s')) (hD : D s) : D s' := by
  obtain ⟨t, rfl⟩ := h s a s' hs
  exact TailKind.tail t s' hD

omit [TailKind D] in
theorem AgreeOn.refl (D : Str → Prop) (p : P α) : AgreeOn D p p := fun _ _ => rfl

theorem on_map {f : α → β} (h : AgreeOn D p p') : AgreeOn D (map f p) (map f p') := fun s hs => by
  simp only [map, h s hs]

theorem on_alt {p2 p2' : P α} (h : AgreeOn D p p') (h2 : AgreeOn D p2 p2') :
    AgreeOn D (alt p p2) (alt p' p2') := fun s hs => by
  simp only [alt, h s hs, h2 s hs]

theorem on_opt (h : AgreeOn D p p') : AgreeOn D (opt p) (opt p') := fun s hs => by
  simp only [opt, h s hs]

theorem on_seq (hr : Reads p) (h : AgreeOn D p p') (h2 : AgreeOn D q q') :
    AgreeOn D (seq p q) (seq p' q') := fun s hs => by
  simp only [seq, ← h s hs]
  cases hp : p s with
  | none => rfl
  | some r =>
    obtain ⟨a, s'⟩ := r
    simp only [h2 s' (hr.stays hp hs)]

theorem on_seqR (hr : Reads p) (h : AgreeOn D p p') (h2 : AgreeOn D q q') :
    AgreeOn D (seqR p q) (seqR p' q') := fun s hs => by
  simp only [seqR, ← h s hs]
  cases hp : p s with
  | none => rfl
  | some r =>
    obtain ⟨a, s'⟩ := r
    simp only [h2 s' (hr.stays hp hs)]

theorem on_seqL (hr : Reads p) (h : AgreeOn D p p') (h2 : AgreeOn D q q') :
    AgreeOn D (seqL p q) (seqL p' q') := fun s hs => by
  simp only [seqL, ← h s hs]
  cases hp : p s with
  | none => rfl
  | some r =>
    obtain ⟨a, s'⟩ := r
    simp only [h2 s' (hr.stays hp hs)]

theorem on_manyF (hr : Reads p) (h : AgreeOn D p p') : ∀ n, AgreeOn D (manyF n p) (manyF n p')
  | 0 => fun _ _ => rfl
  | n + 1 => fun s hs => by
    simp only [manyF, ← h s hs]
    cases hp : p s with
    | none => rfl
    | some r =>
      obtain ⟨a, s'⟩ := r
      simp only [on_manyF hr h n s' (hr.stays hp hs)]

theorem on_many (hr : Reads p) (h : AgreeOn D p p') : AgreeOn D (many p) (many p') := fun s hs =>
  on_manyF hr h _ s hs

theorem on_list (hr : Reads p) (hq : Reads q) (h : AgreeOn D p p') : AgreeOn D (list p q) (list p' q) := fun s hs => by
  simp only [list, ← h s hs]
  cases hp : p s with
  | none => rfl
  | some r =>
    obtain ⟨a, s'⟩ := r
    simp only [on_many (seqR_reads hq hr) (on_seqR hq (AgreeOn.refl _ _) h) s' (hr.stays hp hs)]

end

/-- what a success of the rule leaves of a text of the kind `D` is of the kind `D'` -/
def Leaves {α : Type} (D D' : Str → Prop) (p : P α) : Prop := ∀ s a s', D s → p s = some (a, s') → D' s'

theorem on_inside {D D' : Str → Prop} {α β : Type} {p : P α} {q q' : P β} (hr : Leaves D D' p)
    (h2 : AgreeOn D' q q') : AgreeOn D (seqR p q) (seqR p q') := fun s hs => by
  simp only [seqR]
  cases hp : p s with
  | none => rfl
  | some r =>
    obtain ⟨a, s'⟩ := r
    simp only [h2 s' (hr _ _ _ hs hp)]

theorem on_inside_seq {D D' : Str → Prop} {α β : Type} {p p' : P α} {q q' : P β} (hr : Leaves D D' p)
    (h : AgreeOn D p p') (h2 : AgreeOn D' q q') : AgreeOn D (seq p q) (seq p' q') := fun s hs => by
  simp only [seq, ← h s hs]
  cases hp : p s with
  | none => rfl
  | some r =>
    obtain ⟨a, s'⟩ := r
    simp only [h2 s' (hr _ _ _ hs hp)]

section
variable {D D' : Str → Prop} [TailKind D] [TailKind D'] {sub sub' : P Expr} (hs : Reads sub)
  (hD : ∀ c, opensExpr c = true → Leaves D D' (sym c)) (h : AgreeOn D' sub sub')
include hs hD h

theorem on_primary : AgreeOn D (primaryExpr sub) (primaryExpr sub') :=
  on_alt (AgreeOn.refl _ _) <| on_alt (AgreeOn.refl _ _) <| on_alt (AgreeOn.refl _ _) <|
    on_map (on_seqL (seqL_reads (seqR_reads (sym_eats _).reads hs) space_reads)
      (on_seqL (seqR_reads (sym_eats _).reads hs) (on_inside (hD _ rfl) h) (AgreeOn.refl _ _))
      (AgreeOn.refl _ _))

theorem on_postfixOp : AgreeOn D (postfixOp sub) (postfixOp sub') := by
  have hsep : Reads (seqR space (sym ',')) := seqR_reads space_reads (sym_eats _).reads
  refine on_alt (on_map ?_) (on_alt (on_map ?_) (AgreeOn.refl _ _))
  · exact on_seqL (seqL_reads (seqR_reads (sym_eats _).reads (list_reads hs hsep)) space_reads)
      (on_seqL (seqR_reads (sym_eats _).reads (list_reads hs hsep))
        (on_inside (hD _ rfl) (on_list hs hsep h)) (AgreeOn.refl _ _)) (AgreeOn.refl _ _)
  · exact on_seqL (seqL_reads (seqR_reads (sym_eats _).reads hs) space_reads)
      (on_seqL (seqR_reads (sym_eats _).reads hs) (on_inside (hD _ rfl) h) (AgreeOn.refl _ _))
      (AgreeOn.refl _ _)

theorem on_postfix : AgreeOn D (postfixExpr sub) (postfixExpr sub') :=
  on_map (on_seq (primary_eats hs).reads (on_primary hs hD h)
    (on_many (postfixItem_eats hs).reads (on_seqR space_reads (AgreeOn.refl _ _) (on_postfixOp hs hD h))))

theorem on_unary : AgreeOn D (unaryExpr sub) (unaryExpr sub') :=
  on_map (on_seq (seqL_reads (many_reads prefixItem_eats.reads) space_reads) (AgreeOn.refl _ _)
    (on_postfix hs hD h))

end

theorem on_binLevel {D : Str → Prop} [TailKind D] {ops : P BinOp} {next next' : P Expr} (ho : Reads ops) (hn : Eats next)
    (h : AgreeOn D next next') : AgreeOn D (binLevel ops next) (binLevel ops next') :=
  on_map (on_seq hn.reads h (on_many (binItem_eats ho hn).reads
    (on_seq (seqL_reads (seqR_reads space_reads ho) space_reads) (AgreeOn.refl _ _) h)))

section
variable {D D' : Str → Prop} [TailKind D] [TailKind D'] {sub sub' : P Expr} (hs : Reads sub)
  (hD : ∀ c, opensExpr c = true → Leaves D D' (sym c)) (h : AgreeOn D' sub sub')
include hs hD h

theorem on_relation : AgreeOn D (relationExpr sub) (relationExpr sub') :=
  on_binLevel (alt_reads (opTag_reads _ _) (alt_reads (opTag_reads _ _)
    (alt_reads (opTag_reads _ _) (opTag_reads _ _)))) (shift_eats hs) <|
  on_binLevel (alt_reads (opTag_reads _ _) (opTag_reads _ _)) (add_eats hs) <|
  on_binLevel (alt_reads (opTag_reads _ _) (opTag_reads _ _)) (mult_eats hs) <|
  on_binLevel (alt_reads (opTag_reads _ _) (alt_reads (opTag_reads _ _) (opTag_reads _ _))) (unary_eats hs) <|
  on_unary hs hD h

theorem on_eq : AgreeOn D (eqExpr sub) (eqExpr sub') :=
  on_map (on_seq (relation_eats hs).reads (on_relation hs hD h) (on_opt
    (on_seq (seqL_reads (seqR_reads space_reads (alt_reads (opTag_reads _ _) (opTag_reads _ _))) space_reads)
      (AgreeOn.refl _ _) (on_relation hs hD h))))

theorem on_or : AgreeOn D (orExpr sub) (orExpr sub') :=
  on_binLevel (opTag_reads _ _) (and_eats hs) <|
  on_binLevel (opTag_reads _ _) (bitOr_eats hs) <|
  on_binLevel (map_reads (sym_eats _).reads) (bitXor_eats hs) <|
  on_binLevel (map_reads (sym_eats _).reads) (bitAnd_eats hs) <|
  on_binLevel (map_reads (sym_eats _).reads) (eq_eats hs) <|
  on_eq hs hD h

end

theorem leaves_of_drops {α : Type} {S : Char → Bool} {p : P α} (hr : Reads p) (h : Drops S p) :
    ∀ s a s', p s = some (a, s') → s'.countP S < s.countP S ∧ ∀ S', s'.countP S' ≤ s.countP S' :=
  fun s a s' hp => ⟨h s a s' hp, fun S' => hr.fewer S' hp⟩

/-- behind a bracket there is one bracket less -/
theorem leaves_sym {n : Nat} {m : Option Nat} (c : Char) (hc : opensExpr c = true) :
    Leaves (UpTo (some (n + 1)) m) (UpTo (some n) m) (sym c) := fun s a s' hs hp => by
  obtain ⟨h1, h2⟩ := leaves_of_drops (sym_eats c).reads (sym_drops hc) s a s' hp
  refine ⟨fun k hk => ?_, fun k hk => ?_⟩
  · have := hs.1 (n + 1) rfl
    simp only [Option.some.injEq] at hk
    simp only [bracketsIn] at this ⊢; omega
  · have := hs.2 k hk
    have := h2 opensBlock
    simp only [blocksIn] at *; omega

theorem leaves_never {m : Option Nat} {D' : Str → Prop} (c : Char) (hc : opensExpr c = true) :
    Leaves (UpTo (some 0) m) D' (sym c) := fun s a s' hs hp => by
  have h1 := sym_drops (S := opensExpr) hc s a s' hp
  have := hs.1 0 rfl
  simp only [bracketsIn] at this; omega

/-- With more room than brackets, the limit is never met. -/
theorem exprWith_enough (deep : P Expr) (m : Option Nat) : ∀ (k n : Nat), k < n →
    AgreeOn (UpTo (some k) m) expr (exprWith deep n)
  | _, 0, hn => by omega
  | 0, n + 1, _ => fun s hs => by
    rw [expr_unfold]
    exact on_seqR (D := UpTo (some 0) m) space_reads (AgreeOn.refl _ _)
      (on_or (D' := fun _ => False) expr_eats.reads leaves_never fun _ h => h.elim) s hs
  | k + 1, n + 1, hn => fun s hs => by
    rw [expr_unfold]
    exact on_seqR (D := UpTo (some (k + 1)) m) space_reads (AgreeOn.refl _ _)
      (on_or expr_eats.reads leaves_sym (exprWith_enough deep m k n (by omega))) s hs

/-! ### statements -/

section
variable {D : Str → Prop} [TailKind D] {e' : P Expr} (he : AgreeOn D expr e')
include he

theorem on_assign : AgreeOn D assignStmt (assignStmtE e') := by
  have h1 : Reads (seqL (seqL expr space) (tag s!' "+=")) := seqL_reads (seqL_reads expr_eats.reads space_reads) (tag_reads _)
  have h2 : Reads (seqL (seqL expr space) (tag s!' "-=")) := seqL_reads (seqL_reads expr_eats.reads space_reads) (tag_reads _)
  have h3 : Reads (seqL (seqL expr space) (sym '=')) := seqL_reads (seqL_reads expr_eats.reads space_reads) (sym_eats _).reads
  have h0 : Reads (seqL expr space) := seqL_reads expr_eats.reads space_reads
  have h4 : AgreeOn D (seqL expr space) (seqL e' space) := on_seqL expr_eats.reads he (AgreeOn.refl _ _)
  exact on_alt (on_map (on_seq h1 (on_seqL h0 h4 (AgreeOn.refl _ _)) he)) <|
    on_alt (on_map (on_seq h2 (on_seqL h0 h4 (AgreeOn.refl _ _)) he))
      (on_map (on_seq h3 (on_seqL h0 h4 (AgreeOn.refl _ _)) he))

theorem on_builtin : AgreeOn D builtinStmt (builtinStmtE e') :=
  on_alt (AgreeOn.refl _ _) <| on_alt (on_seqR (tag_reads _) (AgreeOn.refl _ _) (on_map he)) (AgreeOn.refl _ _)

theorem on_semicolon : AgreeOn D stmtSemicolon (stmtSemicolonE e') := by
  have h0 : Reads (alt builtinStmt <| alt jumpStmt <| alt assignStmt exprStmt) :=
    alt_reads builtin_eats.reads (alt_reads jump_eats.reads (alt_reads assign_eats.reads exprStmt_eats.reads))
  exact on_seqL (seqL_reads h0 space_reads)
    (on_seqL h0 (on_alt (on_builtin he) (on_alt (AgreeOn.refl _ _) (on_alt (on_assign he) (on_map he))))
      (AgreeOn.refl _ _)) (AgreeOn.refl _ _)

end

section
variable {D D' : Str → Prop} [TailKind D] [TailKind D'] {e' : P Expr} {sub sub' : P (List Stmt)} (he : AgreeOn D expr e')
  (hs : Reads sub) (hD : Leaves D D' (sym '{')) (h : AgreeOn D' sub sub')
include he hs hD h

theorem leaves_seqL {α : Type} {p : P α} (hp : Reads p) : Leaves D D' (seqL p (sym '{')) := fun s a s' hd hp' => by
  obtain ⟨b, s1, h1, h3⟩ := seqL_some hp'
  exact hD _ _ _ (hp.stays h1 hd) h3

theorem leaves_seqR {α : Type} {p : P α} (hp : Reads p) : Leaves D D' (seqR p (sym '{')) := fun s a s' hd hp' => by
  obtain ⟨b, s1, h1, h3⟩ := seqR_some hp'
  exact hD _ _ _ (hp.stays h1 hd) h3

theorem on_block : AgreeOn D (blockStmt sub) (blockStmtE e' sub') := by
  have hw : ∀ t, AgreeOn D (seqR (tag t) expr) (seqR (tag t) e') := fun t => on_seqR (tag_reads _) (AgreeOn.refl _ _) he
  have hr : ∀ t, Reads (seqL (seqR (tag t) expr) space) := fun t => seqL_reads (seqR_reads (tag_reads _) expr_eats.reads) space_reads
  have hh : ∀ t, AgreeOn D (seqL (seqL (seqR (tag t) expr) space) (sym '{')) (seqL (seqL (seqR (tag t) e') space) (sym '{')) :=
    fun t => on_seqL (hr t) (on_seqL (seqR_reads (tag_reads _) expr_eats.reads) (hw t) (AgreeOn.refl _ _)) (AgreeOn.refl _ _)
  have hb : ∀ t, AgreeOn D (seqL (seqL (seq (seqL (seqL (seqR (tag t) expr) space) (sym '{')) sub) space) (sym '}'))
      (seqL (seqL (seq (seqL (seqL (seqR (tag t) e') space) (sym '{')) sub') space) (sym '}')) := fun t =>
    on_seqL (seqL_reads (seq_reads (seqL_reads (hr t) (sym_eats _).reads) hs) space_reads)
      (on_seqL (seq_reads (seqL_reads (hr t) (sym_eats _).reads) hs)
        (on_inside_seq (leaves_seqL he hs hD h (hr t)) (hh t) h) (AgreeOn.refl _ _)) (AgreeOn.refl _ _)
  have hbr : ∀ t, Reads (seqL (seqL (seq (seqL (seqL (seqR (tag t) expr) space) (sym '{')) sub) space) (sym '}')) := fun t =>
    seqL_reads (seqL_reads (seq_reads (seqL_reads (hr t) (sym_eats _).reads) hs) space_reads) (sym_eats _).reads
  refine on_alt (on_map (on_seq (hbr _) (hb _) (on_opt ?_))) (on_alt (on_map (hb _)) (on_map ?_))
  · have hel : Reads (seqR (seqR space (tag s!' "else")) space) := seqR_reads (seqR_reads space_reads (tag_reads _)) space_reads
    have hpre := seqR_reads hel (sym_eats '{').reads
    exact on_seqL (seqL_reads (seqR_reads hpre hs) space_reads)
      (on_seqL (seqR_reads hpre hs) (on_inside (leaves_seqR he hs hD h hel) h) (AgreeOn.refl _ _)) (AgreeOn.refl _ _)
  · have h0 : Reads (seqL (seqL (seqR (seqR (tag s!' "for") space) ident) space) (tag s!' "in")) :=
      seqL_reads (seqL_reads (seqR_reads (seqR_reads (tag_reads _) space_reads) ident_eats.reads) space_reads) (tag_reads _)
    have h1 := seq_reads h0 expr_eats.reads
    have h2 := seqL_reads h1 space_reads
    have h3 := seqL_reads h2 (sym_eats '{').reads
    exact on_seqL (seqL_reads (seq_reads h3 hs) space_reads)
      (on_seqL (seq_reads h3 hs)
        (on_inside_seq (leaves_seqL he hs hD h h2)
          (on_seqL h2 (on_seqL h1 (on_seq h0 (AgreeOn.refl _ _) he) (AgreeOn.refl _ _)) (AgreeOn.refl _ _)) h)
        (AgreeOn.refl _ _)) (AgreeOn.refl _ _)

theorem on_stmt : AgreeOn D (stmt sub) (stmtE e' sub') :=
  on_seqL (seqR_reads space_reads (alt_reads stmtSemicolon_eats.reads (block_eats hs).reads))
    (on_seqR space_reads (AgreeOn.refl _ _) (on_alt (on_semicolon he) (on_block he hs hD h))) (AgreeOn.refl _ _)

end

theorem leaves_brace {m : Nat} {n : Option Nat} : Leaves (UpTo n (some (m + 1))) (UpTo n (some m)) (sym '{') :=
  fun s a s' hs hp => by
  obtain ⟨h1, h2⟩ := leaves_of_drops (S := opensBlock) (sym_eats '{').reads (sym_drops rfl) s a s' hp
  refine ⟨fun k hk => ?_, fun k hk => ?_⟩
  · have := hs.1 k hk
    have := h2 opensExpr
    simp only [bracketsIn] at *; omega
  · have := hs.2 (m + 1) rfl
    simp only [Option.some.injEq] at hk
    simp only [blocksIn] at this ⊢; omega

theorem leaves_no_brace {n : Option Nat} {D' : Str → Prop} : Leaves (UpTo n (some 0)) D' (sym '{') :=
  fun s a s' hs hp => by
  have h1 := sym_drops (S := opensBlock) (c := '{') rfl s a s' hp
  have := hs.2 0 rfl
  simp only [blocksIn] at this; omega

/-- With more room than blocks, and a parser for expressions that is right on the text, the limit is never met. -/
theorem stmtsWith_enough (n : Option Nat) (deep : P (List Stmt)) {e' : P Expr} : ∀ (k m : Nat), k < m →
    AgreeOn (UpTo n (some k)) expr e' → AgreeOn (UpTo n (some k)) stmts (stmtsWith e' deep m)
  | _, 0, hm, _ => by omega
  | 0, m + 1, _, he => fun s hs => by
    rw [stmts_unfold]
    exact on_many (stmt_eats stmts_reads).reads
      (on_stmt (D' := fun _ => False) he stmts_reads leaves_no_brace fun _ h => h.elim) s hs
  | k + 1, m + 1, hm, he => fun s hs => by
    rw [stmts_unfold]
    refine on_many (stmt_eats stmts_reads).reads
      (on_stmt he stmts_reads leaves_brace (stmtsWith_enough n deep k m (by omega) fun t ht => he t ⟨ht.1, ?_⟩)) s hs
    intro j hj
    simp only [Option.some.injEq] at hj
    have := ht.2 k rfl
    omega

end Btrd
