/-
The ladder of `parse.rs` indexed by precedence level, and where each level stops reading.
-/
import Verif.Lemmas.Lexing

namespace Btrd
open P Spec

/-- the rule for expressions of at most this level -/
def lv : Nat → P Expr
  | 0 => primaryExpr expr
  | 1 => postfixExpr expr
  | 2 => unaryExpr expr
  | 3 => multExpr expr
  | 4 => addExpr expr
  | 5 => shiftExpr expr
  | 6 => relationExpr expr
  | 7 => eqExpr expr
  | 8 => bitAndExpr expr
  | 9 => bitXorExpr expr
  | 10 => bitOrExpr expr
  | 11 => andExpr expr
  | _ => orExpr expr

/-- the infix operators of a level -/
def opsAt : Nat → P BinOp
  | 3 => alt (opTag s!' "*" .mul) <| alt (opTag s!' "/" .div) (opTag s!' "%" .mod)
  | 4 => alt (opTag s!' "+" .plus) (opTag s!' "-" .minus)
  | 5 => alt (opTag s!' "<<" .shl) (opTag s!' ">>" .shr)
  | 6 => alt (opTag s!' "<=" .le) <| alt (opTag s!' "<" .lt) <| alt (opTag s!' ">=" .ge) (opTag s!' ">" .gt)
  | 7 => alt (opTag s!' "==" .eq) (opTag s!' "!=" .ne)
  | 8 => map (fun _ => .band) (sym '&')
  | 9 => map (fun _ => .bxor) (sym '^')
  | 10 => map (fun _ => .bor) (sym '|')
  | 11 => opTag s!' "&&" .land
  | 12 => opTag s!' "||" .lor
  | _ => fun _ => none

/-- an infix operator and its right operand -/
def item (k : Nat) : P (BinOp × Expr) := seq (seqL (seqR space (opsAt k)) space) (lv (k - 1))

/-- a postfix operator -/
def postItem : P PostfixOp := seqR space (postfixOp expr)

/-- what a level does after its first operand -/
def loop (k : Nat) (e : Expr) (s : Str) : Option (Expr × Str) :=
  if k = 0 ∨ k = 2 then some (e, s)
  else if k = 1 then
    match many postItem s with
    | some (os, s') => some (os.foldl applyPostfix e, s')
    | none => none
  else if k = 7 then
    match item 7 s with
    | some (q, s') => some (.bin q.1 e q.2, s')
    | none => some (e, s)
  else
    match many (item k) s with
    | some (qs, s') => some (qs.foldl (fun l q => .bin q.1 l q.2) e, s')
    | none => none

/-- the level does not continue here -/
def Stop (k : Nat) (s : Str) : Prop :=
  if k = 0 ∨ k = 2 then True
  else if k = 1 then postItem s = none
  else item k s = none

theorem expr_eq (s : Str) : expr s = seqR space (lv 12) s := expr_unfold s

theorem lv_eats (k : Nat) : Eats (lv k) := by
  have hs := expr_eats.reads
  unfold lv
  split
  · exact primary_eats hs
  · exact postfix_eats hs
  · exact unary_eats hs
  · exact mult_eats hs
  · exact add_eats hs
  · exact shift_eats hs
  · exact relation_eats hs
  · exact eq_eats hs
  · exact bitAnd_eats hs
  · exact bitXor_eats hs
  · exact bitOr_eats hs
  · exact and_eats hs
  · exact or_eats hs

theorem opsAt_reads (k : Nat) : Reads (opsAt k) := by
  unfold opsAt
  split
  · exact alt_reads (opTag_reads _ _) (alt_reads (opTag_reads _ _) (opTag_reads _ _))
  · exact alt_reads (opTag_reads _ _) (opTag_reads _ _)
  · exact alt_reads (opTag_reads _ _) (opTag_reads _ _)
  · exact alt_reads (opTag_reads _ _) (alt_reads (opTag_reads _ _) (alt_reads (opTag_reads _ _) (opTag_reads _ _)))
  · exact alt_reads (opTag_reads _ _) (opTag_reads _ _)
  · exact map_reads (sym_eats _).reads
  · exact map_reads (sym_eats _).reads
  · exact map_reads (sym_eats _).reads
  · exact opTag_reads _ _
  · exact opTag_reads _ _
  · intro s a s' h; simp at h

theorem item_eats (k : Nat) : Eats (item k) := binItem_eats (opsAt_reads k) (lv_eats _)

theorem postItem_eats : Eats postItem := postfixItem_eats expr_eats.reads

theorem binLevel_eq (ops : P BinOp) (next : P Expr) (s : Str) :
    binLevel ops next s = match next s with
      | some (e, s') => (match many (seq (seqL (seqR space ops) space) next) s' with
        | some (qs, s'') => some (qs.foldl (fun l q => .bin q.1 l q.2) e, s'')
        | none => none)
      | none => none := by
  simp only [binLevel, map, seq]
  cases next s with
  | none => rfl
  | some r =>
    obtain ⟨e, s'⟩ := r
    simp only
    cases many (seq (seqL (seqR space ops) space) next) s' <;> rfl

/-- Each level above the prefix operators: read an operand of the level below, then continue. -/
theorem lv_step {k : Nat} (h1 : 1 ≤ k) (h2 : k ≠ 2) (h3 : k ≤ 12) (s : Str) :
    lv k s = match lv (k - 1) s with
      | some (e, s') => loop k e s'
      | none => none := by
  have hk : k = 1 ∨ k = 3 ∨ k = 4 ∨ k = 5 ∨ k = 6 ∨ k = 7 ∨ k = 8 ∨ k = 9 ∨ k = 10 ∨ k = 11 ∨ k = 12 := by omega
  rcases hk with rfl | rfl | rfl | rfl | rfl | rfl | rfl | rfl | rfl | rfl | rfl
  · change postfixExpr expr s = match primaryExpr expr s with | some (e, s') => loop 1 e s' | none => none
    simp only [postfixExpr, map, seq]
    cases primaryExpr expr s with
    | none => rfl
    | some r =>
      obtain ⟨e, s'⟩ := r
      simp only [loop, postItem]
      cases many (seqR space (postfixOp expr)) s' <;> rfl
  · exact binLevel_eq _ _ s
  · exact binLevel_eq _ _ s
  · exact binLevel_eq _ _ s
  · exact binLevel_eq _ _ s
  · change eqExpr expr s = match relationExpr expr s with | some (e, s') => loop 7 e s' | none => none
    simp only [eqExpr, map, seq]
    cases hr : relationExpr expr s with
    | none => rfl
    | some r =>
      obtain ⟨e, s'⟩ := r
      have hi : item 7 s' = seq (seqL (seqR space (alt (opTag s!' "==" .eq) (opTag s!' "!=" .ne))) space) (relationExpr expr) s' := rfl
      have h7 : ¬ (7 = 0 ∨ 7 = 2) := by decide
      simp only [loop, if_neg h7, hi, opt]
      generalize seq (seqL (seqR space (alt (opTag s!' "==" .eq) (opTag s!' "!=" .ne))) space) (relationExpr expr) s' = x
      cases x <;> rfl
  · exact binLevel_eq _ _ s
  · exact binLevel_eq _ _ s
  · exact binLevel_eq _ _ s
  · exact binLevel_eq _ _ s
  · exact binLevel_eq _ _ s

theorem loop_stop {k : Nat} {s : Str} (e : Expr) (h : Stop k s) : loop k e s = some (e, s) := by
  unfold Stop at h
  unfold loop
  by_cases h0 : k = 0 ∨ k = 2
  · rw [if_pos h0]
  rw [if_neg h0] at h ⊢
  by_cases h1 : k = 1
  · rw [if_pos h1] at h ⊢
    rw [many_none h]; rfl
  rw [if_neg h1] at h ⊢
  by_cases h7 : k = 7
  · rw [if_pos h7]; subst h7; rw [h]
  · rw [if_neg h7, many_none h]; rfl

theorem loop_item {k : Nat} {s s' : Str} {op : BinOp} {r : Expr} (e : Expr) (hk : 3 ≤ k) (h7 : k ≠ 7)
    (h : item k s = some ((op, r), s')) : loop k e s = loop k (.bin op e r) s' := by
  have h0 : ¬ (k = 0 ∨ k = 2) := by omega
  have h1 : ¬ k = 1 := by omega
  unfold loop
  rw [if_neg h0, if_neg h0, if_neg h1, if_neg h1, if_neg h7, if_neg h7, many_some (item_eats k) h]
  cases many (item k) s' <;> rfl

theorem loop_eq_item {s s' : Str} {op : BinOp} {r : Expr} (e : Expr)
    (h : item 7 s = some ((op, r), s')) : loop 7 e s = some (.bin op e r, s') := by
  have h0 : ¬ (7 = 0 ∨ 7 = 2) := by omega
  have h1 : ¬ 7 = 1 := by omega
  unfold loop
  rw [if_neg h0, if_neg h1, if_pos rfl, h]

theorem loop_post {s s' : Str} {o : PostfixOp} (e : Expr) (h : postItem s = some (o, s')) :
    loop 1 e s = loop 1 (applyPostfix e o) s' := by
  have h0 : ¬ (1 = 0 ∨ 1 = 2) := by omega
  unfold loop
  rw [if_neg h0, if_neg h0, if_pos rfl, if_pos rfl, many_some postItem_eats h]
  cases many postItem s' <;> rfl

/-! ### prefix operators -/

theorem unary_prefix {s s1 s2 : Str} {o : PrefixOp} (h1 : prefixOp s = some (o, s1)) (h2 : space s1 = some ((), s2)) :
    lv 2 s = match lv 2 s2 with
      | some (e, r) => some (applyPrefix o e, r)
      | none => none := by
  have hi : seqL prefixOp space s = some (o, s2) := by simp only [seqL, h1, h2]
  change unaryExpr expr s = match unaryExpr expr s2 with | some (e, r) => some (applyPrefix o e, r) | none => none
  simp only [unaryExpr, map, seq, seqL]
  have hm := many_some prefixItem_eats hi
  rw [hm]
  generalize many (seqL prefixOp space) s2 = x
  cases x with
  | none => rfl
  | some r =>
    obtain ⟨os, s3⟩ := r
    simp only
    cases space s3 with
    | none => rfl
    | some r =>
      obtain ⟨_, s4⟩ := r
      simp only
      cases postfixExpr expr s4 <;> rfl

theorem unary_none {s : Str} (h1 : prefixOp s = none) (h2 : NoHead isSpaceChar s) : lv 2 s = lv 1 s := by
  have hi : seqL prefixOp space s = none := by simp only [seqL, h1]
  change unaryExpr expr s = postfixExpr expr s
  simp only [unaryExpr, map, seq]
  have hm : seqL (many (seqL prefixOp space)) space s = some ([], s) := by
    simp only [seqL] at hi ⊢
    rw [many_none hi]
    simp only [space_none h2]
  rw [hm]
  simp only
  cases postfixExpr expr s <;> rfl

/-! ### the first character of an expression -/

/-- the characters an expression can begin with -/
def starts (c : Char) : Bool := isIdentChar c || c == '"' || c == '(' || c == '~' || c == '!' || c == '-'

theorem starts_not_space {c : Char} (h : starts c = true) : isSpaceChar c = false := by
  simp only [starts, Bool.or_eq_true, beq_iff_eq] at h
  rcases h with ((((h | rfl) | rfl) | rfl) | rfl) | rfl
  · exact word_not_space ((isIdentChar_iff c).1 h)
  all_goals decide

theorem prefixOp_none {c : Char} {r : Str} (h1 : c ≠ '~') (h2 : c ≠ '!') (h3 : c ≠ '-') (h4 : c ≠ '(') :
    prefixOp (c :: r) = none := by
  simp only [prefixOp, alt, map, seqL, seqR, tag_ne h1, tag_ne h2, tag_ne h3, tag_ne h4]

theorem primary_none {c : Char} {r : Str} (h : starts c = false) : lv 0 (c :: r) = none := by
  simp only [starts, Bool.or_eq_false_iff, beq_eq_false_iff_ne] at h
  obtain ⟨⟨⟨⟨⟨h1, h2⟩, h3⟩, h4⟩, h5⟩, h6⟩ := h
  have hid : isIdentStart c = false := by
    simp only [isIdentChar, Bool.or_eq_false_iff] at h1; exact h1.1
  have hdg : isDigitChar c = false := by
    simp only [isIdentChar, Bool.or_eq_false_iff] at h1; exact h1.2
  have ht : c ≠ 't' := by rintro rfl; simp [isIdentStart] at hid
  have hf : c ≠ 'f' := by rintro rfl; simp [isIdentStart] at hid
  have e1 : number (c :: r) = none := number_none (noHead_cons.2 hdg) (noHead_cons.2 (by simp [h6]))
  have e2 : ident (c :: r) = none := ident_none (noHead_cons.2 hid)
  have e3 : string (c :: r) = none := string_none (noHead_cons.2 (by simp [h2]))
  change primaryExpr expr (c :: r) = none
  simp only [primaryExpr, constant, alt, map, e1, tag_ne ht, tag_ne hf, e2, e3, seqL, seqR, sym_ne h3]

theorem unary_fail {c : Char} {r : Str} (h : starts c = false) (hsp : isSpaceChar c = false) : lv 2 (c :: r) = none := by
  have h0 := primary_none (r := r) h
  simp only [starts, Bool.or_eq_false_iff, beq_eq_false_iff_ne] at h
  obtain ⟨⟨⟨⟨⟨h1, h2⟩, h3⟩, h4⟩, h5⟩, h6⟩ := h
  rw [unary_none (prefixOp_none h4 h5 h6 h3) (noHead_cons.2 hsp), lv_step (by omega) (by omega) (by omega)]
  simp only [Nat.sub_self, h0]

theorem lv_fail {c : Char} {r : Str} (h : starts c = false) (hsp : isSpaceChar c = false) :
    ∀ k, 2 ≤ k → k ≤ 12 → lv k (c :: r) = none := by
  intro k hk hk2
  induction k with
  | zero => omega
  | succ k ih =>
    by_cases h2 : k + 1 = 2
    · rw [h2]; exact unary_fail h hsp
    · rw [lv_step (by omega) h2 hk2]
      simp only [Nat.add_sub_cancel, ih (by omega) (by omega)]

theorem lv_nil : ∀ k, lv k [] = none := by
  intro k
  have h2 : unaryExpr expr [] = none := rfl
  unfold lv
  split
  · rfl
  · rfl
  · exact h2
  · exact binLevel_none h2
  · exact add_none h2
  · exact binLevel_none (add_none h2)
  · exact relation_none h2
  · exact eq_none h2
  · exact binLevel_none (eq_none h2)
  · exact bitXor_none h2
  · exact bitOr_none h2
  · exact binLevel_none (bitOr_none h2)
  · exact or_none h2

theorem expr_fail {w : Str} (hw : Blank w) {c : Char} {r : Str} (h : starts c = false) (hsp : isSpaceChar c = false) :
    expr (w ++ c :: r) = none := by
  rw [expr_eq]
  simp only [seqR, space_blank hw (noHead_cons.2 hsp), lv_fail h hsp 12 (by omega) (by omega)]

theorem expr_fail_nil {w : Str} (hw : Blank w) : expr w = none := by
  rw [expr_eq]
  have := space_blank hw (noHead_nil isSpaceChar)
  rw [List.append_nil] at this
  simp only [seqR, this, lv_nil]

/-! ### where levels stop -/

/-- the text after an operator: blanks and then an operand -/
def Opens (s : Str) : Prop := ∃ c t, s = c :: t ∧ (isSpaceChar c = true ∨ starts c = true)

theorem opens_ne {s : Str} (h : Opens s) (d : Char) (h1 : isSpaceChar d = false) (h2 : starts d = false) :
    ∀ t, s ≠ d :: t := by
  rintro t rfl
  obtain ⟨c, t', e, hc⟩ := h
  simp only [List.cons.injEq] at e
  rw [← e.1] at hc
  rw [h1, h2] at hc
  simp at hc

theorem opens_tag {s : Str} (h : Opens s) (d : Char) (ts : Str) (h1 : isSpaceChar d = false) (h2 : starts d = false) :
    tag (d :: ts) s = none := by
  cases s with
  | nil => rfl
  | cons c s =>
    refine tag_ne ?_
    rintro rfl
    exact opens_ne h c h1 h2 s rfl

theorem ops_ok {op : BinOp} {tail : Str} (h : Opens tail) : opsAt (opLevel op) (opText op ++ tail) = some (op, tail) := by
  have h1 := opens_tag h '=' [] (by decide) (by decide)
  cases op <;> simp [opLevel, opText, opsAt, alt, opTag, map, tag, sym, isA, h1]

/-- the operand starts after the blanks -/
theorem item_ok {op : BinOp} {w1 w2 s r : Str} {e : Expr} (hw1 : Blank w1) (hw2 : Blank w2)
    (hs : ∃ c t, s = c :: t ∧ starts c = true) (h : lv (opLevel op - 1) s = some (e, r)) :
    item (opLevel op) (w1 ++ (opText op ++ (w2 ++ s))) = some ((op, e), r) := by
  obtain ⟨c, t, rfl, hc⟩ := hs
  have ho : Opens (w2 ++ c :: t) := by
    cases w2 with
    | nil => exact ⟨c, t, rfl, .inr hc⟩
    | cons d w2 => exact ⟨d, w2 ++ c :: t, rfl, .inl ((isSpaceChar_iff d).2 (hw2 d (by simp)))⟩
  have hh : NoHead isSpaceChar (opText op ++ (w2 ++ c :: t)) := by
    cases op <;> exact noHead_cons.2 (by decide)
  simp only [item, seq, seqL, seqR, space_blank hw1 hh, ops_ok ho,
    space_blank hw2 (noHead_cons.2 (starts_not_space hc)), h]

theorem stop_one {w s : Str} (hw : Blank w) (h0 : NoHead isSpaceChar s) (h : postfixOp expr s = none) :
    Stop 1 (w ++ s) := by
  unfold Stop
  rw [if_neg (by omega), if_pos rfl]
  simp only [postItem, seqR, space_blank hw h0, h]

theorem stop_ops {k : Nat} {w s : Str} (hw : Blank w) (h0 : NoHead isSpaceChar s) (h : opsAt k s = none) :
    k = 1 ∨ Stop k (w ++ s) := by
  unfold Stop
  by_cases h1 : k = 0 ∨ k = 2
  · right; rw [if_pos h1]; trivial
  · by_cases h2 : k = 1
    · exact .inl h2
    · right
      rw [if_neg h1, if_neg h2]
      simp only [item, seq, seqL, seqR, space_blank hw h0, h]

theorem stop_next {k : Nat} {w s t : Str} {op : BinOp} {c : Char} (hk : 3 ≤ k) (hk2 : k ≤ 12) (hw : Blank w)
    (h0 : NoHead isSpaceChar s)
    (h : opsAt k s = some (op, c :: t)) (hc : starts c = false) (hsp : isSpaceChar c = false) : Stop k (w ++ s) := by
  unfold Stop
  rw [if_neg (by omega), if_neg (by omega)]
  simp only [item, seq, seqL, seqR, space_blank hw h0, h, space_none (noHead_cons.2 hsp),
    lv_fail hc hsp (k - 1) (by omega) (by omega)]

theorem postfixOp_none {c : Char} {r : Str} (h1 : c ≠ '(') (h2 : c ≠ '[') (h3 : c ≠ '.') :
    postfixOp expr (c :: r) = none := by
  simp only [postfixOp, alt, map, seqL, seqR, sym_ne h1, sym_ne h2, sym_ne h3]

/-- the first characters of infix and postfix operators -/
def continues (c : Char) : Bool := c ∈ s!' "([.*/%+-<>=!&^|"

theorem opsAt_none {k : Nat} {c : Char} {r : Str} (h : continues c = false) : opsAt k (c :: r) = none := by
  simp only [continues, List.elem_eq_mem, decide_eq_false_iff_not, List.mem_cons, List.not_mem_nil, or_false,
    not_or] at h
  obtain ⟨-, -, -, h4, h5, h6, h7, h8, h9, h10, h11, h12, h13, h14, h15⟩ := h
  unfold opsAt
  split <;> simp only [alt, opTag, map, tag_ne h4, tag_ne h5, tag_ne h6, tag_ne h7, tag_ne h8, tag_ne h9,
    tag_ne h10, tag_ne h11, tag_ne h12, tag_ne h13, sym_ne h13, sym_ne h14, sym_ne h15, tag_ne h15]

/-- nothing continues at a character that begins no operator -/
theorem stop_char {w : Str} (hw : Blank w) {c : Char} {r : Str} (hsp : isSpaceChar c = false)
    (h : continues c = false) (k : Nat) : Stop k (w ++ c :: r) := by
  rcases stop_ops (k := k) hw (noHead_cons.2 hsp) (opsAt_none (r := r) h) with rfl | h1
  · refine stop_one hw (noHead_cons.2 hsp) (postfixOp_none ?_ ?_ ?_) <;> rintro rfl <;> simp [continues] at h
  · exact h1

theorem stop_nil {w : Str} (hw : Blank w) (k : Nat) : Stop k w := by
  have h0 : opsAt k [] = none := by unfold opsAt; split <;> rfl
  have h1 : postfixOp expr [] = none := rfl
  rw [← List.append_nil w]
  rcases stop_ops (k := k) hw (noHead_nil _) h0 with rfl | h1
  · exact stop_one hw (noHead_nil _) h1
  · exact h1

/-- an operator of a looser level stops all tighter levels -/
theorem stop_op {op : BinOp} {w tail : Str} (hw : Blank w) (ht : Opens tail) {k : Nat} (hk : k < opLevel op) :
    Stop k (w ++ (opText op ++ tail)) := by
  have hh : NoHead isSpaceChar (opText op ++ tail) := by
    cases op <;> exact noHead_cons.2 (by decide)
  by_cases h1 : k = 1
  · subst h1
    refine stop_one hw hh ?_
    cases op <;> exact postfixOp_none (by decide) (by decide) (by decide)
  have hl := opens_tag ht '<' [] (by decide) (by decide)
  have hg := opens_tag ht '>' [] (by decide) (by decide)
  have he := opens_tag ht '=' [] (by decide) (by decide)
  by_cases hex : (op = .land ∧ k = 8) ∨ (op = .lor ∧ k = 10)
  · rcases hex with ⟨rfl, rfl⟩ | ⟨rfl, rfl⟩
    · exact stop_next (c := '&') (t := tail) (op := .band) (by omega) (by omega) hw hh rfl (by decide) (by decide)
    · exact stop_next (c := '|') (t := tail) (op := .bor) (by omega) (by omega) hw hh rfl (by decide) (by decide)
  · have hno : opsAt k (opText op ++ tail) = none := by
      unfold opsAt
      split <;> cases op <;> simp [opLevel] at hk <;> simp at hex <;>
        simp [alt, opTag, map, opText, tag, sym, isA, hl, hg]
    rcases stop_ops hw hh hno with h | h
    · exact absurd h h1
    · exact h

/-- the sign of an assignment stops all levels -/
theorem stop_assign {w tail : Str} (hw : Blank w) (ht : Opens tail) (k : Nat) : Stop k (w ++ '=' :: tail) := by
  have he := opens_tag ht '=' [] (by decide) (by decide)
  have hno : opsAt k ('=' :: tail) = none := by
    unfold opsAt
    split <;> simp [alt, opTag, map, tag, sym, isA, he]
  rcases stop_ops hw (noHead_cons.2 (by decide)) hno with rfl | h
  · exact stop_one hw (noHead_cons.2 (by decide)) (postfixOp_none (by decide) (by decide) (by decide))
  · exact h

/-- a negation stops all levels -/
theorem stop_bang {w tail : Str} (hw : Blank w) (ht : Opens tail) (k : Nat) : Stop k (w ++ '!' :: tail) := by
  have he := opens_tag ht '=' [] (by decide) (by decide)
  have hno : opsAt k ('!' :: tail) = none := by
    unfold opsAt
    split <;> simp [alt, opTag, map, tag, sym, isA, he]
  rcases stop_ops hw (noHead_cons.2 (by decide)) hno with rfl | h
  · exact stop_one hw (noHead_cons.2 (by decide)) (postfixOp_none (by decide) (by decide) (by decide))
  · exact h

/-- so does the sign of a compound assignment -/
theorem stop_compound {w tail : Str} (hw : Blank w) {c : Char} (hc : c = '+' ∨ c = '-') (k : Nat) (hk : k ≤ 12) :
    Stop k (w ++ c :: '=' :: tail) := by
  have hsp : isSpaceChar c = false := by rcases hc with rfl | rfl <;> decide
  by_cases h4 : k = 4
  · subst h4
    rcases hc with rfl | rfl
    · exact stop_next (c := '=') (t := tail) (op := .plus) (by omega) (by omega) hw (noHead_cons.2 hsp) rfl (by decide) (by decide)
    · exact stop_next (c := '=') (t := tail) (op := .minus) (by omega) (by omega) hw (noHead_cons.2 hsp) rfl (by decide) (by decide)
  · have hno : opsAt k (c :: '=' :: tail) = none := by
      unfold opsAt
      rcases hc with rfl | rfl <;> split <;> first | omega | simp [alt, opTag, map, tag, sym, isA]
    rcases stop_ops hw (noHead_cons.2 hsp) hno with rfl | h
    · refine stop_one hw (noHead_cons.2 hsp) (postfixOp_none ?_ ?_ ?_) <;> rcases hc with rfl | rfl <;> decide
    · exact h

end Btrd
