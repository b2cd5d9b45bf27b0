/-
Counting does not change what is parsed.
-/
import Verif.Model.ParseCost

namespace Btrd.PC

variable {α β γ : Type}

/-- the counting parser reads what the other one does -/
def Er (p : C α) (q : P α) : Prop := ∀ s, (p s).1 = q s

theorem andThen_fst (r : Res α) (k : α → Str → Res β) :
    (r.andThen k).1 = (match r.1 with
      | some (a, s) => (k a s).1
      | none => none) := by
  obtain ⟨_ | ⟨a, s⟩, n⟩ := r <;> rfl

theorem orElse_fst (r : Res α) (k : Unit → Res α) :
    (r.orElse k).1 = (match r.1 with
      | some x => some x
      | none => (k ()).1) := by
  obtain ⟨_ | x, n⟩ := r <;> rfl

theorem Er.isA (f : Char → Bool) : Er (isA f) (P.isA f) := by
  intro s
  cases s with
  | nil => rfl
  | cons c cs => simp only [PC.isA, P.isA]; split <;> rfl

theorem Er.sym (c : Char) : Er (sym c) (P.sym c) := Er.isA _

theorem Er.tag : ∀ t : Str, Er (tag t) (P.tag t)
  | [], _ => rfl
  | _ :: _, [] => rfl
  | t :: ts, c :: cs => by
    simp only [PC.tag, P.tag]
    split
    · exact Er.tag ts cs
    · rfl

theorem Er.map {p : C α} {q : P α} (f : α → β) (h : Er p q) : Er (map f p) (P.map f q) := by
  intro s
  simp only [PC.map, P.map, andThen_fst, h s]
  cases q s <;> rfl

theorem Er.seq {p : C α} {q : P α} {p' : C β} {q' : P β} (h : Er p q) (h' : Er p' q') : Er (seq p p') (P.seq q q') := by
  intro s
  simp only [PC.seq, P.seq, andThen_fst, h s]
  cases q s with
  | none => rfl
  | some x =>
    simp only [h' x.2]
    cases q' x.2 <;> rfl

theorem Er.seqR {p : C α} {q : P α} {p' : C β} {q' : P β} (h : Er p q) (h' : Er p' q') : Er (seqR p p') (P.seqR q q') := by
  intro s
  simp only [PC.seqR, P.seqR, andThen_fst, h s]
  cases q s with
  | none => rfl
  | some x => exact h' x.2

theorem Er.seqL {p : C α} {q : P α} {p' : C β} {q' : P β} (h : Er p q) (h' : Er p' q') : Er (seqL p p') (P.seqL q q') := by
  intro s
  simp only [PC.seqL, P.seqL, andThen_fst, h s]
  cases q s with
  | none => rfl
  | some x =>
    simp only [h' x.2]
    cases q' x.2 <;> rfl

theorem Er.alt {p p' : C α} {q q' : P α} (h : Er p q) (h' : Er p' q') : Er (alt p p') (P.alt q q') := by
  intro s
  simp only [PC.alt, P.alt, orElse_fst, h s]
  cases q s with
  | none => exact h' s
  | some x => rfl

theorem Er.opt {p : C α} {q : P α} (h : Er p q) : Er (opt p) (P.opt q) := by
  intro s
  simp only [PC.opt, P.opt, orElse_fst, andThen_fst, h s]
  cases q s <;> rfl

theorem Er.convert {p : C α} {q : P α} (f : α → Option β) (h : Er p q) : Er (convert f p) (P.convert f q) := by
  intro s
  simp only [PC.convert, P.convert, andThen_fst, h s]
  cases q s with
  | none => rfl
  | some x =>
    dsimp only
    cases f x.1 <;> rfl

theorem Er.manyF {p : C α} {q : P α} (h : Er p q) : ∀ n, Er (manyF n p) (P.manyF n q)
  | 0, _ => rfl
  | n + 1, s => by
    have h1 := h s
    simp only [PC.manyF, P.manyF]
    rw [← h1]
    rcases hp : p s with ⟨_ | ⟨a, s'⟩, k⟩
    · rfl
    · simp only [andThen_fst, Er.manyF h n s']
      cases P.manyF n q s' <;> rfl

theorem Er.many {p : C α} {q : P α} (h : Er p q) : Er (many p) (P.many q) := fun s => Er.manyF h _ s

theorem Er.many1 {p : C α} {q : P α} (h : Er p q) : Er (many1 p) (P.many1 q) := by
  intro s
  simp only [PC.many1, P.many1, andThen_fst, Er.many h s]
  rcases P.many q s with _ | ⟨_ | ⟨a, as⟩, s'⟩ <;> rfl

theorem Er.times {p : C α} {q : P α} (h : Er p q) : ∀ n, Er (times n p) (P.times n q)
  | 0, _ => rfl
  | n + 1, s => by
    simp only [PC.times, P.times, andThen_fst, h s]
    cases q s with
    | none => rfl
    | some x =>
      simp only [Er.times h n x.2]
      cases P.times n q x.2 <;> rfl

theorem Er.list {p : C α} {q : P α} {p' : C β} {q' : P β} (h : Er p q) (h' : Er p' q') : Er (list p p') (P.list q q') := by
  intro s
  have h1 := h s
  simp only [PC.list, P.list]
  rw [← h1]
  rcases hp : p s with ⟨_ | ⟨a, s'⟩, k⟩
  · rfl
  · simp only [andThen_fst, Er.many (Er.seqR h' h) s']
    cases P.many (P.seqR q' q) s' <;> rfl

theorem Er.eof : Er eof P.eof := by
  intro s
  cases s <;> rfl

/-! ### the rules -/

theorem Er.space : Er space Btrd.space := .map _ (.many (.isA _))

theorem Er.specialChar : Er specialChar Btrd.specialChar :=
  .alt (.sym _) <| .alt (.sym _) <| .alt (.sym _) <| .alt (.map _ (.sym _)) <| .alt (.map _ (.sym _)) <|
    .alt (.map _ (.sym _)) <| .alt (.map _ (.sym _)) (.map _ (.sym _))

theorem Er.escapeSequence : Er escapeSequence Btrd.escapeSequence := .seqR (.sym _) .specialChar

theorem Er.charString : Er charString Btrd.charString := .many1 (.alt (.isA _) .escapeSequence)

theorem Er.utf16Char : Er utf16Char Btrd.utf16Char := .seqR (.tag _) (.convert _ (.times (.isA _) _))

theorem Er.utf16String : Er utf16String Btrd.utf16String := .map _ (.many1 .utf16Char)

theorem Er.stringLit : Er stringLit Btrd.stringLit :=
  .map _ (.seqL (.seqR (.sym _) (.many (.alt .charString .utf16String))) (.sym _))

theorem Er.string : Er string Btrd.string := .map _ .stringLit

theorem Er.integer : Er integer Btrd.integer := .alt (.map _ (.seq (.isA _) (.many (.isA _)))) (.map _ (.sym _))

theorem Er.number : Er number Btrd.number := .convert _ (.seq (.opt (.sym _)) .integer)

theorem Er.constant : Er constant Btrd.constant := .alt (.map _ .number) (.alt (.map _ (.tag _)) (.map _ (.tag _)))

theorem Er.ident : Er ident Btrd.ident := .map _ (.seq (.isA _) (.many (.isA _)))

theorem Er.typeSpecifier : Er typeSpecifier Btrd.typeSpecifier := .seqR (.seqL (.tag _) .space) .ident

section
variable {sub : C Expr} {sub' : P Expr} (h : Er sub sub')
include h

theorem Er.primaryExpr : Er (primaryExpr sub) (Btrd.primaryExpr sub') :=
  .alt .constant <| .alt .ident <| .alt .string <| .map _ (.seqL (.seqL (.seqR (.sym _) h) .space) (.sym _))

theorem Er.postfixOp : Er (postfixOp sub) (Btrd.postfixOp sub') :=
  .alt (.map _ (.seqL (.seqL (.seqR (.sym _) (.list h (.seqR .space (.sym _)))) .space) (.sym _))) <|
  .alt (.map _ (.seqL (.seqL (.seqR (.sym _) h) .space) (.sym _))) (.map _ (.seqR (.sym _) .ident))

theorem Er.postfixExpr : Er (postfixExpr sub) (Btrd.postfixExpr sub') :=
  .map _ (.seq (.primaryExpr h) (.many (.seqR .space (.postfixOp h))))

omit h in
theorem Er.prefixOp : Er prefixOp Btrd.prefixOp :=
  .alt (.map _ (.tag _)) <| .alt (.map _ (.tag _)) <| .alt (.map _ (.tag _))
    (.map _ (.seqL (.seqL (.seqR (.seqR (.tag _) .space) .typeSpecifier) .space) (.tag _)))

theorem Er.unaryExpr : Er (unaryExpr sub) (Btrd.unaryExpr sub') :=
  .map _ (.seq (.seqL (.many (.seqL .prefixOp .space)) .space) (.postfixExpr h))

omit h in
theorem Er.binLevel {ops : C BinOp} {ops' : P BinOp} {next : C Expr} {next' : P Expr} (ho : Er ops ops')
    (hn : Er next next') : Er (binLevel ops next) (Btrd.binLevel ops' next') :=
  .map _ (.seq hn (.many (.seq (.seqL (.seqR .space ho) .space) hn)))

omit h in
theorem Er.opTag (t : Str) (o : BinOp) : Er (opTag t o) (Btrd.opTag t o) := .map _ (.tag _)

theorem Er.multExpr : Er (multExpr sub) (Btrd.multExpr sub') :=
  .binLevel (.alt (.opTag _ _) <| .alt (.opTag _ _) (.opTag _ _)) (.unaryExpr h)

theorem Er.addExpr : Er (addExpr sub) (Btrd.addExpr sub') := .binLevel (.alt (.opTag _ _) (.opTag _ _)) (.multExpr h)

theorem Er.shiftExpr : Er (shiftExpr sub) (Btrd.shiftExpr sub') := .binLevel (.alt (.opTag _ _) (.opTag _ _)) (.addExpr h)

theorem Er.relationExpr : Er (relationExpr sub) (Btrd.relationExpr sub') :=
  .binLevel (.alt (.opTag _ _) <| .alt (.opTag _ _) <| .alt (.opTag _ _) (.opTag _ _)) (.shiftExpr h)

theorem Er.eqExpr : Er (eqExpr sub) (Btrd.eqExpr sub') :=
  .map _ (.seq (.relationExpr h) (.opt (.seq (.seqL (.seqR .space (.alt (.opTag _ _) (.opTag _ _))) .space) (.relationExpr h))))

theorem Er.bitAndExpr : Er (bitAndExpr sub) (Btrd.bitAndExpr sub') := .binLevel (.map _ (.sym _)) (.eqExpr h)
theorem Er.bitXorExpr : Er (bitXorExpr sub) (Btrd.bitXorExpr sub') := .binLevel (.map _ (.sym _)) (.bitAndExpr h)
theorem Er.bitOrExpr : Er (bitOrExpr sub) (Btrd.bitOrExpr sub') := .binLevel (.map _ (.sym _)) (.bitXorExpr h)
theorem Er.andExpr : Er (andExpr sub) (Btrd.andExpr sub') := .binLevel (.opTag _ _) (.bitOrExpr h)
theorem Er.orExpr : Er (orExpr sub) (Btrd.orExpr sub') := .binLevel (.opTag _ _) (.andExpr h)

end

theorem Er.exprF : ∀ n, Er (exprF n) (Btrd.exprF n)
  | 0 => fun _ => rfl
  | n + 1 => .seqR .space (.orExpr (.exprF n))

theorem Er.expr : Er expr Btrd.expr := fun s => Er.exprF _ s

theorem Er.assignStmt : Er assignStmt Btrd.assignStmt :=
  .alt (.map _ (.seq (.seqL (.seqL .expr .space) (.tag _)) .expr)) <|
  .alt (.map _ (.seq (.seqL (.seqL .expr .space) (.tag _)) .expr)) (.map _ (.seq (.seqL (.seqL .expr .space) (.sym _)) .expr))

theorem Er.jumpStmt : Er jumpStmt Btrd.jumpStmt := .alt (.map _ (.tag _)) (.map _ (.tag _))

theorem Er.builtinStmt : Er builtinStmt Btrd.builtinStmt :=
  .alt (.map _ (.seqR (.seqR (.tag _) .space) .string)) <| .alt (.seqR (.tag _) (.map _ .expr)) <|
  .alt (.map _ (.tag _)) (.map _ (.tag _))

theorem Er.exprStmt : Er exprStmt Btrd.exprStmt := .map _ .expr

theorem Er.stmtSemicolon : Er stmtSemicolon Btrd.stmtSemicolon :=
  .seqL (.seqL (.alt .builtinStmt <| .alt .jumpStmt <| .alt .assignStmt .exprStmt) .space) (.sym _)

section
variable {sub : C (List Stmt)} {sub' : P (List Stmt)} (h : Er sub sub')
include h

theorem Er.ifElseStmt : Er (ifElseStmt sub) (Btrd.ifElseStmt sub') :=
  .map _ (.seq
    (.seqL (.seqL (.seq (.seqL (.seqL (.seqR (.tag _) .expr) .space) (.sym _)) h) .space) (.sym _))
    (.opt (.seqL (.seqL (.seqR (.seqR (.seqR (.seqR .space (.tag _)) .space) (.sym _)) h) .space) (.sym _))))

theorem Er.whileStmt : Er (whileStmt sub) (Btrd.whileStmt sub') :=
  .map _ (.seqL (.seqL (.seq (.seqL (.seqL (.seqR (.tag _) .expr) .space) (.sym _)) h) .space) (.sym _))

theorem Er.forStmt : Er (forStmt sub) (Btrd.forStmt sub') :=
  .map _ (.seqL (.seqL (.seq (.seqL (.seqL
    (.seq (.seqL (.seqL (.seqR (.seqR (.tag _) .space) .ident) .space) (.tag _)) .expr) .space) (.sym _)) h) .space) (.sym _))

theorem Er.blockStmt : Er (blockStmt sub) (Btrd.blockStmt sub') := .alt (.ifElseStmt h) (.alt (.whileStmt h) (.forStmt h))

theorem Er.stmt : Er (stmt sub) (Btrd.stmt sub') :=
  .seqL (.seqR .space (.alt .stmtSemicolon (.blockStmt h))) (.many (.seqR .space (.sym _)))

end

theorem Er.stmtsF : ∀ n, Er (stmtsF n) (Btrd.stmtsF n)
  | 0 => fun _ => rfl
  | n + 1 => .many (.stmt (.stmtsF n))

theorem Er.stmts : Er stmts Btrd.stmts := fun s => Er.stmtsF _ s

end Btrd.PC
