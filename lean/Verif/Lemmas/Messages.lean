/-
The messages of the analyzer are those of `Spec.RefusedAll`.
-/
import Verif.Model.Message
import Verif.Spec.Messages
import Verif.Lemmas.Analyzer

namespace Btrd
open Spec

/-- the step failed with an error of this text -/
def Said {α : Type} (r : R α) (m : Str) : Prop := ∃ x, r = .error (.err x) ∧ x.text = some m

theorem said_ok {α : Type} (a : α) (m : Str) : ¬ Said (.ok a : R α) m := by simp [Said]

theorem said_err {α : Type} (x : Err) (m : Str) : Said (R.err x : R α) m ↔ x.text = some m := by
  simp [Said, R.err]

theorem said_then (q r s : R Unit) (m : Str) (h1 : r = .ok () → q = s) (h2 : ∀ x, r = .error x → q = .error x) :
    Said q m ↔ Said r m ∨ (r = .ok () ∧ Said s m) := by
  cases r with
  | ok u => rw [h1 rfl]; simp [Said]
  | error x => rw [h2 x rfl]; simp [Said]

mutual
theorem analyzeExpr_msg (vs : Vars Unit) (m : Str) : ∀ e : Expr, Said (analyzeExpr vs e) m ↔ Refused (defined vs) e m
  | .ident x => by
    have hd : defined vs x ↔ vs.get x ≠ none := Iff.rfl
    simp only [analyzeExpr]
    cases hg : vs.get x with
    | some u =>
      simp only [said_ok, false_iff]
      intro h; cases h with | var h => exact h (hd.mpr (by simp [hg]))
    | none =>
      simp only [said_err, Err.text, Option.some.injEq]
      constructor
      · rintro rfl; exact .var (fun h => (hd.mp h) hg)
      · intro h; cases h; rfl
  | .int _ => by simp only [analyzeExpr, said_ok, false_iff]; intro h; cases h
  | .bool _ => by simp only [analyzeExpr, said_ok, false_iff]; intro h; cases h
  | .str _ => by simp only [analyzeExpr, said_ok, false_iff]; intro h; cases h
  | .paren e => by
    simp only [analyzeExpr, analyzeExpr_msg vs m e]
    exact ⟨.paren, fun h => by cases h; assumption⟩
  | .field e f => by
    by_cases hf : ∃ n, f = .ident n
    · obtain ⟨n, rfl⟩ := hf
      simp only [analyzeExpr, analyzeExpr_msg vs m e]
      refine ⟨.field, fun h => ?_⟩
      cases h with
      | field h => exact h
      | fieldName h => exact absurd rfl (h n)
    · have hn : ∀ n, f ≠ .ident n := fun n h => hf ⟨n, h⟩
      have : analyzeExpr vs (.field e f) = R.err (.notIdentifier s!' "Field in a field access must be an identifier") := by
        cases f <;> first | rfl | exact absurd rfl (hn _)
      rw [this, said_err]
      simp only [Err.text, Option.some.injEq]
      constructor
      · rintro rfl; exact .fieldName hn
      · intro h
        cases h with
        | field h => exact absurd rfl (hn _)
        | fieldName _ => rfl
  | .index e i => by
    rw [said_then (analyzeExpr vs (.index e i)) (analyzeExpr vs e) (analyzeExpr vs i) m (fun h => by simp only [analyzeExpr, h])
      (fun x h => by simp only [analyzeExpr, h]), analyzeExpr_msg vs m e, analyzeExpr_msg vs m i, analyzeExpr_iff]
    constructor
    · rintro (h | ⟨h, h'⟩)
      · exact .indexed h
      · exact .index h h'
    · intro h
      cases h with
      | indexed h => exact .inl h
      | index h h' => exact .inr ⟨h, h'⟩
  | .call f args => by
    rw [said_then (analyzeExpr vs (.call f args)) (analyzeExpr vs f) (analyzeArgs vs args) m (fun h => by simp only [analyzeExpr, h])
      (fun x h => by simp only [analyzeExpr, h]), analyzeExpr_msg vs m f, analyzeArgs_msg vs m args, analyzeExpr_iff]
    constructor
    · rintro (h | ⟨h, h'⟩)
      · exact .callee h
      · exact .args h h'
    · intro h
      cases h with
      | callee h => exact .inl h
      | args h h' => exact .inr ⟨h, h'⟩
  | .bin op l r => by
    rw [said_then (analyzeExpr vs (.bin op l r)) (analyzeExpr vs l) (analyzeExpr vs r) m (fun h => by simp only [analyzeExpr, h])
      (fun x h => by simp only [analyzeExpr, h]), analyzeExpr_msg vs m l, analyzeExpr_msg vs m r, analyzeExpr_iff]
    constructor
    · rintro (h | ⟨h, h'⟩)
      · exact .left h
      · exact .right h h'
    · intro h
      cases h with
      | left h => exact .inl h
      | right h h' => exact .inr ⟨h, h'⟩
  | .un _ e => by
    simp only [analyzeExpr, analyzeExpr_msg vs m e]
    exact ⟨.un, fun h => by cases h; assumption⟩
  | .cast ty e => by
    by_cases hf : ∃ n, ty = .ident n
    · obtain ⟨n, rfl⟩ := hf
      simp only [analyzeExpr]
      by_cases hk : knownStruct n = true
      · rw [if_pos hk, analyzeExpr_msg vs m e]
        obtain ⟨s, hs, rfl⟩ := (knownStruct_iff n).mp hk
        refine ⟨.cast hs, fun h => ?_⟩
        generalize hn : s.name = n at h
        cases h with
        | cast _ h => exact h
        | castUnknown h => exact absurd hn (h s hs)
        | castOdd h => exact absurd rfl (h _)
      · rw [if_neg hk, said_err]
        have hk' : ∀ s ∈ structs, s.name ≠ n := fun s hs hn => hk ((knownStruct_iff n).mpr ⟨s, hs, hn⟩)
        simp only [Err.text, Option.some.injEq]
        constructor
        · rintro rfl; exact .castUnknown hk'
        · intro h
          cases h with
          | cast hs h => exact absurd rfl (hk' _ hs)
          | castUnknown _ => rfl
          | castOdd h => exact absurd rfl (h _)
    · have hn : ∀ n, ty ≠ .ident n := fun n h => hf ⟨n, h⟩
      have : analyzeExpr vs (.cast ty e) = R.err .badCast := by
        cases ty <;> first | rfl | exact absurd rfl (hn _)
      rw [this, said_err]
      simp only [Err.text, Option.some.injEq]
      constructor
      · rintro rfl; exact .castOdd hn
      · intro h
        cases h with
        | cast _ h => exact absurd rfl (hn _)
        | castUnknown _ => exact absurd rfl (hn _)
        | castOdd _ => rfl
theorem analyzeArgs_msg (vs : Vars Unit) (m : Str) : ∀ es : List Expr,
    Said (analyzeArgs vs es) m ↔ RefusedArgs (defined vs) es m
  | [] => by simp only [analyzeArgs, said_ok, false_iff]; intro h; cases h
  | e :: es => by
    rw [said_then (analyzeArgs vs (e :: es)) (analyzeExpr vs e) (analyzeArgs vs es) m
      (fun h => by simp only [analyzeArgs, h]) (fun x h => by simp only [analyzeArgs, h]), analyzeExpr_msg vs m e,
      analyzeArgs_msg vs m es, analyzeExpr_iff]
    constructor
    · rintro (h | ⟨h, h'⟩)
      · exact .head h
      · exact .tail h h'
    · intro h
      cases h with
      | head h => exact .inl h
      | tail h h' => exact .inr ⟨h, h'⟩
end

theorem said_andThen (r : AState × R Unit) (f : AState → AState × R Unit) (m : Str) :
    Said (andThenA r f).2 m ↔ Said r.2 m ∨ (r.2 = .ok () ∧ Said (f r.1).2 m) := by
  obtain ⟨a, r⟩ := r
  cases r <;> simp [andThenA, Said]

/-- an expression, then the rest -/
def exprThen (a : AState) (e : Expr) (s : AState × R Unit) : AState × R Unit :=
  match analyzeExpr a.vars e with | .ok _ => s | .error x => (a, .error x)

theorem said_exprThen (a : AState) (e : Expr) (s : AState × R Unit) (m : Str) :
    Said (exprThen a e s).2 m ↔ Refused (defined a.vars) e m ∨ (Reads (defined a.vars) e ∧ Said s.2 m) := by
  rw [← analyzeExpr_msg, ← analyzeExpr_iff, exprThen]
  cases analyzeExpr a.vars e <;> simp [Said]

theorem analyze_ite (c : Expr) (t f : List Stmt) (a : AState) : analyzeStmt (.ite c t f) a =
    scopedA 0 a fun a => exprThen a c (andThenA (analyzeStmts t a) (analyzeStmts f)) := by
  simp only [analyzeStmt]
  rfl

theorem analyze_while (c : Expr) (b : List Stmt) (a : AState) : analyzeStmt (.while c b) a =
    scopedA 1 a fun a => exprThen a c (analyzeStmts b a) := by
  simp only [analyzeStmt]
  rfl

theorem analyze_for (n : Str) (r : Expr) (b : List Stmt) (a : AState) : analyzeStmt (.for (.ident n) r b) a =
    scopedA 1 a fun a => andThenA (a.declare n) fun a => exprThen a r (analyzeStmts b a) := by
  simp only [analyzeStmt]
  rfl

/-- a block says what its body says -/
theorem said_scoped (d : Nat) (a : AState) (body : AState → AState × R Unit) (m : Str)
    (hb : Gained a.vars.push (body ⟨a.vars.push, a.loopDepth + d⟩).1.vars) :
    Said (scopedA d a body).2 m ↔ Said (body ⟨a.vars.push, a.loopDepth + d⟩).2 m := by
  unfold scopedA
  generalize body ⟨a.vars.push, a.loopDepth + d⟩ = r at hb
  cases hv : r.1.vars with
  | nil => rw [hv] at hb; simp [Gained, Vars.push] at hb
  | cons s vs => simp [Vars.pop, hv]

theorem gained_exprThen (a : AState) (e : Expr) (s : AState × R Unit) {vs : Vars Unit} (h1 : Gained vs a.vars)
    (h2 : Gained vs s.1.vars) :
    Gained vs (exprThen a e s).1.vars := by
  unfold exprThen
  cases analyzeExpr a.vars e
  · exact h1
  · exact h2

mutual
theorem stmt_msg (m : Str) : ∀ (s : Stmt) (a : AState), a.vars ≠ [] →
    (Said (analyzeStmt s a).2 m ↔ RefusedStmt (defined a.vars) (0 < a.loopDepth) s m)
  | .assign l r, a, ha => by
    by_cases hl : ∃ x, l = .ident x
    · obtain ⟨x, rfl⟩ := hl
      obtain ⟨vs, hd, hi⟩ := declare_eq a x ha
      simp only [analyzeStmt, hd, andThenA, analyzeExpr_msg, defined_insert hi]
      refine ⟨.assignVar, fun h => ?_⟩
      cases h with
      | assignVar h => exact h
      | assignTo h => exact absurd rfl (h _)
      | assignFrom h => exact absurd rfl (h _)
    · have hn : ∀ n, l ≠ .ident n := fun n h => hl ⟨n, h⟩
      have e1 : analyzeStmt (.assign l r) a =
          exprThen a l (a, analyzeExpr a.vars r) := by
        cases l <;> first | (simp only [analyzeStmt, exprThen]; cases analyzeExpr a.vars _ <;> rfl) | exact absurd ⟨_, rfl⟩ hl
      rw [e1, said_exprThen, analyzeExpr_msg]
      constructor
      · rintro (h | ⟨h, h'⟩)
        · exact .assignTo hn h
        · exact .assignFrom hn h h'
      · intro h
        cases h with
        | assignVar h => exact absurd rfl (hn _)
        | assignTo _ h => exact .inl h
        | assignFrom _ h h' => exact .inr ⟨h, h'⟩
  | .ite c t f, a, ha => by
    have hp : (⟨a.vars.push, a.loopDepth + 0⟩ : AState).vars ≠ [] := by simp [Vars.push]
    have h1 := analyzed_stmts t ⟨a.vars.push, a.loopDepth + 0⟩ hp
    have hne := gained_ne h1.gained hp
    have hg : Gained a.vars.push
        (andThenA (analyzeStmts t ⟨a.vars.push, a.loopDepth + 0⟩) (analyzeStmts f)).1.vars := by
      unfold andThenA
      split
      · exact h1.gained.trans (analyzed_stmts f _ hne).gained
      · exact h1.gained
    rw [analyze_ite, said_scoped 0 a _ m (gained_exprThen ⟨a.vars.push, a.loopDepth + 0⟩ _ _ (Gained.refl _) hg),
      said_exprThen, said_andThen, stmts_msg m t _ hp]
    have e3 : Said (analyzeStmts f (analyzeStmts t ⟨a.vars.push, a.loopDepth + 0⟩).1).2 m ↔ _ := stmts_msg m f _ hne
    rw [e3, h1.verdict, defined_push]
    constructor
    · rintro (h | ⟨h, h' | ⟨h', h''⟩⟩)
      · exact .ifCond h
      · exact .ifThen h h'
      · rw [h1.ok (h1.verdict.mpr (by rw [defined_push]; exact h')), h1.depth, defined_push] at h''
        exact .ifElse h h' h''
    · intro h
      cases h with
      | ifCond h => exact .inl h
      | ifThen h h' => exact .inr ⟨h, .inl h'⟩
      | ifElse h h' h'' =>
        refine .inr ⟨h, .inr ⟨h', ?_⟩⟩
        rw [h1.ok (h1.verdict.mpr (by rw [defined_push]; exact h')), h1.depth, defined_push]
        exact h''
  | .while c b, a, ha => by
    have hp : (⟨a.vars.push, a.loopDepth + 1⟩ : AState).vars ≠ [] := by simp [Vars.push]
    have h1 := analyzed_stmts b ⟨a.vars.push, a.loopDepth + 1⟩ hp
    rw [analyze_while, said_scoped 1 a _ m (gained_exprThen _ _ _ (Gained.refl _) h1.gained), said_exprThen, stmts_msg m b _ hp,
      defined_push]
    simp only [Nat.zero_lt_succ]
    constructor
    · rintro (h | ⟨h, h'⟩)
      · exact .whileCond h
      · exact .whileBody h h'
    · intro h
      cases h with
      | whileCond h => exact .inl h
      | whileBody h h' => exact .inr ⟨h, h'⟩
  | .for x r b, a, ha => by
    have hp : (⟨a.vars.push, a.loopDepth + 1⟩ : AState).vars ≠ [] := by simp [Vars.push]
    by_cases hx : ∃ n, x = .ident n
    · obtain ⟨n, rfl⟩ := hx
      obtain ⟨vs, hd, hi⟩ := declare_eq ⟨a.vars.push, a.loopDepth + 1⟩ n hp
      have hg := insert_gained hi
      have hne : (⟨vs, a.loopDepth + 1⟩ : AState).vars ≠ [] := gained_ne hg hp
      have h1 := analyzed_stmts b ⟨vs, a.loopDepth + 1⟩ hne
      rw [analyze_for, said_scoped 1 a _ m (by
        simp only [hd, andThenA]
        exact gained_exprThen ⟨vs, a.loopDepth + 1⟩ _ _ hg (hg.trans h1.gained))]
      simp only [hd, andThenA]
      have e2 : defined vs = (defined a.vars).with [n] := by rw [defined_insert hi]; simp only [defined_push]
      have e3 := said_exprThen ⟨vs, a.loopDepth + 1⟩ r (analyzeStmts b ⟨vs, a.loopDepth + 1⟩) m
      rw [stmts_msg m b _ hne] at e3
      simp only [Nat.zero_lt_succ, e2] at e3
      rw [e3]
      constructor
      · rintro (h | ⟨h, h'⟩)
        · exact .forRange h
        · exact .forBody h h'
      · intro h
        cases h with
        | forRange h => exact .inl h
        | forBody h h' => exact .inr ⟨h, h'⟩
        | forNoName h => exact absurd rfl (h _)
    · have hn : ∀ n, x ≠ .ident n := fun n h => hx ⟨n, h⟩
      have e1 : (analyzeStmt (.for x r b) a).2 =
          R.err (.notIdentifier s!' "Temporary variable in a for-loop must be an identifier") := by
        cases x <;> first | rfl | exact absurd rfl (hn _)
      rw [e1, said_err]
      simp only [Err.text, Option.some.injEq]
      constructor
      · rintro rfl; exact .forNoName hn
      · intro h
        cases h with
        | forRange h => exact absurd rfl (hn _)
        | forBody h h' => exact absurd rfl (hn _)
        | forNoName _ => rfl
  | .brk, a, _ => by
    simp only [analyzeStmt, ensure, gt_iff_lt]
    by_cases h : 0 < a.loopDepth
    · simp only [h, decide_true, if_true, said_ok, false_iff]
      intro h'; cases h' with | brk h' => exact h' trivial
    · simp only [h, decide_false, Bool.false_eq_true, if_false, said_err, Err.text, Option.some.injEq, if_true]
      constructor
      · rintro rfl; exact .brk id
      · intro h'; cases h'; rfl
  | .cont, a, _ => by
    simp only [analyzeStmt, ensure, gt_iff_lt]
    by_cases h : 0 < a.loopDepth
    · simp only [h, decide_true, if_true, said_ok, false_iff]
      intro h'; cases h' with | cont h' => exact h' trivial
    · simp only [h, decide_false, Bool.false_eq_true, if_false, said_err, Err.text, Option.some.injEq]
      constructor
      · rintro rfl; exact .cont id
      · intro h'; cases h'; rfl
  | .help, a, _ => by simp only [analyzeStmt, said_ok, false_iff]; intro h; cases h
  | .quit, a, _ => by simp only [analyzeStmt, said_ok, false_iff]; intro h; cases h
  | .filesystem e, a, _ => by
    by_cases hf : ∃ n, e = .str n
    · obtain ⟨n, rfl⟩ := hf
      simp only [analyzeStmt, said_ok, false_iff]
      intro h; cases h with | filesystem h => exact absurd rfl (h _)
    · have hn : ∀ n, e ≠ .str n := fun n h => hf ⟨n, h⟩
      have e1 : (analyzeStmt (.filesystem e) a).2 = R.err .filesystemArg := by
        cases e <;> first | rfl | exact absurd rfl (hn _)
      rw [e1, said_err]
      simp only [Err.text, Option.some.injEq]
      constructor
      · rintro rfl; exact .filesystem hn
      · intro h; cases h; rfl
  | .print e, a, _ => by
    simp only [analyzeStmt, analyzeExpr_msg]
    exact ⟨.print, fun h => by cases h; assumption⟩
  | .expr e, a, _ => by
    simp only [analyzeStmt, analyzeExpr_msg]
    exact ⟨.expr, fun h => by cases h; assumption⟩
theorem stmts_msg (m : Str) : ∀ (p : List Stmt) (a : AState), a.vars ≠ [] →
    (Said (analyzeStmts p a).2 m ↔ RefusedAll (defined a.vars) (0 < a.loopDepth) p m)
  | [], a, _ => by simp only [analyzeStmts, said_ok, false_iff]; intro h; cases h
  | s :: ss, a, ha => by
    have h1 := analyzed_stmt s a ha
    have hne := gained_ne h1.gained ha
    simp only [analyzeStmts]
    rw [said_andThen, stmt_msg m s a ha, stmts_msg m ss _ hne, h1.verdict]
    constructor
    · rintro (h | ⟨h, h'⟩)
      · exact .head h
      · rw [h1.ok (h1.verdict.mpr h), h1.depth] at h'
        exact .tail h h'
    · intro h
      cases h with
      | head h => exact .inl h
      | tail h h' =>
        refine .inr ⟨h, ?_⟩
        rw [h1.ok (h1.verdict.mpr h), h1.depth]
        exact h'
end

end Btrd
