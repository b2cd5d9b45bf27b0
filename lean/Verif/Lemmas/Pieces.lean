/-
Programs entered in pieces: texts, analysis and evaluation of a concatenation; what does not depend on being at the
prompt.
-/
import Verif.Spec.Pieces
import Verif.Props.Control
import Verif.Props.Unread
import Verif.Props.Stdin
import Verif.Lemmas.Live
import Verif.Lemmas.Moments
import Verif.Lemmas.Prefix
import Verif.Lemmas.Process

namespace Btrd
open P Spec

/-! ### texts -/

theorem spells_append {t₁ t₂ : Str} {p₁ p₂ : List Stmt} (h₁ : Spells t₁ p₁) (h₂ : Spells t₂ p₂) :
    Spells (t₁ ++ t₂) (p₁ ++ p₂) := by
  obtain ⟨ts, h1, h2⟩ := h₁
  obtain ⟨us, h3, h4⟩ := h₂
  exact ⟨ts ++ us, prog_append h1 h3, h2.append h4⟩

theorem prog_semi {v : Str → Str → Prop} {u : List Str → Prop} : ∀ {p ts}, ProgFormV v u p ts → p ≠ [] →
    ProgFormV v u p (ts ++ [s!' ";"])
  | _, _, .nil, h => absurd rfl h
  | _, _, .cons s [] a b ha hb, _ => by
    cases hb
    have := ProgFormV.cons s [] _ [] (StmtFormV.semi s a ha) .nil
    simpa using this
  | _, _, .cons s (s' :: ss) a b ha hb, _ => by
    rw [List.append_assoc]
    exact .cons s _ a _ ha (prog_semi hb (by simp))

theorem spells_semi {t : Str} {p : List Stmt} (h : Spells t p) (hp : p ≠ []) : Spells (t ++ [';']) p := by
  obtain ⟨ts, h1, h2⟩ := h
  refine ⟨ts ++ [s!' ";"], prog_semi h1 hp, h2.append ?_⟩
  exact Loose.cons [] _ [] [] (by simp [Blank]) (.nil [] (by simp [Blank]))

theorem replaceContinuation_id : ∀ {t : Str}, '\n' ∉ t → replaceContinuation t = t
  | [], _ => rfl
  | [c], _ => by rw [replaceContinuation] <;> simp [replaceContinuation]
  | c :: d :: t, h => by
    rw [replaceContinuation]
    · rw [replaceContinuation_id (by simp at h ⊢; exact h.2)]
    · intro cs h1 h2
      simp at h2
      simp [h2.1] at h

theorem entry_spells {t : Str} {p : List Stmt} (hn : '\n' ∉ t) (h : Spells t p) (hp : p ≠ []) :
    Spells (fixupInput t) p := by
  unfold fixupInput
  rw [replaceContinuation_id hn]
  dsimp only
  split
  · exact h
  · exact spells_semi h hp

theorem spells_blank {t : Str} (h : Blank t) : Spells t [] := ⟨[], .nil, .nil t h⟩

theorem stripLine_mem {c : Char} : ∀ {b : Bool} {l : Str}, c ∈ stripLine b l → c ∈ l
  | _, [], h => by simp [stripLine] at h
  | b, d :: l, h => by
    rw [stripLine] at h
    split at h
    · simp only [List.mem_cons] at h ⊢
      exact h.imp_right stripLine_mem
    · split at h
      · cases h
      · simp only [List.mem_cons] at h ⊢
        exact h.imp_right stripLine_mem

/-! ### analysis and evaluation -/

theorem andThenA_assoc (r : AState × R Unit) (f g : AState → AState × R Unit) :
    andThenA (andThenA r f) g = andThenA r fun a => andThenA (f a) g := by
  obtain ⟨a, r⟩ := r
  cases r <;> rfl

theorem analyzeStmts_append (p q : List Stmt) : ∀ a, analyzeStmts (p ++ q) a = andThenA (analyzeStmts p a) (analyzeStmts q) := by
  induction p with
  | nil => intro a; rw [List.nil_append, analyzeStmts]; rfl
  | cons s p ih =>
    intro a
    rw [List.cons_append, analyzeStmts, analyzeStmts, andThenA_assoc]
    congr 1
    exact funext ih

/-- what follows a result -/
def thenRun (f : State → T (State × IRes)) (r : State × IRes) : T (State × IRes) :=
  match r with
  | (st, .ok) => f st
  | (st, r) => .ret (st, r)

theorem thenRun_ok (f : State → T (State × IRes)) (st : State) : thenRun f (st, .ok) = f st := rfl
theorem thenRun_other (f : State → T (State × IRes)) (st : State) {r : IRes} (h : r ≠ .ok) :
    thenRun f (st, r) = .ret (st, r) := by cases r <;> first | rfl | exact absurd rfl h

theorem evalStmtsT_cons (cfg : Cfg) (s : Stmt) (ss : List Stmt) (st : State) :
    evalStmtsT cfg (s :: ss) st = T.bind (thenRun (evalStmtsT cfg ss)) (evalStmtT cfg s st) := by
  rw [evalStmtsT]
  congr 1

theorem evalStmtsT_append (cfg : Cfg) (p q : List Stmt) : ∀ st,
    evalStmtsT cfg (p ++ q) st = T.bind (thenRun (evalStmtsT cfg q)) (evalStmtsT cfg p st) := by
  induction p with
  | nil => intro st; rw [List.nil_append, evalStmtsT]; rfl
  | cons s p ih =>
    intro st
    rw [List.cons_append, evalStmtsT_cons, evalStmtsT_cons, tbind_assoc]
    congr 1
    funext r
    obtain ⟨st', r⟩ := r
    by_cases h : r = .ok
    · subst h; rw [thenRun_ok, thenRun_ok]; exact ih st'
    · rw [thenRun_other _ _ h, thenRun_other _ _ h]
      show _ = thenRun _ (st', r)
      rw [thenRun_other _ _ h]

/-! ### at the prompt or not -/

/-- the same, at the prompt or not -/
abbrev Cfg.prompt (cfg : Cfg) (b : Bool) : Cfg := { cfg with interactive := b }

variable (cfg : Cfg) (b : Bool)

mutual
theorem expr_prompt (st : State) : ∀ e, evalExpr (cfg.prompt b) st e = evalExpr cfg st e
  | .ident name => by rw [evalExpr, evalExpr]
  | .int i => by rw [evalExpr, evalExpr]
  | .bool b => by rw [evalExpr, evalExpr]
  | .str s => by rw [evalExpr, evalExpr]
  | .paren e => by rw [evalExpr, evalExpr, expr_prompt st e]
  | .field e f => by rw [evalExpr, evalExpr, expr_prompt st e]
  | .index e i => by rw [evalExpr, evalExpr, expr_prompt st e, expr_prompt st i]
  | .call f args => by rw [evalExpr, evalExpr, expr_prompt st f, args_prompt st args]; rfl
  | .bin op l r => by rw [evalExpr, evalExpr, expr_prompt st l, expr_prompt st r]
  | .un op e => by rw [evalExpr, evalExpr, expr_prompt st e]
  | .cast ty e => by rw [evalExpr, evalExpr, expr_prompt st e]
theorem args_prompt (st : State) : ∀ es, evalArgs (cfg.prompt b) st es = evalArgs cfg st es
  | [] => by rw [evalArgs, evalArgs]
  | e :: es => by rw [evalArgs, evalArgs, expr_prompt st e, args_prompt st es]
end

theorem lhs_prompt (st : State) : ∀ (l : Expr) (f : Value → R Value),
    modifyLhs (cfg.prompt b) st l f = modifyLhs cfg st l f
  | .ident name, f => by rw [modifyLhs, modifyLhs]
  | .field e fld, f => by
    cases fld <;> (first | (rw [modifyLhs, modifyLhs]; simp only [lhs_prompt st e]) | skip)
    all_goals (rw [modifyLhs, modifyLhs] <;> simp)
  | .index e i, f => by rw [modifyLhs, modifyLhs]; simp only [expr_prompt cfg b st, lhs_prompt st e]
  | .call _ _, f => by rw [modifyLhs, modifyLhs]
  | .bin _ _ _, f => by rw [modifyLhs, modifyLhs]
  | .un _ _, f => by rw [modifyLhs, modifyLhs]
  | .cast _ _, f => by rw [modifyLhs, modifyLhs]
  | .int _, f => by rw [modifyLhs, modifyLhs] <;> simp
  | .bool _, f => by rw [modifyLhs, modifyLhs] <;> simp
  | .str _, f => by rw [modifyLhs, modifyLhs] <;> simp
  | .paren _, f => by rw [modifyLhs, modifyLhs] <;> simp

theorem assign_prompt (st : State) (l r : Expr) : evalAssign (cfg.prompt b) st l r = evalAssign cfg st l r := by
  unfold evalAssign
  simp only [expr_prompt, lhs_prompt]

theorem cond_prompt (st : State) (c : Expr) : evalCond (cfg.prompt b) st c = evalCond cfg st c := by
  unfold evalCond
  simp only [expr_prompt]

theorem for_prompt (x r : Expr) (body : State → State × IRes) : evalFor (cfg.prompt b) x r body = evalFor cfg x r body := by
  funext st
  unfold evalFor
  cases x <;> simp only [expr_prompt]

mutual
theorem stmt_prompt : ∀ s st, ShowsNothing s → evalStmt (cfg.prompt b) s st = evalStmt cfg s st
  | .assign l r, st, _ => by rw [evalStmt, evalStmt, assign_prompt]
  | .ite c t f, st, h => by
    rw [ShowsNothing] at h
    have h1 : evalStmts (cfg.prompt b) t = evalStmts cfg t := funext fun st => stmts_prompt t st h.1
    have h2 : evalStmts (cfg.prompt b) f = evalStmts cfg f := funext fun st => stmts_prompt f st h.2
    rw [evalStmt, evalStmt]
    simp only [cond_prompt, h1, h2]
  | .while c body, st, h => by
    rw [ShowsNothing] at h
    have h1 : evalStmts (cfg.prompt b) body = evalStmts cfg body := funext fun st => stmts_prompt body st h
    rw [evalStmt, evalStmt]
    simp only [cond_prompt, h1]
  | .for x r body, st, h => by
    rw [ShowsNothing] at h
    have h1 : evalStmts (cfg.prompt b) body = evalStmts cfg body := funext fun st => stmts_prompt body st h
    rw [evalStmt, evalStmt, for_prompt, h1]
  | .brk, st, _ => by rw [evalStmt, evalStmt]
  | .cont, st, _ => by rw [evalStmt, evalStmt]
  | .help, st, _ => by rw [evalStmt, evalStmt]
  | .quit, st, _ => by rw [evalStmt, evalStmt]
  | .filesystem e, st, _ => by rw [evalStmt, evalStmt]; unfold evalFilesystem; rw [expr_prompt]
  | .print e, st, _ => by rw [evalStmt, evalStmt]; unfold evalPrint; rw [expr_prompt]; rfl
  | .expr e, st, h => by rw [ShowsNothing] at h; exact h.elim
theorem stmts_prompt : ∀ p st, ShowNothing p → evalStmts (cfg.prompt b) p st = evalStmts cfg p st
  | [], st, _ => by rw [evalStmts, evalStmts]
  | s :: p, st, h => by
    rw [ShowNothing] at h
    rw [evalStmts, evalStmts, stmt_prompt s st h.1]
    have : evalStmts (cfg.prompt b) p = evalStmts cfg p := funext fun st => stmts_prompt p st h.2
    rw [this]
end

end Btrd
