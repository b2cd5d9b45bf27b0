/-
What has been printed before changes nothing: evaluation in a state whose output already holds a text is the
evaluation without it, after that text.
-/
import Verif.Model.Runtime
import Verif.Model.Main

namespace Btrd

/-- the same state, with `pre` printed first -/
def State.after (st : State) (pre : Str) : State := { st with sink := ⟨pre ++ st.sink.out, st.sink.room⟩ }

/-- the same outcome, with `pre` printed first -/
abbrev later (pre : Str) (r : State × IRes) : State × IRes := (r.1.after pre, r.2)

mutual
theorem expr_sink (cfg : Cfg) (st : State) (k : Sink) : ∀ e, evalExpr cfg { st with sink := k } e = evalExpr cfg st e
  | .ident name => by rw [evalExpr, evalExpr]
  | .int i => by rw [evalExpr, evalExpr]
  | .bool b => by rw [evalExpr, evalExpr]
  | .str s => by rw [evalExpr, evalExpr]
  | .paren e => by rw [evalExpr, evalExpr, expr_sink cfg st k e]
  | .field e f => by rw [evalExpr, evalExpr, expr_sink cfg st k e]
  | .index e i => by rw [evalExpr, evalExpr, expr_sink cfg st k e, expr_sink cfg st k i]
  | .call f args => by rw [evalExpr, evalExpr, expr_sink cfg st k f, args_sink cfg st k args]
  | .bin op l r => by rw [evalExpr, evalExpr, expr_sink cfg st k l, expr_sink cfg st k r]
  | .un op e => by rw [evalExpr, evalExpr, expr_sink cfg st k e]
  | .cast ty e => by rw [evalExpr, evalExpr, expr_sink cfg st k e]
theorem args_sink (cfg : Cfg) (st : State) (k : Sink) : ∀ es, evalArgs cfg { st with sink := k } es = evalArgs cfg st es
  | [] => by rw [evalArgs, evalArgs]
  | e :: es => by rw [evalArgs, evalArgs, expr_sink cfg st k e, args_sink cfg st k es]
end

theorem lhs_sink (cfg : Cfg) (st : State) (k : Sink) : ∀ (l : Expr) (f : Value → R Value),
    modifyLhs cfg { st with sink := k } l f = modifyLhs cfg st l f
  | .ident name, f => by rw [modifyLhs, modifyLhs]
  | .field e fld, f => by
    cases fld <;> (first | (rw [modifyLhs, modifyLhs]; simp only [lhs_sink cfg st k e]) | skip)
    all_goals (rw [modifyLhs, modifyLhs] <;> simp)
  | .index e i, f => by rw [modifyLhs, modifyLhs]; simp only [expr_sink cfg st k, lhs_sink cfg st k e]
  | .call _ _, f => by rw [modifyLhs, modifyLhs]
  | .bin _ _ _, f => by rw [modifyLhs, modifyLhs]
  | .un _ _, f => by rw [modifyLhs, modifyLhs]
  | .cast _ _, f => by rw [modifyLhs, modifyLhs]
  | .int _, f => by rw [modifyLhs, modifyLhs] <;> simp
  | .bool _, f => by rw [modifyLhs, modifyLhs] <;> simp
  | .str _, f => by rw [modifyLhs, modifyLhs] <;> simp
  | .paren _, f => by rw [modifyLhs, modifyLhs] <;> simp

variable (pre : Str)

theorem write_after (st : State) (s : Str) : (st.after pre).write s = later pre (st.write s) := by
  obtain ⟨⟨out, room⟩, vars, fs⟩ := st
  cases room with
  | none => simp [State.write, State.after, Sink.write, later]
  | some n =>
    by_cases h : s.length ≤ n <;> simp [State.write, State.after, Sink.write, later, h]

theorem expr_after (cfg : Cfg) (st : State) (e : Expr) : evalExpr cfg (st.after pre) e = evalExpr cfg st e :=
  expr_sink cfg st _ e

theorem lhs_after (cfg : Cfg) (st : State) (l : Expr) (f : Value → R Value) :
    modifyLhs cfg (st.after pre) l f = modifyLhs cfg st l f := lhs_sink cfg st _ l f

theorem assign_after (cfg : Cfg) (st : State) (l r : Expr) :
    evalAssign cfg (st.after pre) l r = later pre (evalAssign cfg st l r) := by
  unfold evalAssign
  rw [expr_after]
  cases evalExpr cfg st r with
  | error e => rfl
  | ok v =>
    have hv : (st.after pre).vars = st.vars := rfl
    cases l <;> simp only [lhs_after, hv] <;> split <;> rfl

theorem filesystem_after (cfg : Cfg) (st : State) (e : Expr) :
    evalFilesystem cfg (st.after pre) e = later pre (evalFilesystem cfg st e) := by
  unfold evalFilesystem
  rw [expr_after]
  cases evalExpr cfg st e with
  | error e => rfl
  | ok v =>
    simp only
    split
    · rfl
    · split <;> rfl

theorem print_after (cfg : Cfg) (st : State) (e : Expr) :
    evalPrint cfg (st.after pre) e = later pre (evalPrint cfg st e) := by
  unfold evalPrint
  rw [expr_after]
  cases evalExpr cfg st e with
  | error e => rfl
  | ok v =>
    simp only
    split
    · rfl
    · exact write_after pre st _

theorem exprStmt_after (cfg : Cfg) (st : State) (e : Expr) :
    evalExprStmt cfg (st.after pre) e = later pre (evalExprStmt cfg st e) := by
  unfold evalExprStmt
  rw [expr_after]
  cases evalExpr cfg st e with
  | error e => rfl
  | ok v =>
    simp only
    split
    · split
      · rfl
      · exact write_after pre st _
    · rfl

theorem inScope_after (st : State) (body : State → State × IRes) (hb : ∀ st, body (st.after pre) = later pre (body st)) :
    inScope (st.after pre) body = later pre (inScope st body) := by
  unfold inScope
  have h := hb { st with vars := st.vars.push }
  have hs : ({ st.after pre with vars := (st.after pre).vars.push } : State) = State.after { st with vars := st.vars.push } pre := rfl
  simp only [hs, h]
  generalize body { st with vars := st.vars.push } = r
  have hv : (later pre r).1.vars = r.1.vars := rfl
  rw [hv]
  cases r.1.vars.pop <;> rfl

theorem whileLoop_after (cond : State → R Bool) (body : State → State × IRes) (hc : ∀ st, cond (st.after pre) = cond st)
    (hb : ∀ st, body (st.after pre) = later pre (body st)) :
    ∀ n st, whileLoop cond body n (st.after pre) = later pre (whileLoop cond body n st)
  | 0, st => rfl
  | n + 1, st => by
    simp only [whileLoop, hc, hb]
    cases cond st with
    | error e => rfl
    | ok b =>
      cases b with
      | false => rfl
      | true =>
        simp only
        generalize body st = r
        obtain ⟨st', r⟩ := r
        cases r <;> first | rfl | exact whileLoop_after cond body hc hb n st'

theorem forLoop_after (name : Str) (body : State → State × IRes) (hb : ∀ st, body (st.after pre) = later pre (body st)) :
    ∀ vs st, forLoop name body vs (st.after pre) = later pre (forLoop name body vs st)
  | [], st => rfl
  | v :: vs, st => by
    have hv : (st.after pre).vars = st.vars := rfl
    simp only [forLoop, hv]
    cases st.vars.insert name v with
    | error e => rfl
    | ok w =>
      have hs : ({ st.after pre with vars := w } : State) = State.after { st with vars := w } pre := rfl
      simp only [hs, hb]
      generalize body { st with vars := w } = r
      obtain ⟨st', r⟩ := r
      cases r <;> first | rfl | exact forLoop_after name body hb vs st'

mutual
theorem stmt_after (cfg : Cfg) : ∀ (s : Stmt) (st : State), evalStmt cfg s (st.after pre) = later pre (evalStmt cfg s st)
  | .assign l r, st => by rw [evalStmt, evalStmt]; exact assign_after pre cfg st l r
  | .ite c t f, st => by
    rw [evalStmt, evalStmt]
    apply inScope_after
    intro st
    simp only [evalCond, expr_after]
    split
    · rfl
    · exact stmts_after cfg t st
    · exact stmts_after cfg f st
  | .while c b, st => by
    rw [evalStmt, evalStmt]
    apply inScope_after
    intro st
    exact whileLoop_after pre _ _ (fun st => by simp only [evalCond, expr_after]) (stmts_after cfg b) _ st
  | .for x r b, st => by
    rw [evalStmt, evalStmt]
    apply inScope_after
    intro st
    unfold evalFor
    cases x <;> try rfl
    simp only [expr_after]
    split
    · rfl
    · split
      · rfl
      · exact forLoop_after pre _ _ (stmts_after cfg b) _ st
  | .brk, st => by rw [evalStmt, evalStmt]
  | .cont, st => by rw [evalStmt, evalStmt]
  | .help, st => by rw [evalStmt, evalStmt]; exact write_after pre st _
  | .quit, st => by rw [evalStmt, evalStmt]
  | .filesystem e, st => by rw [evalStmt, evalStmt]; exact filesystem_after pre cfg st e
  | .print e, st => by rw [evalStmt, evalStmt]; exact print_after pre cfg st e
  | .expr e, st => by rw [evalStmt, evalStmt]; exact exprStmt_after pre cfg st e
theorem stmts_after (cfg : Cfg) : ∀ (p : List Stmt) (st : State), evalStmts cfg p (st.after pre) = later pre (evalStmts cfg p st)
  | [], st => by rw [evalStmts, evalStmts]
  | s :: ss, st => by
    rw [evalStmts, evalStmts, stmt_after cfg s st]
    generalize evalStmt cfg s st = r
    obtain ⟨st', r⟩ := r
    cases r <;> first | rfl | exact stmts_after cfg ss st'
end

end Btrd
