/-
Two neighbouring scopes made one: nothing changes for the statements inside.
-/
import Verif.Lemmas.Exchange

namespace Btrd
open Spec

set_option linter.unusedSectionVars false

/-! ### variables -/

section
variable {T : Type}

/-- two scopes as one, what is bound in the first hides the second -/
def Scope.over (s t : Scope T) : Scope T := fun x => match s x with | some v => some v | none => t x

/-- the `n`-th scope and the one around it made one; the innermost scope comes first -/
def mergeAt : Nat → Vars T → Vars T
  | 0, s :: t :: r => s.over t :: r
  | n + 1, s :: r => s :: mergeAt n r
  | _, vs => vs

theorem mergeAt_zero (s t : Scope T) (r : Vars T) : mergeAt 0 (s :: t :: r) = s.over t :: r := rfl

theorem mergeAt_succ (n : Nat) (s : Scope T) (r : Vars T) : mergeAt (n + 1) (s :: r) = s :: mergeAt n r := rfl

theorem merge_get (x : Str) : ∀ (n : Nat) (vs : Vars T), (mergeAt n vs).get x = vs.get x
  | 0, [] => rfl
  | 0, [s] => rfl
  | 0, s :: t :: r => by
    rw [mergeAt_zero, Vars.get, Vars.get, Vars.get]
    unfold Scope.over
    cases s x <;> rfl
  | n + 1, [] => rfl
  | n + 1, s :: r => by
    rw [mergeAt_succ, Vars.get, Vars.get, merge_get x n r]

theorem over_set (s t : Scope T) (x : Str) (v : T) : (s.set x v).over t = (s.over t).set x v := by
  funext y
  unfold Scope.over Scope.set
  by_cases h : y = x <;> simp [h]

theorem over_set_right (s t : Scope T) (x : Str) (v : T) (h : s x = none) : s.over (t.set x v) = (s.over t).set x v := by
  funext y
  unfold Scope.over Scope.set
  by_cases hy : y = x
  · subst hy; simp [h]
  · simp [hy]

theorem merge_overwrite (x : Str) (v : T) : ∀ (n : Nat) (vs : Vars T),
    (mergeAt n vs).overwrite x v = (vs.overwrite x v).map (mergeAt n)
  | 0, [] => rfl
  | 0, [s] => by
    simp only [mergeAt, Vars.overwrite]
    cases s x <;> rfl
  | 0, s :: t :: r => by
    rw [mergeAt_zero, Vars.overwrite, Vars.overwrite, Vars.overwrite]
    cases hs : s x with
    | some w =>
      have : s.over t x = some w := by unfold Scope.over; rw [hs]
      rw [this]
      simp only [Option.map_some, mergeAt_zero, over_set]
    | none =>
      have : s.over t x = t x := by unfold Scope.over; rw [hs]
      rw [this]
      cases ht : t x with
      | some w => simp only [Option.map_some, mergeAt_zero, over_set_right s t x v hs]
      | none =>
        dsimp only
        cases Vars.overwrite r x v <;> rfl
  | n + 1, [] => rfl
  | n + 1, s :: r => by
    rw [mergeAt_succ, Vars.overwrite, Vars.overwrite, merge_overwrite x v n r]
    cases s x with
    | some w => rfl
    | none =>
      dsimp only
      cases Vars.overwrite r x v <;> rfl

theorem merge_insert (x : Str) (v : T) (n : Nat) (vs : Vars T) :
    (mergeAt n vs).insert x v = (vs.insert x v >>= fun w => .ok (mergeAt n w)) := by
  unfold Vars.insert
  rw [merge_overwrite]
  cases Vars.overwrite vs x v with
  | some w => rfl
  | none =>
    match n, vs with
    | 0, [] => rfl
    | 0, [s] => rfl
    | 0, s :: t :: r => exact congrArg (fun a => Except.ok (a :: r)) (over_set s t x v).symm
    | n + 1, [] => rfl
    | n + 1, s :: r => rfl

theorem merge_modify (f : T → R T) (x : Str) : ∀ (n : Nat) (vs : Vars T),
    (mergeAt n vs).modify f x = (vs.modify f x).map fun r => r >>= fun w => .ok (mergeAt n w)
  | 0, [] => rfl
  | 0, [s] => by
    simp only [mergeAt, Vars.modify]
    cases s x with
    | none => rfl
    | some v => dsimp only; cases f v <;> rfl
  | 0, s :: t :: r => by
    rw [mergeAt_zero, Vars.modify, Vars.modify, Vars.modify]
    cases hs : s x with
    | some w =>
      have : s.over t x = some w := by unfold Scope.over; rw [hs]
      rw [this]
      dsimp only
      cases f w with
      | error e => rfl
      | ok v => exact congrArg (fun a => some (Except.ok (a :: r))) (over_set s t x v).symm
    | none =>
      have : s.over t x = t x := by unfold Scope.over; rw [hs]
      rw [this]
      cases ht : t x with
      | some w =>
        dsimp only
        cases f w with
        | error e => rfl
        | ok v => exact congrArg (fun a => some (Except.ok (a :: r))) (over_set_right s t x v hs).symm
      | none =>
        dsimp only
        cases Vars.modify f r x with
        | none => rfl
        | some q => cases q <;> rfl
  | n + 1, [] => rfl
  | n + 1, s :: r => by
    rw [mergeAt_succ, Vars.modify, Vars.modify, merge_modify f x n r]
    cases s x with
    | some w => dsimp only; cases f w <;> rfl
    | none =>
      dsimp only
      cases Vars.modify f r x with
      | none => rfl
      | some q => cases q <;> rfl

theorem merge_push (n : Nat) (vs : Vars T) : (mergeAt n vs).push = mergeAt (n + 1) vs.push := rfl

theorem merge_pop (n : Nat) (vs : Vars T) : (mergeAt (n + 1) vs).pop = (vs.pop >>= fun w => .ok (mergeAt n w)) := by
  cases vs <;> rfl

end

/-! ### expressions -/

/-- the state with two scopes made one -/
def mergeSt (n : Nat) (st : State) : State := { st with vars := mergeAt n st.vars }

section
variable (cfg : Cfg) {st st' : State} (hv : ∀ x, st'.vars.get x = st.vars.get x) (hf : st'.fs = st.fs)

include hv hf in
mutual
/-- the value of an expression depends on what the variables hold and on the filesystem -/
theorem eval_depends : ∀ e : Expr, evalExprT cfg st' e = evalExprT cfg st e
  | .ident x => by rw [evalExprT, evalExprT, hv]
  | .int _ => by rw [evalExprT, evalExprT]
  | .bool _ => by rw [evalExprT, evalExprT]
  | .str _ => by rw [evalExprT, evalExprT]
  | .paren e => by rw [evalExprT, evalExprT, eval_depends e]
  | .field e f => by rw [evalExprT, evalExprT, eval_depends e]
  | .index e i => by rw [evalExprT, evalExprT, eval_depends e, eval_depends i]
  | .call f args => by rw [evalExprT, evalExprT, eval_depends f, args_depends args, hf]
  | .bin op l r => by rw [evalExprT, evalExprT, eval_depends l, eval_depends r]
  | .un op e => by rw [evalExprT, evalExprT, eval_depends e]
  | .cast ty e => by rw [evalExprT, evalExprT, eval_depends e, hf]
theorem args_depends : ∀ es : List Expr, evalArgsT cfg st' es = evalArgsT cfg st es
  | [] => by rw [evalArgsT, evalArgsT]
  | e :: es => by rw [evalArgsT, evalArgsT, eval_depends e, args_depends es]
end

include hv hf in
theorem cond_depends (c : Expr) : evalCondT cfg st' c = evalCondT cfg st c := by
  unfold evalCondT
  rw [eval_depends cfg hv hf c]

end

theorem eval_merge (cfg : Cfg) (n : Nat) (st : State) (e : Expr) : evalExprT cfg (mergeSt n st) e = evalExprT cfg st e :=
  eval_depends (st := st) (st' := mergeSt n st) cfg (fun x => merge_get x n st.vars) rfl e

theorem cond_merge (cfg : Cfg) (n : Nat) (st : State) (c : Expr) : evalCondT cfg (mergeSt n st) c = evalCondT cfg st c :=
  cond_depends (st := st) (st' := mergeSt n st) cfg (fun x => merge_get x n st.vars) rfl c

theorem lhs_merge (cfg : Cfg) (n : Nat) (st : State) : ∀ (e : Expr) (f : Value → R Value),
    modifyLhsT cfg (mergeSt n st) e f = (modifyLhsT cfg st e f >>= fun w => E.of (.ok (mergeAt n w)))
  | .field e fld, f => by
    cases fld
    case ident name =>
      rw [modifyLhsT, modifyLhsT]
      exact lhs_merge cfg n st e _
    all_goals
      rw [modifyLhsT.eq_def, modifyLhsT.eq_def]
      rfl
  | .index e i, f => by
    rw [modifyLhsT, modifyLhsT, eval_merge]
    simp only [ebind_assoc]
    refine congrArg _ (funext fun iv => congrArg _ (funext fun idx => ?_))
    exact lhs_merge cfg n st e _
  | .ident x, f => by
    rw [modifyLhsT, modifyLhsT] <;> try simp
    rw [modifyLhs, modifyLhs]
    unfold mergeSt
    rw [merge_modify]
    cases st.vars.modify f x with
    | none => rfl
    | some r => cases r <;> rfl
  | .int _, f | .bool _, f | .str _, f | .paren _, f | .call _ _, f | .bin _ _ _, f | .un _ _, f | .cast _ _, f => by
    rw [modifyLhsT, modifyLhsT] <;> try simp
    rw [modifyLhs.eq_def, modifyLhs.eq_def]
    rfl

/-! ### statements -/

/-- the end of a statement, with two scopes made one -/
def mergeRun (n : Nat) (r : State × IRes) : State × IRes := (mergeSt n r.1, r.2)

/-- a computation that ends like this one, with two scopes made one -/
def mergeT (n : Nat) (x : T (State × IRes)) : T (State × IRes) := x.bind fun r => .ret (mergeRun n r)

theorem into_merge {α : Type} (n : Nat) (x : E α) (st : State) {k k' : α → T (State × IRes)}
    (h : ∀ a, k' a = mergeT n (k a)) : x.into (mergeSt n st) k' = mergeT n (x.into st k) := by
  refine Eq.trans ?_ (tbind_assoc (α := R α) _ _ x).symm
  refine congrArg (fun f => T.bind (α := R α) f x) (funext fun r => ?_)
  cases r with
  | ok a => exact h a
  | error e => rfl

theorem seq_merge (n : Nat) (x : T (State × IRes)) {f g : State × IRes → T (State × IRes)}
    (h : ∀ r, g (mergeRun n r) = mergeT n (f r)) : (mergeT n x).bind g = mergeT n (x.bind f) := by
  unfold mergeT
  rw [tbind_assoc, tbind_assoc]
  exact congrArg (fun f => T.bind f x) (funext fun r => h r)

theorem scope_merge (n : Nat) (st : State) {body body' : State → T (State × IRes)}
    (h : ∀ st, body' (mergeSt (n + 1) st) = mergeT (n + 1) (body st)) :
    inScopeT (mergeSt n st) body' = mergeT n (inScopeT st body) := by
  unfold inScopeT
  rw [show ({ mergeSt n st with vars := (mergeSt n st).vars.push } : State) = mergeSt (n + 1) { st with vars := st.vars.push }
    from rfl, h]
  unfold mergeT
  rw [tbind_assoc, tbind_assoc]
  refine congrArg (fun f => T.bind f _) (funext fun r => ?_)
  obtain ⟨a, r⟩ := r
  obtain ⟨sink, vars, fs⟩ := a
  cases vars <;> cases n <;> rfl

theorem while_merge {cond : State → E Bool} {body : State → T (State × IRes)} {n : Nat}
    (hc : ∀ st, cond (mergeSt n st) = cond st) (hb : ∀ st, body (mergeSt n st) = mergeT n (body st)) :
    ∀ (fuel : Nat) (st : State), whileLoopT cond body fuel (mergeSt n st) = mergeT n (whileLoopT cond body fuel st)
  | 0, st => rfl
  | fuel + 1, st => by
    rw [whileLoopT, whileLoopT, hc]
    refine into_merge n _ st fun b => ?_
    cases b
    · rfl
    · simp only [if_true]
      rw [hb]
      refine seq_merge n _ fun r => ?_
      obtain ⟨a, r⟩ := r
      cases r <;> first | rfl | exact while_merge hc hb fuel a

theorem for_merge (x : Str) {body : State → T (State × IRes)} {n : Nat}
    (hb : ∀ st, body (mergeSt n st) = mergeT n (body st)) :
    ∀ (vs : List Value) (st : State), forLoopT x body vs (mergeSt n st) = mergeT n (forLoopT x body vs st)
  | [], st => rfl
  | v :: vs, st => by
    rw [forLoopT, forLoopT]
    unfold mergeSt
    rw [merge_insert]
    cases hi : st.vars.insert x v with
    | error e => rfl
    | ok w =>
      refine (congrArg (T.bind _) (hb { st with vars := w })).trans ?_
      refine seq_merge n _ fun r => ?_
      obtain ⟨a, r⟩ := r
      cases r <;> first | rfl | exact for_merge x hb vs a

theorem write_merge (n : Nat) (st : State) (s : Str) : (mergeSt n st).write s = mergeRun n (st.write s) := by
  unfold State.write
  simp only [mergeSt]
  split <;> rfl

mutual
/-- in a state with two scopes made one, a statement does the same -/
theorem stmt_merge (cfg : Cfg) : ∀ (s : Stmt) (n : Nat) (st : State),
    evalStmtT cfg s (mergeSt n st) = mergeT n (evalStmtT cfg s st)
  | .assign l r, n, st => by
    rw [evalStmtT, evalStmtT]
    unfold evalAssignT
    rw [eval_merge]
    refine into_merge n _ st fun v => ?_
    have hpart : (modifyLhsT cfg (mergeSt n st) l (fun _ => .ok v)).into (mergeSt n st)
        (fun vs => .ret ({ mergeSt n st with vars := vs }, .ok)) =
        mergeT n ((modifyLhsT cfg st l (fun _ => .ok v)).into st fun vs => .ret ({ st with vars := vs }, .ok)) := by
      rw [lhs_merge]
      refine Eq.trans ?_ (tbind_assoc (α := R (Vars Value)) _ _ _).symm
      refine (tbind_assoc (α := R (Vars Value)) (β := R (Vars Value)) _ _ _).trans ?_
      refine congrArg (fun f => T.bind (α := R (Vars Value)) f _) (funext fun r => ?_)
      cases r <;> rfl
    cases l
    case ident x =>
      dsimp only
      unfold mergeSt
      rw [merge_insert]
      cases st.vars.insert x v <;> rfl
    all_goals exact hpart
  | .ite c t f, n, st => by
    rw [evalStmtT, evalStmtT]
    refine scope_merge n st fun st => ?_
    rw [cond_merge]
    refine into_merge _ _ st fun b => ?_
    cases b
    · exact stmts_merge cfg f _ st
    · exact stmts_merge cfg t _ st
  | .while c b, n, st => by
    rw [evalStmtT, evalStmtT]
    exact scope_merge n st fun st => while_merge (fun st => cond_merge cfg _ st c) (fun st => stmts_merge cfg b _ st) _ st
  | .for x r b, n, st => by
    rw [evalStmtT, evalStmtT]
    refine scope_merge n st fun st => ?_
    unfold evalForT
    cases x
    case ident x =>
      dsimp only
      rw [eval_merge]
      refine into_merge _ _ st fun v => into_merge _ _ st fun items => ?_
      exact for_merge x (fun st => stmts_merge cfg b _ st) items st
    all_goals rfl
  | .brk, n, st => by rw [evalStmtT, evalStmtT]; rfl
  | .cont, n, st => by rw [evalStmtT, evalStmtT]; rfl
  | .help, n, st => by
    rw [evalStmtT, evalStmtT, write_merge]
    rfl
  | .quit, n, st => by rw [evalStmtT, evalStmtT]; rfl
  | .filesystem e, n, st => by
    rw [evalStmtT, evalStmtT]
    unfold evalFilesystemT
    rw [eval_merge]
    exact into_merge n _ st fun v => into_merge n _ st fun p => into_merge n _ st fun fs => rfl
  | .print e, n, st => by
    rw [evalStmtT, evalStmtT]
    unfold evalPrintT
    rw [eval_merge]
    refine into_merge n _ st fun v => into_merge n _ st fun t => ?_
    rw [write_merge]
    rfl
  | .expr e, n, st => by
    rw [evalStmtT, evalStmtT]
    unfold evalExprStmtT
    rw [eval_merge]
    refine into_merge n _ st fun v => ?_
    cases cfg.interactive
    · rfl
    · refine into_merge n _ st fun t => ?_
      rw [write_merge]
      rfl
theorem stmts_merge (cfg : Cfg) : ∀ (p : List Stmt) (n : Nat) (st : State),
    evalStmtsT cfg p (mergeSt n st) = mergeT n (evalStmtsT cfg p st)
  | [], n, st => by rw [evalStmtsT, evalStmtsT]; rfl
  | s :: p, n, st => by
    rw [evalStmtsT, evalStmtsT, stmt_merge cfg s n st]
    refine seq_merge n _ fun r => ?_
    obtain ⟨a, r⟩ := r
    cases r <;> first | rfl | exact stmts_merge cfg p n a
end

/-! ### the checks -/

/-- the state of the checks with two scopes made one -/
def mergeA (n : Nat) (a : AState) : AState := { a with vars := mergeAt n a.vars }

mutual
theorem analyze_depends {vs vs' : Vars Unit} (h : ∀ x, vs'.get x = vs.get x) : ∀ e : Expr, analyzeExpr vs' e = analyzeExpr vs e
  | .ident x => by rw [analyzeExpr, analyzeExpr, h]
  | .int _ => by rw [analyzeExpr, analyzeExpr]
  | .bool _ => by rw [analyzeExpr, analyzeExpr]
  | .str _ => by rw [analyzeExpr, analyzeExpr]
  | .paren e => by rw [analyzeExpr, analyzeExpr, analyze_depends h e]
  | .field e f => by
    cases f
    case ident x => rw [analyzeExpr, analyzeExpr, analyze_depends h e]
    all_goals rw [analyzeExpr, analyzeExpr] <;> simp
  | .index e i => by rw [analyzeExpr, analyzeExpr, analyze_depends h e, analyze_depends h i]
  | .call f args => by rw [analyzeExpr, analyzeExpr, analyze_depends h f, analyzeArgs_depends h args]
  | .bin op l r => by rw [analyzeExpr, analyzeExpr, analyze_depends h l, analyze_depends h r]
  | .un op e => by rw [analyzeExpr, analyzeExpr, analyze_depends h e]
  | .cast ty e => by
    cases ty
    case ident x => rw [analyzeExpr, analyzeExpr, analyze_depends h e]
    all_goals rw [analyzeExpr, analyzeExpr] <;> simp
theorem analyzeArgs_depends {vs vs' : Vars Unit} (h : ∀ x, vs'.get x = vs.get x) : ∀ es : List Expr,
    analyzeArgs vs' es = analyzeArgs vs es
  | [] => by rw [analyzeArgs, analyzeArgs]
  | e :: es => by rw [analyzeArgs, analyzeArgs, analyze_depends h e, analyzeArgs_depends h es]
end

theorem analyze_merge (n : Nat) (a : AState) (e : Expr) : analyzeExpr (mergeA n a).vars e = analyzeExpr a.vars e :=
  analyze_depends (fun x => merge_get x n a.vars) e

/-- how a check ends, with two scopes made one -/
def mergeC (n : Nat) (r : AState × R Unit) : AState × R Unit := (mergeA n r.1, r.2)

theorem then_merge (n : Nat) {r r' : AState × R Unit} {f f' : AState → AState × R Unit} (h : r' = mergeC n r)
    (hf : ∀ a, f' (mergeA n a) = mergeC n (f a)) : andThenA r' f' = mergeC n (andThenA r f) := by
  subst h
  obtain ⟨a, r⟩ := r
  cases r with
  | ok _ => exact hf a
  | error e => rfl

theorem exprA_merge (n : Nat) (r : R Unit) (a : AState) {x y : AState × R Unit} (h : y = mergeC n x) :
    (match r with | .ok _ => y | .error e => (mergeA n a, .error e)) =
      mergeC n (match r with | .ok _ => x | .error e => (a, .error e)) := by
  cases r with
  | ok _ => exact h
  | error e => rfl

theorem scopeA_merge (n d : Nat) (a : AState) {f f' : AState → AState × R Unit}
    (h : ∀ a, f' (mergeA (n + 1) a) = mergeC (n + 1) (f a)) : scopedA d (mergeA n a) f' = mergeC n (scopedA d a f) := by
  unfold scopedA
  rw [show (⟨(mergeA n a).vars.push, (mergeA n a).loopDepth + d⟩ : AState) = mergeA (n + 1) ⟨a.vars.push, a.loopDepth + d⟩ from rfl, h]
  generalize f _ = r
  obtain ⟨b, r⟩ := r
  obtain ⟨vars, depth⟩ := b
  cases vars <;> cases n <;> rfl

theorem declare_merge (n : Nat) (a : AState) (x : Str) : (mergeA n a).declare x = mergeC n (a.declare x) := by
  unfold AState.declare
  simp only [mergeA, merge_insert]
  cases a.vars.insert x () <;> rfl

mutual
theorem check_merge : ∀ (s : Stmt) (n : Nat) (a : AState), analyzeStmt s (mergeA n a) = mergeC n (analyzeStmt s a)
  | .assign l r, n, a => by
    have h1 := analyze_merge n a l
    have h2 := analyze_merge n a r
    cases l
    case ident x =>
      rw [analyzeStmt, analyzeStmt, declare_merge]
      exact then_merge n rfl fun a => by rw [analyze_merge]; rfl
    all_goals
      rw [analyzeStmt, analyzeStmt] <;> first
        | (simp only [h1, h2]; split <;> rfl)
        | simp
  | .ite c t f, n, a => by
    rw [analyzeStmt, analyzeStmt]
    refine scopeA_merge n 0 a fun a => ?_
    rw [analyze_merge]
    exact exprA_merge _ _ a (then_merge _ (checks_merge t _ a) fun a => checks_merge f _ a)
  | .while c b, n, a => by
    rw [analyzeStmt, analyzeStmt]
    refine scopeA_merge n 1 a fun a => ?_
    rw [analyze_merge]
    exact exprA_merge _ _ a (checks_merge b _ a)
  | .for x r b, n, a => by
    rw [analyzeStmt, analyzeStmt]
    refine scopeA_merge n 1 a fun a => ?_
    cases x
    case ident x =>
      dsimp only
      rw [declare_merge]
      refine then_merge _ rfl fun a => ?_
      rw [analyze_merge]
      exact exprA_merge _ _ a (checks_merge b _ a)
    all_goals rfl
  | .brk, n, a => by rw [analyzeStmt, analyzeStmt]; rfl
  | .cont, n, a => by rw [analyzeStmt, analyzeStmt]; rfl
  | .help, n, a => by rw [analyzeStmt, analyzeStmt]; rfl
  | .quit, n, a => by rw [analyzeStmt, analyzeStmt]; rfl
  | .filesystem e, n, a => by
    cases e <;> (rw [analyzeStmt, analyzeStmt] <;> first | rfl | simp)
  | .print e, n, a => by rw [analyzeStmt, analyzeStmt, analyze_merge]; rfl
  | .expr e, n, a => by rw [analyzeStmt, analyzeStmt, analyze_merge]; rfl
theorem checks_merge : ∀ (p : List Stmt) (n : Nat) (a : AState), analyzeStmts p (mergeA n a) = mergeC n (analyzeStmts p a)
  | [], n, a => by rw [analyzeStmts, analyzeStmts]; rfl
  | s :: p, n, a => by
    rw [analyzeStmts, analyzeStmts]
    exact then_merge n (check_merge s n a) fun a => checks_merge p n a
end

end Btrd
