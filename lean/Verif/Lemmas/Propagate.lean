/-
Variables that statements leave alone, and programs that read a variable or something that has the same value.
-/
import Verif.Spec.Propagate
import Verif.Lemmas.KeptScopes

namespace Btrd
open Spec

/-! ### what is left alone -/

/-- the variables have the same values, in the same scopes -/
def KeptAs (N : Str → Prop) (vs vs' : Vars Value) : Prop := ∀ y, N y → slots vs' y = slots vs y

/-- no assignment to any of these names -/
def LeftAlone (N : Str → Prop) (p : List Stmt) : Prop := ∀ y, N y → UntouchedAll y p

abbrev KeepT (N : Str → Prop) (vs : Vars Value) (x : T (State × IRes)) : Prop := Leads (fun r => KeptAs N vs r.1.vars) x

theorem leads_weaken {α : Type} {Q Q' : α → Prop} (hq : ∀ a, Q a → Q' a) {x : T α} (h : Leads Q x) : Leads Q' x := by
  induction h with
  | ret h => exact .ret (hq _ h)
  | warn w _ ih => exact .warn w ih
  | search a _ ih => exact .search a ih
  | bytes i j _ ih => exact .bytes i j ih
  | opens p _ ih => exact .opens p ih

section
variable {N : Str → Prop}

theorem KeptAs.refl (vs : Vars Value) : KeptAs N vs vs := fun _ _ => rfl

theorem KeptAs.trans {a b c : Vars Value} (h : KeptAs N a b) (h' : KeptAs N b c) : KeptAs N a c := fun y hy => (h' y hy).trans (h y hy)

theorem KeptAs.get {a b : Vars Value} (h : KeptAs N a b) {y : Str} (hy : N y) : b.get y = a.get y := by
  rw [get_eq_read, get_eq_read, h y hy]

theorem KeptAs.leave {vs vs' : Vars Value} {s : Scope Value} (h : KeptAs N vs.push (s :: vs')) : KeptAs N vs vs' := fun y hy => by
  have := h y hy
  simp only [slots, Vars.push, List.map_cons, List.cons.injEq] at this
  exact this.2

theorem keep_into {α : Type} {Q : α → Prop} {x : E α} (h : Vals Q x) (vs : Vars Value) (st : State) (hs : KeptAs N vs st.vars)
    {k : α → T (State × IRes)} (hk : ∀ a, Q a → KeepT N vs (k a)) : KeepT N vs (x.into st k) := by
  refine Leads.bind (α := R α) (fun r hr => ?_) h
  cases r with
  | ok a => exact hk a (hr a rfl)
  | error e => exact .ret hs

theorem keep_step {α : Type} (x : E α) {vs : Vars Value} (st : State) (hs : KeptAs N vs st.vars)
    {k : α → T (State × IRes)} (hk : ∀ a, KeepT N vs (k a)) : KeepT N vs (x.into st k) :=
  keep_into (vals_any x) vs st hs fun a _ => hk a

theorem keep_write (st : State) (s : Str) : KeepT N st.vars (.ret (st.write s)) := by
  refine .ret ?_
  rw [State.write_vars]
  exact KeptAs.refl _

theorem keep_scope (st : State) {body : State → T (State × IRes)}
    (hb : ∀ st : State, KeepT N st.vars (body st)) : KeepT N st.vars (inScopeT st body) := by
  refine Leads.bind (fun r hr => .ret ?_) (hb { st with vars := st.vars.push })
  obtain ⟨st', r⟩ := r
  have hr : KeptAs N st.vars.push st'.vars := hr
  dsimp only
  cases hv : st'.vars with
  | nil =>
    rw [hv] at hr
    intro y hy
    have := hr y hy
    simp [slots, Vars.push] at this
  | cons s vs => rw [hv] at hr; exact hr.leave

theorem keep_while {c : State → E Bool} {body : State → T (State × IRes)} {vs : Vars Value}
    (hb : ∀ st : State, KeepT N st.vars (body st)) : ∀ (n : Nat) (st : State), KeptAs N vs st.vars →
      KeepT N vs (whileLoopT c body n st)
  | 0, _, h => .ret h
  | n + 1, st, h => by
    refine keep_step _ st h fun b => ?_
    cases b
    · exact .ret h
    · refine Leads.bind (fun r hr => ?_) (hb st)
      obtain ⟨st', r⟩ := r
      have hd : KeptAs N vs st'.vars := h.trans hr
      cases r with
      | ok => exact keep_while hb n st' hd
      | cont => exact keep_while hb n st' hd
      | _ => exact .ret hd

theorem keep_insert {vs w : Vars Value} {name : Str} {v : Value} (hn : ¬ N name) (h : vs.insert name v = .ok w) : KeptAs N vs w :=
  fun y hy => (insert_slots h).2 y (by rintro rfl; exact hn hy)

theorem keep_for (name : Str) (hn : ¬ N name) {body : State → T (State × IRes)} {vs : Vars Value}
    (hb : ∀ st : State, KeepT N st.vars (body st)) : ∀ (items : List Value) (st : State), KeptAs N vs st.vars →
      KeepT N vs (forLoopT name body items st)
  | [], _, h => .ret h
  | v :: items, st, h => by
    refine keep_into (Q := fun w => st.vars.insert name v = .ok w) (vals_of fun _ h => h) vs st h fun w hw => ?_
    refine Leads.bind (fun r hr => ?_) (hb { st with vars := w })
    obtain ⟨st', r⟩ := r
    have hd : KeptAs N vs st'.vars := (h.trans (keep_insert hn hw)).trans hr
    cases r with
    | ok => exact keep_for name hn hb items st' hd
    | cont => exact keep_for name hn hb items st' hd
    | _ => exact .ret hd

theorem lhs_keep (cfg : Cfg) (st : State) : ∀ (e : Expr) (_ : ∀ y, N y → root e ≠ some y) (f : Value → R Value),
    Vals (fun vs => KeptAs N st.vars vs) (modifyLhsT cfg st e f)
  | .field e fld, h, f => by
    rw [modifyLhsT.eq_def]
    cases fld with
    | ident name => exact lhs_keep cfg st e h _
    | _ => exact vals_fail
  | .index e i, h, f => by
    rw [modifyLhsT.eq_def]
    exact vals_bind (vals_any _) fun _ _ => vals_then fun _ _ => lhs_keep cfg st e h _
  | .ident name, h, f => by
    rw [modifyLhsT.eq_def]
    refine vals_of fun vs hm => ?_
    obtain ⟨x, p, old, new, hw⟩ := modifyLhs_wrote cfg st _ _ _ hm
    intro y hy
    refine hw.others y ?_
    rintro rfl
    exact h y hy hw.root
  | .int _, _, _ => vals_of fun _ h => by simp [modifyLhs] at h
  | .bool _, _, _ => vals_of fun _ h => by simp [modifyLhs] at h
  | .str _, _, _ => vals_of fun _ h => by simp [modifyLhs] at h
  | .paren _, _, _ => vals_of fun _ h => by simp [modifyLhs] at h
  | .call _ _, _, _ => vals_of fun _ h => by simp [modifyLhs] at h
  | .bin _ _ _, _, _ => vals_of fun _ h => by simp [modifyLhs] at h
  | .un _ _, _, _ => vals_of fun _ h => by simp [modifyLhs] at h
  | .cast _ _, _, _ => vals_of fun _ h => by simp [modifyLhs] at h

theorem keep_evalFor (cfg : Cfg) (x range : Expr) (hx : ∀ y, N y → x ≠ .ident y) {body : State → T (State × IRes)}
    (hb : ∀ st : State, KeepT N st.vars (body st)) (st : State) : KeepT N st.vars (evalForT cfg x range body st) := by
  unfold evalForT
  cases x with
  | ident name =>
    exact keep_step _ st (KeptAs.refl _) fun v => keep_step _ st (KeptAs.refl _) fun vec =>
      keep_for name (fun h => hx name h rfl) hb vec st (KeptAs.refl _)
  | _ => exact .ret (KeptAs.refl _)

theorem keep_assign (cfg : Cfg) (st : State) (l r : Expr) (hl : ∀ y, N y → root l ≠ some y) :
    KeepT N st.vars (evalAssignT cfg st l r) := by
  refine keep_step _ st (KeptAs.refl _) fun v => ?_
  cases l with
  | ident name =>
    exact keep_into (Q := fun w => st.vars.insert name v = .ok w) (vals_of fun _ h => h) _ st (KeptAs.refl _) fun w hw =>
      .ret (keep_insert (fun h => hl name h rfl) hw)
  | _ => exact keep_into (lhs_keep cfg st _ hl _) _ st (KeptAs.refl _) fun w hw => .ret hw

mutual
theorem stmt_keep (cfg : Cfg) : ∀ (s : Stmt) (_ : ∀ y, N y → Untouched y s) (st : State), KeepT N st.vars (evalStmtT cfg s st)
  | .assign l r, h, st => by rw [evalStmtT]; exact keep_assign cfg st l r h
  | .ite c t f, h, st => by
    rw [evalStmtT]
    refine keep_scope st fun st => keep_step _ st (KeptAs.refl _) fun b => ?_
    cases b
    · exact stmts_keep cfg f (fun y hy => (h y hy).2) st
    · exact stmts_keep cfg t (fun y hy => (h y hy).1) st
  | .while c body, h, st => by
    rw [evalStmtT]
    exact keep_scope st fun st => keep_while (stmts_keep cfg body h) _ st (KeptAs.refl _)
  | .for x r body, h, st => by
    rw [evalStmtT]
    exact keep_scope st fun st => keep_evalFor cfg x r (fun y hy => (h y hy).1) (stmts_keep cfg body fun y hy => (h y hy).2) st
  | .brk, _, st => by rw [evalStmtT]; exact .ret (KeptAs.refl _)
  | .cont, _, st => by rw [evalStmtT]; exact .ret (KeptAs.refl _)
  | .help, _, st => by rw [evalStmtT]; exact keep_write st _
  | .quit, _, st => by rw [evalStmtT]; exact .ret (KeptAs.refl _)
  | .filesystem e, _, st => by
    rw [evalStmtT]
    exact keep_step _ st (KeptAs.refl _) fun v => keep_step _ st (KeptAs.refl _) fun path => keep_step _ st (KeptAs.refl _) fun fs => .ret (KeptAs.refl _)
  | .print e, _, st => by
    rw [evalStmtT]
    exact keep_step _ st (KeptAs.refl _) fun v => keep_step _ st (KeptAs.refl _) fun t => keep_write st _
  | .expr e, _, st => by
    rw [evalStmtT]
    refine keep_step _ st (KeptAs.refl _) fun v => ?_
    cases cfg.interactive
    · exact .ret (KeptAs.refl _)
    · exact keep_step _ st (KeptAs.refl _) fun t => keep_write st _
theorem stmts_keep (cfg : Cfg) : ∀ (p : List Stmt) (_ : LeftAlone N p) (st : State), KeepT N st.vars (evalStmtsT cfg p st)
  | [], _, st => by rw [evalStmtsT]; exact .ret (KeptAs.refl _)
  | s :: p, h, st => by
    rw [evalStmtsT]
    refine Leads.bind (fun r hr => ?_) (stmt_keep cfg s (fun y hy => (h y hy).1) st)
    obtain ⟨st', r⟩ := r
    have hd : KeptAs N st.vars st'.vars := hr
    cases r with
    | ok => exact leads_weaken (fun r hr => hd.trans hr) (stmts_keep cfg p (fun y hy => (h y hy).2) st')
    | _ => exact .ret hd
end

end

/-! ### going on -/

/-- first the same, then the same from every state there can be -/
theorem along_keep {N : Str → Prop} {vs : Vars Value} {x y : T (State × IRes)} (hk : KeepT N vs x) (h : SubS True x y)
    {f g : State × IRes → T (State × IRes)} (hf : ∀ r, KeptAs N vs r.1.vars → SubS True (f r) (g r)) :
    SubS True (x.bind f) (y.bind g) :=
  Along.bindKnown hk h hf fun _ _ _ _ _ => .inl trivial

/-- the related expressions have the same value here -/
def AlikeAt (R : Expr → Expr → Prop) (cfg : Cfg) (st : State) : Prop := ∀ e e', R e e' → evalExprT cfg st e' = evalExprT cfg st e

section
variable {N : Str → Prop} {R : Expr → Expr → Prop} {cfg : Cfg}

mutual
theorem alike_expr {st : State} (h : AlikeAt R cfg st) : ∀ {e e' : Expr}, Exchanged R e e' → evalExprT cfg st e' = evalExprT cfg st e
  | _, _, .here hr => h _ _ hr
  | _, _, .same _ => rfl
  | _, _, .paren he => by rw [evalExprT, evalExprT, alike_expr h he]
  | _, _, .field f he => by rw [evalExprT, evalExprT, alike_expr h he]
  | _, _, .index he hi => by rw [evalExprT, evalExprT, alike_expr h he, alike_expr h hi]
  | _, _, .call hf ha => by rw [evalExprT, evalExprT, alike_expr h hf, alike_args h ha]
  | _, _, .bin op hl hr => by rw [evalExprT, evalExprT, alike_expr h hl, alike_expr h hr]
  | _, _, .un op he => by rw [evalExprT, evalExprT, alike_expr h he]
  | _, _, .cast ty he => by rw [evalExprT, evalExprT, alike_expr h he]
theorem alike_args {st : State} (h : AlikeAt R cfg st) : ∀ {es es' : List Expr}, ExchangedArgs R es es' →
    evalArgsT cfg st es' = evalArgsT cfg st es
  | _, _, .nil => rfl
  | _, _, .cons he hs => by rw [evalArgsT, evalArgsT, alike_expr h he, alike_args h hs]
end

theorem alike_cond {st : State} (h : AlikeAt R cfg st) {c c' : Expr} (hc : Exchanged R c c') : evalCondT cfg st c' = evalCondT cfg st c := by
  unfold evalCondT
  rw [alike_expr h hc]

theorem alike_target {st : State} (h : AlikeAt R cfg st) : ∀ {l l' : Expr} (_ : ExchangedTarget R l l') (f : Value → Btrd.R Value),
    modifyLhsT cfg st l' f = modifyLhsT cfg st l f
  | _, _, .same _, _ => rfl
  | _, _, .field fld hl, f => by
    cases fld
    case ident name =>
      rw [modifyLhsT, modifyLhsT]
      exact alike_target h hl _
    all_goals
      rw [modifyLhsT, modifyLhsT] <;> simp
  | _, _, .index hl hi, f => by
    rw [modifyLhsT, modifyLhsT, alike_expr h hi]
    refine congrArg (evalExprT cfg st _ >>= ·) (funext fun v => congrArg (E.of v.asInteger >>= ·) (funext fun i => alike_target h hl _))

theorem alike_assign {st : State} (h : AlikeAt R cfg st) {l l' r r' : Expr} (hl : ExchangedTarget R l l') (hr : Exchanged R r r') :
    evalAssignT cfg st l' r' = evalAssignT cfg st l r := by
  unfold evalAssignT
  rw [alike_expr h hr]
  cases hl with
  | same l => rfl
  | field f hl =>
    refine congrArg (E.into _ st) (funext fun v => ?_)
    dsimp only
    rw [alike_target h (.field f hl)]
  | index hl hi =>
    refine congrArg (E.into _ st) (funext fun v => ?_)
    dsimp only
    rw [alike_target h (.index hl hi)]

theorem same_along {x y : T (State × IRes)} (h : y = x) : SubS True x y := fun _ _ _ _ => by rw [h]

theorem into_along {α : Type} (x : E α) (st : State) {k k' : α → T (State × IRes)} (h : ∀ a, SubS True (k a) (k' a)) :
    SubS True (x.into st k) (x.into st k') :=
  (Sub.refl (S := True) x).into st h

variable (hK : ∀ st st' : State, (∀ y, N y → st'.vars.get y = st.vars.get y) → AlikeAt R cfg st → AlikeAt R cfg st')

theorem alike_scope (st : State) {body body' : State → T (State × IRes)}
    (hb : SubS True (body { st with vars := st.vars.push }) (body' { st with vars := st.vars.push })) :
    SubS True (inScopeT st body) (inScopeT st body') :=
  Along.bind hb (fun _ => Along.refl _) fun _ _ _ _ _ => .inl trivial

include hK in
theorem alike_while {c c' : Expr} {body body' : State → T (State × IRes)} (hc : Exchanged R c c')
    (hk : ∀ st : State, KeepT N st.vars (body st)) (hb : ∀ st, AlikeAt R cfg st → SubS True (body st) (body' st)) :
    ∀ (n : Nat) (st : State), AlikeAt R cfg st →
      SubS True (whileLoopT (fun st => evalCondT cfg st c) body n st) (whileLoopT (fun st => evalCondT cfg st c') body' n st)
  | 0, _, _ => Along.refl _
  | n + 1, st, h => by
    rw [whileLoopT, whileLoopT, alike_cond h hc]
    refine into_along _ st fun b => ?_
    cases b
    · exact Along.refl _
    · refine along_keep (hk st) (hb st h) fun r hr => ?_
      obtain ⟨st', r⟩ := r
      have h' : AlikeAt R cfg st' := hK st st' (fun y hy => hr.get hy) h
      cases r with
      | ok => exact alike_while hc hk hb n st' h'
      | cont => exact alike_while hc hk hb n st' h'
      | _ => exact Along.refl _

include hK in
theorem alike_for (name : Str) (hn : ¬ N name) {body body' : State → T (State × IRes)}
    (hk : ∀ st : State, KeepT N st.vars (body st)) (hb : ∀ st, AlikeAt R cfg st → SubS True (body st) (body' st)) :
    ∀ (items : List Value) (st : State), AlikeAt R cfg st → SubS True (forLoopT name body items st) (forLoopT name body' items st)
  | [], _, _ => Along.refl _
  | v :: items, st, h => by
    rw [forLoopT, forLoopT]
    cases hi : st.vars.insert name v with
    | error e => exact Along.refl _
    | ok w =>
      have hw : AlikeAt R cfg { st with vars := w } := hK st _ (fun y hy => (keep_insert hn hi).get hy) h
      refine along_keep (hk { st with vars := w }) (hb _ hw) fun r hr => ?_
      obtain ⟨st', r⟩ := r
      have h' : AlikeAt R cfg st' := hK { st with vars := w } st' (fun y hy => hr.get hy) hw
      cases r with
      | ok => exact alike_for name hn hk hb items st' h'
      | cont => exact alike_for name hn hk hb items st' h'
      | _ => exact Along.refl _

include hK in
theorem alike_evalFor (x : Expr) (hx : ∀ y, N y → x ≠ .ident y) {r r' : Expr} (hr : Exchanged R r r') {body body' : State → T (State × IRes)}
    (hk : ∀ st : State, KeepT N st.vars (body st)) (hb : ∀ st, AlikeAt R cfg st → SubS True (body st) (body' st)) (st : State)
    (h : AlikeAt R cfg st) : SubS True (evalForT cfg x r body st) (evalForT cfg x r' body' st) := by
  unfold evalForT
  cases x with
  | ident name =>
    dsimp only
    rw [alike_expr h hr]
    exact into_along _ st fun v => into_along _ st fun items => alike_for hK name (fun hn => hx name hn rfl) hk hb items st h
  | _ => exact Along.refl _

include hK in
mutual
theorem alike_stmt : ∀ {s s' : Stmt}, ExchangedStmt R s s' → (∀ y, N y → Untouched y s) → ∀ st, AlikeAt R cfg st →
    SubS True (evalStmtT cfg s st) (evalStmtT cfg s' st)
  | _, _, .same s, _, st, _ => Along.refl _
  | _, _, .assign hl hr, _, st, h => by rw [evalStmtT, evalStmtT, alike_assign h hl hr]; exact Along.refl _
  | _, _, .ite hc ht hf, hs, st, h => by
    rw [evalStmtT, evalStmtT]
    have hp : AlikeAt R cfg { st with vars := st.vars.push } := hK st _ (fun _ _ => rfl) h
    refine alike_scope st ?_
    rw [alike_cond hp hc]
    refine into_along _ _ fun b => ?_
    cases b
    · exact alike_prog hf (fun y hy => (hs y hy).2) _ hp
    · exact alike_prog ht (fun y hy => (hs y hy).1) _ hp
  | _, _, .while hc hb, hs, st, h => by
    rw [evalStmtT, evalStmtT]
    have hp : AlikeAt R cfg { st with vars := st.vars.push } := hK st _ (fun _ _ => rfl) h
    exact alike_scope st (alike_while hK hc (stmts_keep cfg _ hs) (alike_prog hb hs) _ _ hp)
  | _, _, .for x hr hb, hs, st, h => by
    rw [evalStmtT, evalStmtT]
    have hp : AlikeAt R cfg { st with vars := st.vars.push } := hK st _ (fun _ _ => rfl) h
    exact alike_scope st (alike_evalFor hK x (fun y hy => (hs y hy).1) hr (stmts_keep cfg _ fun y hy => (hs y hy).2)
      (alike_prog hb fun y hy => (hs y hy).2) _ hp)
  | _, _, .print he, _, st, h => by
    rw [evalStmtT, evalStmtT]
    unfold evalPrintT
    rw [alike_expr h he]
    exact Along.refl _
  | _, _, .expr he, _, st, h => by
    rw [evalStmtT, evalStmtT]
    unfold evalExprStmtT
    rw [alike_expr h he]
    exact Along.refl _
theorem alike_prog : ∀ {p p' : List Stmt}, ExchangedProg R p p' → LeftAlone N p → ∀ st, AlikeAt R cfg st →
    SubS True (evalStmtsT cfg p st) (evalStmtsT cfg p' st)
  | _, _, .nil, _, st, _ => Along.refl _
  | _, _, .cons (s := s) he hp, hs, st, h => by
    rw [evalStmtsT, evalStmtsT]
    refine along_keep (stmt_keep cfg s (fun y hy => (hs y hy).1) st) (alike_stmt he (fun y hy => (hs y hy).1) st h) fun r hr => ?_
    obtain ⟨st', r⟩ := r
    have h' : AlikeAt R cfg st' := hK st st' (fun y hy => hr.get hy) h
    cases r with
    | ok => exact alike_prog hp (fun y hy => (hs y hy).2) st' h'
    | _ => exact Along.refl _
end

end

/-! ### the checks -/

/-- these names are known -/
def Knows (N : Str → Prop) (vs : Vars Unit) : Prop := ∀ y, N y → vs.get y = some ()

section
variable {N : Str → Prop} {R : Expr → Expr → Prop}

theorem knows_declare {a : AState} (h : Knows N a.vars) (x : Str) : Knows N (a.declare x).1.vars := by
  unfold AState.declare
  cases hi : a.vars.insert x () with
  | error e => exact h
  | ok vs =>
    intro y hy
    by_cases hx : y = x
    · subst hx; exact (get_insert hi).1
    · exact ((get_insert hi).2 y hx).trans (h y hy)

mutual
theorem knows_stmt : ∀ (s : Stmt) (a : AState), Knows N a.vars → Knows N (analyzeStmt s a).1.vars
  | .assign l r, a, h => by
    cases l
    case ident x =>
      rw [analyzeStmt]
      have := knows_declare h x
      generalize a.declare x = q at *
      obtain ⟨b, q⟩ := q
      cases q <;> exact this
    all_goals
      rw [analyzeStmt.eq_def]
      dsimp only
      split <;> exact h
  | .ite c t f, a, h => by
    rw [analyzeStmt]
    have e := outer_scope 0 (inner_if (g := fun a => analyzeExpr a.vars c) (inner_then (inner_stmts t) (inner_stmts f))) a
    exact cast (congrArg (fun b : AState => Knows N b.vars) e).symm h
  | .while c b, a, h => by
    rw [analyzeStmt]
    have e := outer_scope 1 (inner_if (g := fun a => analyzeExpr a.vars c) (inner_stmts b)) a
    exact cast (congrArg (fun b : AState => Knows N b.vars) e).symm h
  | .for x r b, a, h => by
    rw [analyzeStmt]
    refine cast (congrArg (fun b : AState => Knows N b.vars) (outer_scope 1 ?_ a)).symm h
    cases x
    case ident x => exact inner_then (inner_declare x) (inner_if (g := fun a => analyzeExpr a.vars r) (inner_stmts b))
    all_goals exact Outer.inner fun _ => rfl
  | .brk, a, h => by rw [analyzeStmt]; exact h
  | .cont, a, h => by rw [analyzeStmt]; exact h
  | .help, a, h => by rw [analyzeStmt]; exact h
  | .quit, a, h => by rw [analyzeStmt]; exact h
  | .filesystem e, a, h => by rw [analyzeStmt.eq_def]; dsimp only; split <;> exact h
  | .print e, a, h => by rw [analyzeStmt]; exact h
  | .expr e, a, h => by rw [analyzeStmt]; exact h
theorem knows_stmts : ∀ (p : List Stmt) (a : AState), Knows N a.vars → Knows N (analyzeStmts p a).1.vars
  | [], a, h => by rw [analyzeStmts]; exact h
  | s :: p, a, h => by
    rw [analyzeStmts]
    have := knows_stmt s a h
    generalize analyzeStmt s a = q at *
    obtain ⟨b, q⟩ := q
    cases q
    · exact this
    · exact knows_stmts p b this
end

variable (hR : ∀ vs, Knows N vs → ∀ e e', R e e' → analyzeExpr vs e' = analyzeExpr vs e)

include hR in
mutual
theorem known_expr {vs : Vars Unit} (h : Knows N vs) : ∀ {e e' : Expr}, Exchanged R e e' → analyzeExpr vs e' = analyzeExpr vs e
  | _, _, .here hr => hR vs h _ _ hr
  | _, _, .same _ => rfl
  | _, _, .paren he => by rw [analyzeExpr, analyzeExpr, known_expr h he]
  | _, _, .field f he => by
    cases f
    case ident f => rw [analyzeExpr, analyzeExpr, known_expr h he]
    all_goals rw [analyzeExpr, analyzeExpr] <;> simp
  | _, _, .index he hi => by rw [analyzeExpr, analyzeExpr, known_expr h he, known_expr h hi]
  | _, _, .call hf ha => by rw [analyzeExpr, analyzeExpr, known_expr h hf, known_args h ha]
  | _, _, .bin op hl hr => by rw [analyzeExpr, analyzeExpr, known_expr h hl, known_expr h hr]
  | _, _, .un op he => by rw [analyzeExpr, analyzeExpr, known_expr h he]
  | _, _, .cast ty he => by
    cases ty
    case ident f => rw [analyzeExpr, analyzeExpr, known_expr h he]
    all_goals rw [analyzeExpr, analyzeExpr] <;> simp
theorem known_args {vs : Vars Unit} (h : Knows N vs) : ∀ {es es' : List Expr}, ExchangedArgs R es es' →
    analyzeArgs vs es' = analyzeArgs vs es
  | _, _, .nil => rfl
  | _, _, .cons he hs => by rw [analyzeArgs, analyzeArgs, known_expr h he, known_args h hs]
end

theorem then_known {r : AState × Btrd.R Unit} (hr : Knows N r.1.vars) {f f' : AState → AState × Btrd.R Unit}
    (h : ∀ a, Knows N a.vars → f' a = f a) : andThenA r f' = andThenA r f := by
  obtain ⟨a, r⟩ := r
  cases r with
  | ok _ => exact h a hr
  | error _ => rfl

theorem scope_known (d : Nat) (a : AState) (hr : Knows N a.vars) {f f' : AState → AState × Btrd.R Unit}
    (h : ∀ a, Knows N a.vars → f' a = f a) : scopedA d a f' = scopedA d a f := by
  unfold scopedA
  rw [h ⟨a.vars.push, a.loopDepth + d⟩ hr]

include hR in
mutual
theorem known_stmt : ∀ {s s' : Stmt}, ExchangedStmt R s s' → ∀ a, Knows N a.vars → analyzeStmt s' a = analyzeStmt s a
  | _, _, .same s, a, _ => rfl
  | _, _, .assign (l := l) (l' := l') hl hr, a, h => by
    have h1 := known_expr hR h (target_exchanged hl)
    have h2 := known_expr hR h hr
    cases hl with
    | same l =>
      cases l
      case ident x =>
        rw [analyzeStmt, analyzeStmt]
        refine then_known (knows_declare h x) fun a ha => ?_
        rw [known_expr hR ha hr]
      all_goals
        rw [analyzeStmt, analyzeStmt, h2] <;> simp
    | field f hl =>
      rw [analyzeStmt, analyzeStmt, h1, h2] <;> simp
    | index hl hi =>
      rw [analyzeStmt, analyzeStmt, h1, h2] <;> simp
  | _, _, .ite hc ht hf, a, h => by
    rw [analyzeStmt, analyzeStmt]
    refine scope_known 0 a h fun a h => ?_
    rw [known_expr hR h hc, known_prog ht a h]
    rw [then_known (knows_stmts _ a h) (known_prog hf)]
  | _, _, .while hc hb, a, h => by
    rw [analyzeStmt, analyzeStmt]
    refine scope_known 1 a h fun a h => ?_
    rw [known_expr hR h hc, known_prog hb a h]
  | _, _, .for x hr hb, a, h => by
    rw [analyzeStmt, analyzeStmt]
    refine scope_known 1 a h fun a h => ?_
    cases x
    case ident x =>
      refine then_known (knows_declare h x) fun a h => ?_
      rw [known_expr hR h hr, known_prog hb a h]
    all_goals rfl
  | _, _, .print he, a, h => by rw [analyzeStmt, analyzeStmt, known_expr hR h he]
  | _, _, .expr he, a, h => by rw [analyzeStmt, analyzeStmt, known_expr hR h he]
theorem known_prog : ∀ {p p' : List Stmt}, ExchangedProg R p p' → ∀ a, Knows N a.vars → analyzeStmts p' a = analyzeStmts p a
  | _, _, .nil, a, _ => rfl
  | _, _, .cons (s := s) hs hp, a, h => by
    rw [analyzeStmts, analyzeStmts, known_stmt hs a h]
    exact then_known (knows_stmt s a h) (known_prog hp)
end

end

/-! ### simple expressions -/

/-- it neither asks nor warns -/
def Plainly {α : Type} (x : E α) : Prop := ∃ r, x = E.of r

theorem plainly_of {α : Type} (r : R α) : Plainly (E.of r) := ⟨r, rfl⟩

theorem plainly_bind {α β : Type} {x : E α} {f : α → E β} (h : Plainly x) (hf : ∀ a, Plainly (f a)) : Plainly (x >>= f) := by
  obtain ⟨r, rfl⟩ := h
  cases r with
  | ok a => exact hf a
  | error e => exact ⟨.error e, rfl⟩

theorem plainly_intOp (f : Int → Int → R Value) {l r : E Value} (hl : Plainly l) (hr : Plainly r) : Plainly (intOpT f l r) :=
  plainly_bind hl fun _ => plainly_bind (plainly_of _) fun _ => plainly_bind hr fun _ => plainly_bind (plainly_of _) fun _ => plainly_of _

theorem plainly_binop (op : BinOp) {l r : E Value} (hl : Plainly l) (hr : Plainly r) : Plainly (binopT op l r) := by
  cases op <;> (try exact plainly_intOp _ hl hr)
  · exact plainly_bind hl fun _ => plainly_bind hr fun _ => plainly_of _
  · exact plainly_bind hl fun _ => plainly_bind hr fun _ => plainly_of _
  · exact plainly_bind hl fun _ => plainly_bind hr fun _ => plainly_of _
  · refine plainly_bind hl fun _ => plainly_bind (plainly_of _) fun c => ?_
    split
    · exact plainly_of _
    · exact plainly_bind hr fun _ => plainly_bind (plainly_of _) fun _ => plainly_of _
  · refine plainly_bind hl fun _ => plainly_bind (plainly_of _) fun c => ?_
    split
    · exact plainly_of _
    · exact plainly_bind hr fun _ => plainly_bind (plainly_of _) fun _ => plainly_of _

theorem simple_plainly (cfg : Cfg) (st : State) : ∀ {e : Expr}, Simple e → Plainly (evalExprT cfg st e)
  | .ident x, _ => by rw [evalExprT]; exact plainly_of _
  | .int i, _ => by rw [evalExprT]; exact plainly_of _
  | .bool b, _ => by rw [evalExprT]; exact plainly_of _
  | .str s, _ => by rw [evalExprT]; exact plainly_of _
  | .paren e, h => by rw [evalExprT]; exact simple_plainly cfg st (e := e) h
  | .field e f, h => by rw [evalExprT]; exact plainly_bind (simple_plainly cfg st (e := e) h) fun _ => plainly_of _
  | .index e i, h => by
    rw [evalExprT]
    exact plainly_bind (simple_plainly cfg st h.1) fun _ => plainly_bind (plainly_of _) fun _ =>
      plainly_bind (simple_plainly cfg st h.2) fun _ => plainly_bind (plainly_of _) fun _ => plainly_bind (plainly_of _) fun _ => plainly_of _
  | .call _ _, h => h.elim
  | .bin op l r, h => by rw [evalExprT]; exact plainly_binop op (simple_plainly cfg st h.1) (simple_plainly cfg st h.2)
  | .un op e, h => by rw [evalExprT]; exact plainly_bind (simple_plainly cfg st (e := e) h) fun _ => plainly_of _
  | .cast _ _, h => h.elim

/-- the value of a simple expression depends on the variables in it -/
theorem simple_depends (cfg : Cfg) {st st' : State} : ∀ {e : Expr}, Simple e → (∀ y ∈ e.uses, st'.vars.get y = st.vars.get y) →
    evalExprT cfg st' e = evalExprT cfg st e
  | .ident x, _, h => by rw [evalExprT, evalExprT, h x (by simp [Expr.uses])]
  | .int i, _, _ => by rw [evalExprT, evalExprT]
  | .bool b, _, _ => by rw [evalExprT, evalExprT]
  | .str s, _, _ => by rw [evalExprT, evalExprT]
  | .paren e, hs, h => by rw [evalExprT, evalExprT]; exact simple_depends cfg (e := e) hs (by simpa [Expr.uses] using h)
  | .field e f, hs, h => by rw [evalExprT, evalExprT, simple_depends cfg (e := e) hs (by simpa [Expr.uses] using h)]
  | .index e i, hs, h => by
    rw [evalExprT, evalExprT, simple_depends cfg hs.1 fun y hy => h y (by simp [Expr.uses, hy]),
      simple_depends cfg hs.2 fun y hy => h y (by simp [Expr.uses, hy])]
  | .call _ _, hs, _ => hs.elim
  | .bin op l r, hs, h => by
    rw [evalExprT, evalExprT, simple_depends cfg hs.1 fun y hy => h y (by simp [Expr.uses, hy]),
      simple_depends cfg hs.2 fun y hy => h y (by simp [Expr.uses, hy])]
  | .un op e, hs, h => by rw [evalExprT, evalExprT, simple_depends cfg (e := e) hs (by simpa [Expr.uses] using h)]
  | .cast _ _, hs, _ => hs.elim

mutual
/-- the value of an expression depends on the variables in it and the filesystem -/
theorem uses_depends (cfg : Cfg) {st st' : State} (hf : st'.fs = st.fs) : ∀ (e : Expr), (∀ y ∈ e.uses, st'.vars.get y = st.vars.get y) →
    evalExprT cfg st' e = evalExprT cfg st e
  | .ident x, h => by rw [evalExprT, evalExprT, h x (by simp [Expr.uses])]
  | .int i, _ => by rw [evalExprT, evalExprT]
  | .bool b, _ => by rw [evalExprT, evalExprT]
  | .str s, _ => by rw [evalExprT, evalExprT]
  | .paren e, h => by rw [evalExprT, evalExprT]; exact uses_depends cfg hf e (by simpa [Expr.uses] using h)
  | .field e f, h => by rw [evalExprT, evalExprT, uses_depends cfg hf e (by simpa [Expr.uses] using h)]
  | .index e i, h => by
    rw [evalExprT, evalExprT, uses_depends cfg hf e fun y hy => h y (by simp [Expr.uses, hy]),
      uses_depends cfg hf i fun y hy => h y (by simp [Expr.uses, hy])]
  | .call f args, h => by
    rw [evalExprT, evalExprT, uses_depends cfg hf f fun y hy => h y (by simp [Expr.uses, hy]),
      usesL_depends cfg hf args fun y hy => h y (by simp [Expr.uses, hy]), hf]
  | .bin op l r, h => by
    rw [evalExprT, evalExprT, uses_depends cfg hf l fun y hy => h y (by simp [Expr.uses, hy]),
      uses_depends cfg hf r fun y hy => h y (by simp [Expr.uses, hy])]
  | .un op e, h => by rw [evalExprT, evalExprT, uses_depends cfg hf e (by simpa [Expr.uses] using h)]
  | .cast ty e, h => by rw [evalExprT, evalExprT, uses_depends cfg hf e (by simpa [Expr.uses] using h), hf]
theorem usesL_depends (cfg : Cfg) {st st' : State} (hf : st'.fs = st.fs) : ∀ (es : List Expr), (∀ y ∈ usesL es, st'.vars.get y = st.vars.get y) →
    evalArgsT cfg st' es = evalArgsT cfg st es
  | [], _ => by rw [evalArgsT, evalArgsT]
  | e :: es, h => by
    rw [evalArgsT, evalArgsT, uses_depends cfg hf e fun y hy => h y (by simp [usesL, hy]),
      usesL_depends cfg hf es fun y hy => h y (by simp [usesL, hy])]
end

/-! ### assigning twice -/

theorem set_twice {T : Type} (s : Scope T) (x : Str) (v w : T) : (s.set x v).set x w = s.set x w := by
  funext y
  unfold Scope.set
  by_cases hy : y = x <;> simp [hy]

theorem overwrite_twice {T : Type} (x : Str) (v w : T) : ∀ {vs vs' : Vars T}, Vars.overwrite vs x v = some vs' →
    Vars.overwrite vs' x w = Vars.overwrite vs x w
  | [], _, h => by cases h
  | s :: vs, vs', h => by
    rw [Vars.overwrite] at h
    cases hs : s x with
    | some u =>
      rw [hs] at h
      cases h
      rw [Vars.overwrite, set_same, Vars.overwrite, hs]
      dsimp only
      rw [set_twice]
    | none =>
      rw [hs] at h
      dsimp only at h
      cases ho : Vars.overwrite vs x v with
      | none => rw [ho] at h; cases h
      | some r =>
        rw [ho] at h
        cases h
        rw [Vars.overwrite, hs, Vars.overwrite, hs]
        dsimp only
        rw [overwrite_twice x v w ho]

theorem insert_twice {T : Type} (x : Str) (v w : T) {vs vs' : Vars T} (h : Vars.insert vs x v = .ok vs') :
    Vars.insert vs' x w = Vars.insert vs x w := by
  unfold Vars.insert at h
  cases ho : Vars.overwrite vs x v with
  | some r =>
    rw [ho] at h
    cases h
    have := overwrite_twice x v w ho
    unfold Vars.insert
    rw [this]
    cases hw : Vars.overwrite vs x w with
    | some q => rfl
    | none =>
      rw [overwrite_none] at hw
      rw [overwrite_none.2 hw] at ho
      cases ho
  | none =>
    rw [ho] at h
    have hn : Vars.overwrite vs x w = none := overwrite_none.2 (overwrite_none.1 ho)
    cases vs with
    | nil => cases h
    | cons s r =>
      cases h
      unfold Vars.insert
      rw [hn, Vars.overwrite, set_same]
      dsimp only
      rw [set_twice]

end Btrd
