/-
The evaluator that asks (`Model/Live`) in a world that does not change: the evaluator of `Model/Eval`.
-/
import Verif.Model.Live
import Verif.Lemmas.EvalInd

namespace Btrd

/-! ### one computation after the other -/

@[simp] theorem after_clock {α : Type} (e : Event) (l : Lived α) : (l.after e).clock = l.clock := rfl
@[simp] theorem after_log {α : Type} (e : Event) (l : Lived α) : (l.after e).log = e :: l.log := rfl
@[simp] theorem after_result {α : Type} (e : Event) (l : Lived α) : (l.after e).result = l.result := rfl

theorem live_bind {α β : Type} (fuel : Nat) (ω : Live) (f : α → T β) : ∀ (x : T α) (t : Nat),
    (x.bind f).live fuel ω t =
      ⟨((f (x.live fuel ω t).result).live fuel ω (x.live fuel ω t).clock).clock,
       (x.live fuel ω t).log ++ ((f (x.live fuel ω t).result).live fuel ω (x.live fuel ω t).clock).log,
       ((f (x.live fuel ω t).result).live fuel ω (x.live fuel ω t).clock).result⟩
  | .ret a, t => by simp [T.bind, T.live]
  | .warn w k, t => by simp only [T.bind, T.live, live_bind fuel ω f k t]; rfl
  | .search fs a k, t => by simp only [T.bind, T.live]; rw [live_bind fuel ω f _ _]; rfl
  | .bytes fs i j k, t => by simp only [T.bind, T.live]; rw [live_bind fuel ω f _ _]; rfl
  | .opens p k, t => by simp only [T.bind, T.live]; rw [live_bind fuel ω f _ _]; rfl

/-- the result of a computation in a world that does not change -/
def T.still {α : Type} (fuel : Nat) (h : Host) : T α → α
  | .ret a => a
  | .warn _ k => k.still fuel h
  | .search fs a k => (k (fs.search fuel a)).still fuel h
  | .bytes fs i j k => (k (fs.getBytes i j)).still fuel h
  | .opens p k => (k (Fs.new h p)).still fuel h

theorem live_steady {α : Type} (fuel : Nat) (h : Host) : ∀ (x : T α) (t : Nat),
    (x.live fuel (Live.steady h) t).result = x.still fuel h
  | .ret a, t => rfl
  | .warn w k, t => by simp only [T.live, T.still, after_result]; exact live_steady fuel h _ _
  | .search fs a k, t => by simp only [T.live, T.still, after_result]; exact live_steady fuel h _ _
  | .bytes fs i j k, t => by simp only [T.live, T.still, after_result]; exact live_steady fuel h _ _
  | .opens p k, t => by simp only [T.live, T.still, after_result]; exact live_steady fuel h _ _

/-- the result in a world that does not change -/
def T.outcome {α : Type} (fuel : Nat) (h : Host) (x : T α) : α := x.still fuel h

section
variable {fuel : Nat} {h : Host}

@[simp] theorem outcome_ret {α : Type} (a : α) : T.outcome fuel h (.ret a) = a := rfl
@[simp] theorem outcome_warn {α : Type} (w : Warned) (k : T α) : T.outcome fuel h (.warn w k) = k.outcome fuel h := rfl
@[simp] theorem outcome_search {α : Type} (fs : Fs) (a : SearchArgs) (k : R (List Item) → T α) :
    T.outcome fuel h (.search fs a k) = (k (fs.search fuel a)).outcome fuel h := rfl
@[simp] theorem outcome_bytes {α : Type} (fs : Fs) (i j : Nat) (k : R Bytes → T α) :
    T.outcome fuel h (.bytes fs i j k) = (k (fs.getBytes i j)).outcome fuel h := rfl
@[simp] theorem outcome_opens {α : Type} (p : Str) (k : R Fs → T α) :
    T.outcome fuel h (.opens p k) = (k (Fs.new h p)).outcome fuel h := rfl

theorem outcome_bind {α β : Type} (f : α → T β) : ∀ x : T α,
    (x.bind f).outcome fuel h = (f (x.outcome fuel h)).outcome fuel h
  | .ret a => rfl
  | .warn w k => by simp only [T.bind, outcome_warn]; exact outcome_bind f k
  | .search fs a k => by simp only [T.bind, outcome_search]; exact outcome_bind f _
  | .bytes fs i j k => by simp only [T.bind, outcome_bytes]; exact outcome_bind f _
  | .opens p k => by simp only [T.bind, outcome_opens]; exact outcome_bind f _

/-- the same for computations that may fail -/
def E.outcome {α : Type} (fuel : Nat) (h : Host) (x : E α) : R α := T.outcome fuel h x

@[simp] theorem eoutcome_of {α : Type} (r : R α) : (E.of r).outcome fuel h = r := rfl
@[simp] theorem eoutcome_search (fs : Fs) (a : SearchArgs) : (E.search fs a).outcome fuel h = fs.search fuel a := rfl
@[simp] theorem eoutcome_bytes (fs : Fs) (i j : Nat) : (E.bytes fs i j).outcome fuel h = fs.getBytes i j := rfl
@[simp] theorem eoutcome_opens (p : Str) : (E.opens p).outcome fuel h = Fs.new h p := rfl
@[simp] theorem eoutcome_warn (w : Warned) : (E.warn w).outcome fuel h = .ok () := rfl

@[simp] theorem eoutcome_bind {α β : Type} (x : E α) (f : α → E β) :
    (x >>= f).outcome fuel h = (x.outcome fuel h) >>= fun a => (f a).outcome fuel h := by
  refine (outcome_bind (α := R α) _ x).trans ?_
  show _ = Except.bind (T.outcome fuel h x) _
  cases T.outcome fuel h x <;> rfl

theorem into_outcome {α : Type} (x : E α) (st : State) (k : α → T (State × IRes)) :
    (x.into st k).outcome fuel h = match x.outcome fuel h with
      | .ok a => (k a).outcome fuel h
      | .error e => (st, .fail e) := by
  refine (outcome_bind (α := R α) _ x).trans ?_
  show _ = match T.outcome fuel h x with
      | .ok a => (k a).outcome fuel h
      | .error e => (st, .fail e)
  cases T.outcome fuel h x <;> rfl

/-! ### expressions -/

theorem intOpT_outcome (f : Int → Int → R Value) (l r : E Value) :
    (intOpT f l r).outcome fuel h = intOp f (l.outcome fuel h) (r.outcome fuel h) := by
  simp only [intOpT, intOp, eoutcome_bind, eoutcome_of]

theorem ite_outcome {α : Type} (b : Bool) (x y : E α) : (if b then x else y : E α).outcome fuel h =
    if b then x.outcome fuel h else y.outcome fuel h := by cases b <;> rfl

theorem binopT_outcome (op : BinOp) (l r : E Value) :
    (binopT op l r).outcome fuel h = binop op (l.outcome fuel h) (r.outcome fuel h) := by
  cases op <;> simp only [binopT, binop, intOpT_outcome, eoutcome_bind, eoutcome_of, ite_outcome]

theorem unopT_outcome (b : Build) (op : UnOp) (x : E Value) :
    (unopT b op x).outcome fuel h = unop b op (x.outcome fuel h) := by
  simp only [unopT, eoutcome_bind, eoutcome_of]
  cases x.outcome fuel h <;> cases op <;> rfl

theorem castOpT_outcome (b : Build) (fs : Option Fs) (ty : Expr) (x : E Value) :
    (castOpT b fs ty x).outcome fuel h = castOp b fs ty (x.outcome fuel h) := by
  simp only [castOpT, castOp, eoutcome_bind, eoutcome_of]
  congr; funext x
  congr; funext p
  by_cases hp : p < 0
  · simp only [hp, if_true, eoutcome_of]
  · simp only [hp, if_false]
    cases ty with
    | ident name =>
      dsimp only
      cases findStruct name with
      | none => rfl
      | some s =>
        dsimp only
        cases fs with
        | none => rfl
        | some fs => simp only [eoutcome_bind, eoutcome_of, eoutcome_bytes]
    | _ => rfl

theorem intArgsT_outcome : ∀ args : List (E Value),
    (intArgsT args).outcome fuel h = intArgs (args.map (E.outcome fuel h))
  | [] => rfl
  | r :: rs => by simp only [intArgsT, intArgs, List.map_cons, eoutcome_bind, eoutcome_of, intArgsT_outcome rs]

theorem intArgs_ok : ∀ (args : List (R Value)) (vs : List Value), intArgs args = .ok vs → intArgs (vs.map .ok) = .ok vs ∧ vs.length = args.length
  | [], vs, h => by simp only [intArgs, Except.ok.injEq] at h; subst h; exact ⟨rfl, rfl⟩
  | r :: rs, vs, h => by
    cases r with
    | error e => simp [intArgs, bind, Except.bind] at h
    | ok v =>
      simp only [intArgs, bind, Except.bind] at h
      cases hv : v.asInteger with
      | error e => rw [hv] at h; simp at h
      | ok i =>
        rw [hv] at h
        dsimp only at h
        cases hr : intArgs rs with
        | error e => rw [hr] at h; simp at h
        | ok ws =>
          rw [hr] at h
          simp only [Except.ok.injEq] at h
          subst h
          obtain ⟨h1, h2⟩ := intArgs_ok rs ws hr
          refine ⟨?_, by simp [h2]⟩
          simp only [List.map_cons, intArgs, bind, Except.bind, hv, h1]

theorem keyFnT_outcome (b : Build) (args : List (E Value)) :
    (keyFnT b args).outcome fuel h = keyFn b (args.map (E.outcome fuel h)) := by
  simp only [keyFnT, eoutcome_bind, eoutcome_of, intArgsT_outcome]
  unfold keyFn
  rw [List.length_map]
  by_cases hl : args.length = 4
  · have hb : (args.length == 4) = true := by simp [hl]
    simp only [hb, ensure, if_true, bind, Except.bind]
    cases hi : intArgs (args.map (E.outcome fuel h)) with
    | error e => rfl
    | ok vs =>
      obtain ⟨h1, h2⟩ := intArgs_ok _ _ hi
      simp only [List.length_map] at h2
      have hb' : (vs.length == 4) = true := by simp [h2, hl]
      simp only [hb', h1, if_true, List.length_map]
  · have hb : (args.length == 4) = false := by simp [hl]
    simp only [hb, ensure, Bool.false_eq_true, if_false, bind, Except.bind]

theorem decodeItemsT_outcome (b : Build) : ∀ its : List Item,
    (decodeItemsT b its).outcome fuel h = decodeItems b its
  | [] => rfl
  | (hd, bytes) :: its => by
    rw [decodeItemsT, decodeItems]
    cases structForKey hd.objectid hd.ty hd.offset with
    | some s => simp only [eoutcome_bind, eoutcome_of, decodeItemsT_outcome b its]
    | none => simp only [eoutcome_bind, eoutcome_warn, decodeItemsT_outcome b its]; rfl

theorem searchFnT_outcome (cfg : Cfg) (fs : Option Fs) (args : List (E Value)) :
    (searchFnT cfg.build fs args).outcome cfg.fuel h = searchFn cfg fs (args.map (E.outcome cfg.fuel h)) := by
  unfold searchFnT searchFn
  simp only [eoutcome_bind, eoutcome_of, List.length_map]
  congr; funext _
  match args with
  | [] => rfl
  | [_] => rfl
  | [a0, a1] =>
    simp only [List.map_cons, List.map_nil, eoutcome_bind, eoutcome_of]
    congr; funext v0
    congr; funext tree
    congr; funext v1
    congr; funext key
    congr; funext _
    cases fs with
    | none => rfl
    | some fs => simp only [eoutcome_bind, eoutcome_of, eoutcome_search, decodeItemsT_outcome]
  | _ :: _ :: _ :: _ => rfl

theorem arg1T_outcome (msg : Str) (args : List (E Value)) :
    (arg1T msg args).outcome fuel h = arg1 msg (args.map (E.outcome fuel h)) := by
  unfold arg1T arg1
  simp only [eoutcome_bind, eoutcome_of, List.length_map]
  congr; funext _
  match args with
  | [] => rfl
  | [_] => rfl
  | _ :: _ :: _ => rfl

/-- a function of the one argument depends on nothing else -/
theorem arg1_then (msg : Str) (args : List (R Value)) (g : Value → R Value) :
    (arg1 msg args >>= fun v => arg1 msg [.ok v] >>= g) = arg1 msg args >>= g := by
  cases arg1 msg args <;> rfl

theorem callFnT_outcome (cfg : Cfg) (fs : Option Fs) (f : E Value) (args : List (E Value)) :
    (callFnT cfg fs f args).outcome cfg.fuel h = callFn cfg fs (f.outcome cfg.fuel h) (args.map (E.outcome cfg.fuel h)) := by
  unfold callFnT callFn
  simp only [eoutcome_bind, eoutcome_of]
  congr; funext fv
  congr; funext fn
  cases fn with
  | key => exact keyFnT_outcome _ _
  | search => exact searchFnT_outcome _ _ _
  | typeOf => simp only [eoutcome_bind, eoutcome_of, arg1T_outcome]; exact arg1_then _ _ _
  | keyOf => simp only [eoutcome_bind, eoutcome_of, arg1T_outcome]; exact arg1_then _ _ _
  | len => simp only [eoutcome_bind, eoutcome_of, arg1T_outcome]; exact arg1_then _ _ _
  | hist =>
    simp only [eoutcome_bind, eoutcome_of]
    unfold histFn
    cases args <;> rfl
  | str => simp only [eoutcome_bind, eoutcome_of, arg1T_outcome]; exact arg1_then _ _ _

theorem fieldOpT_outcome (x : E Value) (f : Expr) : (fieldOpT x f).outcome fuel h = fieldOp (x.outcome fuel h) f := by
  simp only [fieldOpT, eoutcome_bind, eoutcome_of]
  cases x.outcome fuel h <;> rfl

theorem indexOpT_outcome (x i : E Value) : (indexOpT x i).outcome fuel h = indexOp (x.outcome fuel h) (i.outcome fuel h) := by
  simp only [indexOpT, indexOp, eoutcome_bind, eoutcome_of]

mutual
theorem evalExprT_outcome (cfg : Cfg) (st : State) (h : Host) : ∀ e : Expr,
    (evalExprT cfg st e).outcome cfg.fuel h = evalExpr cfg st e
  | .ident _ => by rw [evalExprT, evalExpr]; rfl
  | .int _ => by rw [evalExprT, evalExpr]; rfl
  | .bool _ => by rw [evalExprT, evalExpr]; rfl
  | .str _ => by rw [evalExprT, evalExpr]; rfl
  | .paren e => by rw [evalExprT, evalExpr, evalExprT_outcome cfg st h e]
  | .field e f => by rw [evalExprT, evalExpr, fieldOpT_outcome, evalExprT_outcome cfg st h e]
  | .index e i => by rw [evalExprT, evalExpr, indexOpT_outcome, evalExprT_outcome cfg st h e, evalExprT_outcome cfg st h i]
  | .call f args => by
    rw [evalExprT, evalExpr, callFnT_outcome, evalExprT_outcome cfg st h f, evalArgsT_outcome cfg st h args]
  | .bin op l r => by rw [evalExprT, evalExpr, binopT_outcome, evalExprT_outcome cfg st h l, evalExprT_outcome cfg st h r]
  | .un op e => by rw [evalExprT, evalExpr, unopT_outcome, evalExprT_outcome cfg st h e]
  | .cast ty e => by rw [evalExprT, evalExpr, castOpT_outcome, evalExprT_outcome cfg st h e]
theorem evalArgsT_outcome (cfg : Cfg) (st : State) (h : Host) : ∀ es : List Expr,
    (evalArgsT cfg st es).map (E.outcome cfg.fuel h) = evalArgs cfg st es
  | [] => by rw [evalArgsT, evalArgs]; rfl
  | e :: es => by rw [evalArgsT, evalArgs, List.map_cons, evalExprT_outcome cfg st h e, evalArgsT_outcome cfg st h es]
end

theorem evalCondT_outcome (cfg : Cfg) (st : State) (h : Host) (e : Expr) :
    (evalCondT cfg st e).outcome cfg.fuel h = evalCond cfg st e := by
  simp only [evalCondT, evalCond, eoutcome_bind, eoutcome_of, evalExprT_outcome]

theorem modifyLhsT_outcome (cfg : Cfg) (st : State) (h : Host) : ∀ (e : Expr) (f : Value → R Value),
    (modifyLhsT cfg st e f).outcome cfg.fuel h = modifyLhs cfg st e f
  | .field e fld, f => by
    rw [modifyLhsT.eq_def, modifyLhs.eq_def]
    cases fld with
    | ident name => exact modifyLhsT_outcome cfg st h e _
    | _ => rfl
  | .index e i, f => by
    rw [modifyLhsT.eq_def, modifyLhs.eq_def]
    simp only [eoutcome_bind, eoutcome_of, evalExprT_outcome]
    congr; funext iv
    congr; funext idx
    exact modifyLhsT_outcome cfg st h e _
  | .ident _, _ => rfl
  | .int _, _ => rfl
  | .bool _, _ => rfl
  | .str _, _ => rfl
  | .paren _, _ => rfl
  | .call _ _, _ => rfl
  | .bin _ _ _, _ => rfl
  | .un _ _, _ => rfl
  | .cast _ _, _ => rfl

end

/-! ### statements -/

section
variable (cfg : Cfg)

/-- the result in the unchanging world of `cfg` -/
abbrev T.now {α : Type} (x : T α) : α := x.outcome cfg.fuel cfg.host

theorem evalAssignT_outcome (st : State) (l r : Expr) : (evalAssignT cfg st l r).now cfg = evalAssign cfg st l r := by
  unfold evalAssignT evalAssign
  rw [T.now, into_outcome, evalExprT_outcome]
  cases evalExpr cfg st r with
  | error e => rfl
  | ok v =>
    dsimp only
    cases l with
    | ident name =>
      dsimp only
      rw [into_outcome, eoutcome_of]
      cases st.vars.insert name v <;> rfl
    | _ =>
      dsimp only
      rw [into_outcome, modifyLhsT_outcome]
      generalize modifyLhs _ _ _ _ = r
      cases r <;> rfl

theorem evalFilesystemT_outcome (st : State) (e : Expr) :
    (evalFilesystemT cfg st e).now cfg = evalFilesystem cfg st e := by
  unfold evalFilesystemT evalFilesystem
  rw [T.now, into_outcome, evalExprT_outcome]
  cases evalExpr cfg st e with
  | error f => rfl
  | ok v =>
    dsimp only
    rw [into_outcome, eoutcome_of]
    cases v.asString true with
    | error f => rfl
    | ok path =>
      dsimp only
      rw [into_outcome, eoutcome_opens]
      cases Fs.new cfg.host path <;> rfl

theorem evalPrintT_outcome (st : State) (e : Expr) : (evalPrintT cfg st e).now cfg = evalPrint cfg st e := by
  unfold evalPrintT evalPrint
  rw [T.now, into_outcome, evalExprT_outcome]
  cases evalExpr cfg st e with
  | error f => rfl
  | ok v =>
    dsimp only
    rw [into_outcome, eoutcome_of]
    cases printText cfg v <;> rfl

theorem evalExprStmtT_outcome (st : State) (e : Expr) : (evalExprStmtT cfg st e).now cfg = evalExprStmt cfg st e := by
  unfold evalExprStmtT evalExprStmt
  rw [T.now, into_outcome, evalExprT_outcome]
  cases evalExpr cfg st e with
  | error f => rfl
  | ok v =>
    dsimp only
    cases cfg.interactive with
    | false => rfl
    | true =>
      simp only [if_true]
      rw [into_outcome, eoutcome_of]
      cases v.display <;> rfl

theorem inScopeT_outcome (st : State) (bodyT : State → T (State × IRes)) (body : State → State × IRes)
    (hb : ∀ st, (bodyT st).now cfg = body st) : (inScopeT st bodyT).now cfg = inScope st body := by
  unfold inScopeT inScope
  rw [T.now, outcome_bind]
  have := hb { st with vars := st.vars.push }
  rw [T.now] at this
  rw [this]
  rfl

theorem whileLoopT_outcome (condT : State → E Bool) (cond : State → R Bool) (bodyT : State → T (State × IRes))
    (body : State → State × IRes) (hc : ∀ st, (condT st).outcome cfg.fuel cfg.host = cond st)
    (hb : ∀ st, (bodyT st).now cfg = body st) : ∀ (n : Nat) (st : State),
    (whileLoopT condT bodyT n st).now cfg = whileLoop cond body n st
  | 0, st => rfl
  | n + 1, st => by
    have ih := whileLoopT_outcome condT cond bodyT body hc hb n
    unfold whileLoopT whileLoop
    rw [T.now, into_outcome, hc st]
    cases cond st with
    | error f => rfl
    | ok b =>
      cases b with
      | false => rfl
      | true =>
        simp only [if_true]
        rw [outcome_bind]
        have := hb st
        rw [T.now] at this
        rw [this]
        generalize body st = r
        obtain ⟨st', r⟩ := r
        cases r with
        | ok => exact ih st'
        | cont => exact ih st'
        | _ => rfl

theorem forLoopT_outcome (name : Str) (bodyT : State → T (State × IRes))
    (body : State → State × IRes) (hb : ∀ st, (bodyT st).now cfg = body st) : ∀ (vs : List Value) (st : State),
    (forLoopT name bodyT vs st).now cfg = forLoop name body vs st
  | [], st => rfl
  | v :: vs, st => by
    have ih := forLoopT_outcome name bodyT body hb vs
    unfold forLoopT forLoop
    rw [T.now, into_outcome, eoutcome_of]
    cases st.vars.insert name v with
    | error f => rfl
    | ok vars =>
      dsimp only
      rw [outcome_bind]
      have := hb { st with vars := vars }
      rw [T.now] at this
      rw [this]
      generalize body { st with vars := vars } = r
      obtain ⟨st', r⟩ := r
      cases r with
      | ok => exact ih st'
      | cont => exact ih st'
      | _ => rfl

theorem evalForT_outcome (x range : Expr) (bodyT : State → T (State × IRes))
    (body : State → State × IRes) (hb : ∀ st, (bodyT st).now cfg = body st) (st : State) :
    (evalForT cfg x range bodyT st).now cfg = evalFor cfg x range body st := by
  unfold evalForT evalFor
  cases x with
  | ident name =>
    dsimp only
    rw [T.now, into_outcome, evalExprT_outcome]
    cases evalExpr cfg st range with
    | error f => rfl
    | ok v =>
      dsimp only
      rw [into_outcome, eoutcome_of]
      cases v.asVec with
      | error f => rfl
      | ok items => exact forLoopT_outcome cfg name bodyT body hb items st
  | _ => rfl

mutual
theorem evalStmtT_outcome : ∀ (s : Stmt) (st : State), (evalStmtT cfg s st).now cfg = evalStmt cfg s st
  | .assign l r, st => by rw [evalStmtT, evalStmt]; exact evalAssignT_outcome cfg st l r
  | .ite c t f, st => by
    rw [evalStmtT, evalStmt]
    apply inScopeT_outcome
    intro st
    rw [T.now, into_outcome, evalCondT_outcome]
    cases evalCond cfg st c with
    | error e => rfl
    | ok b =>
      cases b with
      | true => exact evalStmtsT_outcome t st
      | false => exact evalStmtsT_outcome f st
  | .while c body, st => by
    rw [evalStmtT, evalStmt]
    apply inScopeT_outcome
    intro st
    exact whileLoopT_outcome cfg _ _ _ _ (fun st => evalCondT_outcome cfg st cfg.host c) (fun st => evalStmtsT_outcome body st) _ st
  | .for x r body, st => by
    rw [evalStmtT, evalStmt]
    apply inScopeT_outcome
    intro st
    exact evalForT_outcome cfg x r _ _ (fun st => evalStmtsT_outcome body st) st
  | .brk, st => by rw [evalStmtT, evalStmt]; rfl
  | .cont, st => by rw [evalStmtT, evalStmt]; rfl
  | .help, st => by rw [evalStmtT, evalStmt]; rfl
  | .quit, st => by rw [evalStmtT, evalStmt]; rfl
  | .filesystem e, st => by rw [evalStmtT, evalStmt]; exact evalFilesystemT_outcome cfg st e
  | .print e, st => by rw [evalStmtT, evalStmt]; exact evalPrintT_outcome cfg st e
  | .expr e, st => by rw [evalStmtT, evalStmt]; exact evalExprStmtT_outcome cfg st e
theorem evalStmtsT_outcome : ∀ (ss : List Stmt) (st : State), (evalStmtsT cfg ss st).now cfg = evalStmts cfg ss st
  | [], st => by rw [evalStmtsT, evalStmts]; rfl
  | s :: ss, st => by
    rw [evalStmtsT, evalStmts, T.now, outcome_bind]
    have := evalStmtT_outcome s st
    rw [T.now] at this
    rw [this]
    generalize evalStmt cfg s st = r
    obtain ⟨st', r⟩ := r
    cases r with
    | ok => exact evalStmtsT_outcome ss st'
    | _ => rfl
end

theorem runtimeEvalT_outcome (rs : RState) (cmd : Str) : (runtimeEvalT cfg rs cmd).now cfg = runtimeEval cfg rs cmd := by
  unfold runtimeEvalT runtimeEval
  cases parse cmd with
  | none => rfl
  | some p =>
    dsimp only
    generalize analyzeStmts p rs.sem = r
    obtain ⟨sem, r⟩ := r
    cases r with
    | error e => rfl
    | ok _ =>
      dsimp only
      rw [T.now, outcome_bind]
      have := evalStmtsT_outcome cfg p rs.ev
      rw [T.now] at this
      rw [this]
      rfl

end

/-! ### what is asked does not depend on the answers of the moment -/

section
variable (cfg : Cfg) (h : Host)

mutual
theorem evalExprT_host (st : State) : ∀ e : Expr, evalExprT { cfg with host := h } st e = evalExprT cfg st e
  | .ident _ => by rw [evalExprT, evalExprT]
  | .int _ => by rw [evalExprT, evalExprT]
  | .bool _ => by rw [evalExprT, evalExprT]
  | .str _ => by rw [evalExprT, evalExprT]
  | .paren e => by rw [evalExprT, evalExprT, evalExprT_host st e]
  | .field e f => by rw [evalExprT, evalExprT, evalExprT_host st e]
  | .index e i => by rw [evalExprT, evalExprT, evalExprT_host st e, evalExprT_host st i]
  | .call f args => by
    rw [evalExprT, evalExprT, evalExprT_host st f, evalArgsT_host st args]
    rfl
  | .bin op l r => by rw [evalExprT, evalExprT, evalExprT_host st l, evalExprT_host st r]
  | .un op e => by rw [evalExprT, evalExprT, evalExprT_host st e]
  | .cast ty e => by rw [evalExprT, evalExprT, evalExprT_host st e]
theorem evalArgsT_host (st : State) : ∀ es : List Expr, evalArgsT { cfg with host := h } st es = evalArgsT cfg st es
  | [] => by rw [evalArgsT, evalArgsT]
  | e :: es => by rw [evalArgsT, evalArgsT, evalExprT_host st e, evalArgsT_host st es]
end

theorem evalCondT_host (st : State) (e : Expr) : evalCondT { cfg with host := h } st e = evalCondT cfg st e := by
  unfold evalCondT
  rw [evalExprT_host]

theorem modifyLhsT_host (st : State) : ∀ (e : Expr) (f : Value → R Value),
    modifyLhsT { cfg with host := h } st e f = modifyLhsT cfg st e f
  | .field e fld, f => by
    rw [modifyLhsT.eq_def, modifyLhsT.eq_def]
    cases fld with
    | ident name => exact modifyLhsT_host st e _
    | _ => rfl
  | .index e i, f => by
    rw [modifyLhsT.eq_def, modifyLhsT.eq_def]
    dsimp only
    rw [evalExprT_host]
    congr; funext iv
    congr; funext idx
    exact modifyLhsT_host st e _
  | .ident _, _ => rfl
  | .int _, _ => rfl
  | .bool _, _ => rfl
  | .str _, _ => rfl
  | .paren _, _ => rfl
  | .call _ _, _ => rfl
  | .bin _ _ _, _ => rfl
  | .un _ _, _ => rfl
  | .cast _ _, _ => rfl

mutual
theorem evalStmtT_host : ∀ s : Stmt, evalStmtT { cfg with host := h } s = evalStmtT cfg s
  | .assign l r => by
    funext st
    rw [evalStmtT, evalStmtT]
    unfold evalAssignT
    rw [evalExprT_host]
    congr; funext v
    cases l with
    | ident name => rfl
    | _ => dsimp only; rw [modifyLhsT_host]
  | .ite c t f => by
    funext st
    rw [evalStmtT, evalStmtT, evalStmtsT_host t, evalStmtsT_host f]
    congr; funext st
    rw [evalCondT_host]
  | .while c body => by
    funext st
    rw [evalStmtT, evalStmtT, evalStmtsT_host body]
    have : (fun st => evalCondT { cfg with host := h } st c) = fun st => evalCondT cfg st c :=
      funext fun st => evalCondT_host cfg h st c
    rw [this]
  | .for x r body => by
    funext st
    rw [evalStmtT, evalStmtT, evalStmtsT_host body]
    refine congrArg (inScopeT st) (funext fun st => ?_)
    unfold evalForT
    cases x with
    | ident name => dsimp only; rw [evalExprT_host]
    | _ => rfl
  | .brk => by funext st; rw [evalStmtT, evalStmtT]
  | .cont => by funext st; rw [evalStmtT, evalStmtT]
  | .help => by funext st; rw [evalStmtT, evalStmtT]
  | .quit => by funext st; rw [evalStmtT, evalStmtT]
  | .filesystem e => by
    funext st
    rw [evalStmtT, evalStmtT]
    unfold evalFilesystemT
    rw [evalExprT_host]
  | .print e => by
    funext st
    rw [evalStmtT, evalStmtT]
    unfold evalPrintT
    rw [evalExprT_host]
    rfl
  | .expr e => by
    funext st
    rw [evalStmtT, evalStmtT]
    unfold evalExprStmtT
    rw [evalExprT_host]
theorem evalStmtsT_host : ∀ ss : List Stmt, evalStmtsT { cfg with host := h } ss = evalStmtsT cfg ss
  | [] => by funext st; rw [evalStmtsT, evalStmtsT]
  | s :: ss => by funext st; rw [evalStmtsT, evalStmtsT, evalStmtT_host s, evalStmtsT_host ss]
end

theorem runtimeEvalT_host (rs : RState) (cmd : Str) :
    runtimeEvalT { cfg with host := h } rs cmd = runtimeEvalT cfg rs cmd := by
  unfold runtimeEvalT
  rw [show evalStmtsT { cfg with host := h } = evalStmtsT cfg from funext fun p => evalStmtsT_host cfg h p]

/-- an entry in a world that does not change while it is evaluated -/
theorem runtime_steady (rs : RState) (cmd : Str) (t : Nat) :
    ((runtimeEvalT cfg rs cmd).live cfg.fuel (.steady h) t).result = runtimeEval { cfg with host := h } rs cmd := by
  rw [live_steady, ← runtimeEvalT_outcome, ← runtimeEvalT_host cfg h]
  rfl

end

end Btrd
