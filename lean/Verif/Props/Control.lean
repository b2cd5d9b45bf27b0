/-
C34-C40: control flow and output (`src/lang/eval/eval.rs`).
-/
import Verif.Lemmas.Vars
import Verif.Lemmas.Runtime
import Verif.Spec.Control

namespace Btrd
open Spec

variable (cfg : Cfg)

/-! ### helper facts -/

theorem evalStmts_append (p q : List Stmt) (st : State) :
    evalStmts cfg (p ++ q) st =
      match evalStmts cfg p st with
      | (st', .ok) => evalStmts cfg q st'
      | (st', r) => (st', r) := by
  induction p generalizing st with
  | nil => simp [evalStmts]
  | cons s ss ih =>
    simp only [List.cons_append, evalStmts]
    generalize evalStmt cfg s st = r
    obtain ⟨st', r⟩ := r
    cases r with
    | ok => exact ih st'
    | brk => rfl
    | cont => rfl
    | quit => rfl
    | fail f => rfl

/-- a block body run in a new scope, when it leaves a scope to pop -/
theorem inScope_eq {st st₁ : State} {body : State → State × IRes} {r : IRes} {s : Scope Value}
    {vs : Vars Value} (hb : body { st with vars := st.vars.push } = (st₁, r)) (hv : st₁.vars = s :: vs) :
    inScope st body = ({ st₁ with vars := vs }, r) := by
  unfold inScope
  rw [hb]
  simp [hv, Vars.pop]

/-- whatever is run in a new scope leaves that scope there -/
theorem gained_push {st : State} {vs' : Vars Value} (h : Gained st.vars.push vs') :
    ∃ s r, vs' = s :: r := by
  cases vs' with
  | nil => simp [Vars.push, Gained] at h
  | cons s r => exact ⟨s, r, rfl⟩

/-! ### C34: while -/

theorem whileLoop_runs (cond : State → R Bool) (body : State → State × IRes) :
    ∀ fuel st st' r, whileLoop cond body fuel st = (st', r) → r ≠ .fail .diverge →
      WhileRuns cond body st st' r := by
  intro fuel
  induction fuel with
  | zero => intro st st' r h hr; simp [whileLoop] at h; exact absurd h.2.symm hr
  | succ n ih =>
    intro st st' r h hr
    unfold whileLoop at h
    cases hc : cond st with
    | error f =>
      simp only [hc, Prod.mk.injEq] at h
      obtain ⟨rfl, rfl⟩ := h
      exact .condFails hc
    | ok b =>
      cases b with
      | false =>
        simp only [hc, Prod.mk.injEq] at h
        obtain ⟨rfl, rfl⟩ := h
        exact .stop hc
      | true =>
        simp only [hc] at h
        cases hb : body st with
        | mk st₁ r₁ =>
          rw [hb] at h
          cases r₁ with
          | ok => exact .again hc hb (ih _ _ _ h hr)
          | cont => exact .continued hc hb (ih _ _ _ h hr)
          | brk => simp only [Prod.mk.injEq] at h; obtain ⟨rfl, rfl⟩ := h; exact .broken hc hb
          | quit => simp only [Prod.mk.injEq] at h; obtain ⟨rfl, rfl⟩ := h; exact .quits hc hb
          | fail f => simp only [Prod.mk.injEq] at h; obtain ⟨rfl, rfl⟩ := h; exact .fails hc hb

theorem runs_whileLoop (cond : State → R Bool) (body : State → State × IRes) {st st' : State} {r : IRes}
    (h : WhileRuns cond body st st' r) : ∃ n, ∀ fuel, n ≤ fuel → whileLoop cond body fuel st = (st', r) := by
  induction h with
  | stop hc => exact ⟨1, fun fuel hf => by cases fuel with
      | zero => omega
      | succ n => simp [whileLoop, hc]⟩
  | condFails hc => exact ⟨1, fun fuel hf => by cases fuel with
      | zero => omega
      | succ n => simp [whileLoop, hc]⟩
  | again hc hb _ ih =>
    obtain ⟨n, ih⟩ := ih
    exact ⟨n + 1, fun fuel hf => by cases fuel with
      | zero => omega
      | succ m => simp [whileLoop, hc, hb, ih m (by omega)]⟩
  | continued hc hb _ ih =>
    obtain ⟨n, ih⟩ := ih
    exact ⟨n + 1, fun fuel hf => by cases fuel with
      | zero => omega
      | succ m => simp [whileLoop, hc, hb, ih m (by omega)]⟩
  | broken hc hb => exact ⟨1, fun fuel hf => by cases fuel with
      | zero => omega
      | succ n => simp [whileLoop, hc, hb]⟩
  | quits hc hb => exact ⟨1, fun fuel hf => by cases fuel with
      | zero => omega
      | succ n => simp [whileLoop, hc, hb]⟩
  | fails hc hb => exact ⟨1, fun fuel hf => by cases fuel with
      | zero => omega
      | succ n => simp [whileLoop, hc, hb]⟩

/-- **C34**: a `while` statement that ends (its loop is not stopped by the step bound) has run exactly as
the rules `WhileRuns` say, on a fresh innermost scope that is gone afterwards. -/
theorem C34_while (c : Expr) (b : List Stmt) (st st' : State) (r : IRes)
    (h : evalStmt cfg (.while c b) st = (st', r)) (hr : r ≠ .fail .diverge) :
    ∃ st₁ s, WhileRuns (fun st => evalCond cfg st c) (evalStmts cfg b) { st with vars := st.vars.push } st₁ r ∧
      st₁.vars = s :: st'.vars ∧ st'.sink = st₁.sink ∧ st'.fs = st₁.fs := by
  rw [evalStmt] at h
  cases hw : whileLoop (fun st => evalCond cfg st c) (evalStmts cfg b) cfg.fuel
      { st with vars := st.vars.push } with
  | mk st₁ r₁ =>
    have hg := whileLoop_rel (gained_closed cfg) (fun st => evalCond cfg st c) (evalStmts cfg b)
      (fun st => evalStmts_rel (gained_closed cfg) b (allT_true b) st) cfg.fuel
      { st with vars := st.vars.push }
    rw [hw] at hg
    obtain ⟨s, vs, hv⟩ := gained_push (st := st) hg
    rw [inScope_eq (body := fun st => whileLoop (fun st => evalCond cfg st c) (evalStmts cfg b) cfg.fuel st)
      hw hv, Prod.mk.injEq] at h
    obtain ⟨rfl, rfl⟩ := h
    exact ⟨st₁, s, whileLoop_runs _ _ _ _ _ _ hw hr, hv, rfl, rfl⟩

/-- **C34**: the rules leave no choice, so they determine state and result. -/
theorem C34_rules_deterministic {cond : State → R Bool} {body : State → State × IRes} {st s₁ s₂ : State}
    {r₁ r₂ : IRes} (h₁ : WhileRuns cond body st s₁ r₁) (h₂ : WhileRuns cond body st s₂ r₂) :
    s₁ = s₂ ∧ r₁ = r₂ := by
  obtain ⟨n, hn⟩ := runs_whileLoop cond body h₁
  obtain ⟨m, hm⟩ := runs_whileLoop cond body h₂
  have := (hn (max n m) (by omega)).symm.trans (hm (max n m) (by omega))
  simpa using this

/-- **C34**: conversely, every run the rules allow is what the loop does, given enough steps. -/
theorem C34_rules_complete {cond : State → R Bool} {body : State → State × IRes} {st st' : State}
    {r : IRes} (h : WhileRuns cond body st st' r) :
    ∃ n, ∀ fuel, n ≤ fuel → whileLoop cond body fuel st = (st', r) := runs_whileLoop cond body h

theorem whileLoop_no_jump (cond : State → R Bool) (body : State → State × IRes) :
    ∀ fuel st, (whileLoop cond body fuel st).2 ≠ .brk ∧ (whileLoop cond body fuel st).2 ≠ .cont := by
  intro fuel
  induction fuel with
  | zero => intro st; simp [whileLoop]
  | succ n ih =>
    intro st
    unfold whileLoop
    cases hc : cond st with
    | error f => simp
    | ok b =>
      cases b with
      | false => simp
      | true =>
        simp only
        generalize body st = r
        obtain ⟨st', r⟩ := r
        cases r with
        | ok => exact ih _
        | cont => exact ih _
        | brk => simp
        | quit => simp
        | fail f => simp

theorem forLoop_no_jump (x : Str) (body : State → State × IRes) :
    ∀ items st, (forLoop x body items st).2 ≠ .brk ∧ (forLoop x body items st).2 ≠ .cont := by
  intro items
  induction items with
  | nil => intro st; simp [forLoop]
  | cons v vs ih =>
    intro st
    unfold forLoop
    cases hc : st.vars.insert x v with
    | error f => simp
    | ok vars =>
      simp only
      generalize body { st with vars := vars } = r
      obtain ⟨st', r⟩ := r
      cases r with
      | ok => exact ih _
      | cont => exact ih _
      | brk => simp
      | quit => simp
      | fail f => simp

theorem inScope_no_jump (st : State) (body : State → State × IRes)
    (h : ∀ st, (body st).2 ≠ .brk ∧ (body st).2 ≠ .cont) :
    (inScope st body).2 ≠ .brk ∧ (inScope st body).2 ≠ .cont := by
  unfold inScope
  have h1 := h { st with vars := st.vars.push }
  simp only
  cases Vars.pop (body { st with vars := st.vars.push }).1.vars with
  | ok vs => exact h1
  | error e => simp

/-- **C34**: a loop statement never hands `break` or `continue` to its surroundings. -/
theorem C34_loops_absorb_jumps (st : State) (s : Stmt)
    (hs : (∃ c b, s = .while c b) ∨ (∃ x r b, s = .for x r b)) :
    (evalStmt cfg s st).2 ≠ .brk ∧ (evalStmt cfg s st).2 ≠ .cont := by
  rcases hs with ⟨c, b, rfl⟩ | ⟨x, r, b, rfl⟩
  · rw [evalStmt]
    exact inScope_no_jump st _ (fun st => whileLoop_no_jump _ _ _ st)
  · rw [evalStmt]
    refine inScope_no_jump st _ (fun st => ?_)
    unfold evalFor
    split
    · split
      · simp
      · split
        · simp
        · exact forLoop_no_jump _ _ _ _
    · simp

/-- **C34**: after `break` or `continue` no later statement of the block runs: the block ends with the
state of that moment. -/
theorem C34_jump_skips_rest (p q : List Stmt) (s : Stmt) (hs : s = .brk ∨ s = .cont) (st st' : State)
    (h : evalStmts cfg p st = (st', .ok)) :
    evalStmts cfg (p ++ s :: q) st = (st', if s matches .brk then .brk else .cont) := by
  rw [evalStmts_append, h]
  rcases hs with rfl | rfl <;> simp [evalStmts, evalStmt]

/-! ### C35: for -/

theorem forLoop_runs (x : Str) (body : State → State × IRes) :
    ∀ items st, st.vars ≠ [] → (∀ st, st.vars ≠ [] → (body st).1.vars ≠ []) →
      ForRuns x body items st (forLoop x body items st).1 (forLoop x body items st).2 := by
  intro items
  induction items with
  | nil => intro st _ _; exact .done
  | cons v vs ih =>
    intro st hne hb
    obtain ⟨vars, hi⟩ := insert_ok st.vars x v hne
    have hne' : vars ≠ [] := by
      intro e; have := insert_length hi; rw [e] at this
      exact hne (List.length_eq_zero_iff.mp this.symm)
    unfold forLoop
    simp only [hi]
    have hb' := hb { st with vars := vars } hne'
    cases hbody : body { st with vars := vars } with
    | mk st₁ r₁ =>
      rw [hbody] at hb'
      cases r₁ with
      | ok => exact .again hi hbody (ih st₁ hb' hb)
      | cont => exact .continued hi hbody (ih st₁ hb' hb)
      | brk => exact .broken hi hbody
      | quit => exact .quits hi hbody
      | fail f => exact .fails hi hbody

theorem gained_ne_nil {a b : Vars Value} (h : Gained a b) (ha : a ≠ []) : b ≠ [] := by
  cases a with
  | nil => simp at ha
  | cons s r => cases b with
    | nil => simp [Gained] at h
    | cons s' r' => simp

/-- **C35**: a `for` statement evaluates its range once, in the state at its start; if that is an array
the statement runs by the rules `ForRuns` over exactly those elements in order — the rules never look at
the array variable again — on a fresh innermost scope that is gone afterwards. -/
theorem C35_for (x : Str) (e : Expr) (b : List Stmt) (st : State) (items : List Value) (k : Bool)
    (he : evalExpr cfg { st with vars := st.vars.push } e = .ok (.array items k)) :
    ∃ st₁ s, ForRuns x (evalStmts cfg b) items { st with vars := st.vars.push } st₁
        (evalStmt cfg (.for (.ident x) e b) st).2 ∧
      st₁.vars = s :: (evalStmt cfg (.for (.ident x) e b) st).1.vars ∧
      (evalStmt cfg (.for (.ident x) e b) st).1.sink = st₁.sink ∧
      (evalStmt cfg (.for (.ident x) e b) st).1.fs = st₁.fs := by
  have hc := gained_closed cfg
  have hbody : ∀ st, Gained st.vars (evalStmts cfg b st).1.vars := fun st => evalStmts_rel hc b (allT_true b) st
  have hfor : evalFor cfg (.ident x) e (evalStmts cfg b) { st with vars := st.vars.push } =
      forLoop x (evalStmts cfg b) items { st with vars := st.vars.push } := by
    simp [evalFor, he, Value.asVec]
  have hruns := forLoop_runs x (evalStmts cfg b) items { st with vars := st.vars.push } (by simp [Vars.push])
    (fun st h => gained_ne_nil (hbody st) h)
  have hg := forLoop_rel hc x trivial (evalStmts cfg b) hbody items { st with vars := st.vars.push }
  obtain ⟨s, vs, hv⟩ := gained_push (st := st) hg
  have := inScope_eq (st := st) (body := evalFor cfg (.ident x) e (evalStmts cfg b))
    (st₁ := (forLoop x (evalStmts cfg b) items { st with vars := st.vars.push }).1)
    (r := (forLoop x (evalStmts cfg b) items { st with vars := st.vars.push }).2) (by rw [hfor]) hv
  rw [evalStmt, this]
  exact ⟨_, s, hruns, hv, rfl, rfl⟩

/-- **C35**: the range is looked up outside the new scope's (empty) contents, so it has the value it has
before the statement; anything but an array is an error and nothing runs. -/
theorem C35_range_errors (x : Str) (e : Expr) (b : List Stmt) (st : State) (v : Value)
    (he : evalExpr cfg { st with vars := st.vars.push } e = .ok v) (hv : ∀ items k, v ≠ .array items k) :
    evalStmt cfg (.for (.ident x) e b) st = (st, .fail (.err (.typeMismatch s!' "array" v.shortDisplay))) := by
  have : evalFor cfg (.ident x) e (evalStmts cfg b) { st with vars := st.vars.push } =
      ({ st with vars := st.vars.push }, .fail (.err (.typeMismatch s!' "array" v.shortDisplay))) := by
    cases v with
    | array items k => exact absurd rfl (hv items k)
    | _ => simp [evalFor, he, Value.asVec]
  rw [evalStmt, inScope_eq (s := Scope.empty) (vs := st.vars) this rfl]

mutual
theorem evalExpr_push (cfg : Cfg) (st : State) : ∀ e : Expr,
    evalExpr cfg { st with vars := st.vars.push } e = evalExpr cfg st e
  | .ident name => by simp [evalExpr, Vars.push, Vars.get, Scope.empty]
  | .int i => by simp [evalExpr]
  | .bool b => by simp [evalExpr]
  | .str s => by simp [evalExpr]
  | .paren e => by simp only [evalExpr]; exact evalExpr_push cfg st e
  | .field e f => by simp only [evalExpr, evalExpr_push cfg st e]
  | .index e i => by simp only [evalExpr, evalExpr_push cfg st e, evalExpr_push cfg st i]
  | .call f args => by simp only [evalExpr, evalExpr_push cfg st f, evalArgs_push cfg st args]
  | .bin op l r => by simp only [evalExpr, evalExpr_push cfg st l, evalExpr_push cfg st r]
  | .un op e => by simp only [evalExpr, evalExpr_push cfg st e]
  | .cast ty e => by simp only [evalExpr, evalExpr_push cfg st e]
theorem evalArgs_push (cfg : Cfg) (st : State) : ∀ es : List Expr,
    evalArgs cfg { st with vars := st.vars.push } es = evalArgs cfg st es
  | [] => by simp [evalArgs]
  | e :: es => by simp only [evalArgs, evalExpr_push cfg st e, evalArgs_push cfg st es]
end

/-- **C35**: an expression has the same value just inside a block as just before it. -/
theorem C35_range_value (st : State) (e : Expr) :
    evalExpr cfg { st with vars := st.vars.push } e = evalExpr cfg st e := evalExpr_push cfg st e

/-- the bindings of a variable seen through one assignment -/
theorem evalAssign_append (a v : Str) (st : State) (acc : List Value) (k : Bool) (w : Value)
    (ha : st.vars.get a = some (.array acc k)) (hv : st.vars.get v = some w) :
    ∃ vs, evalStmts cfg [.assign (.ident a) (.bin .plus (.ident a) (.ident v))] st = ({ st with vars := vs }, .ok) ∧
      slots vs a = (slots st.vars a).write (.array (acc ++ [w]) k) ∧
      ∀ y, y ≠ a → slots vs y = slots st.vars y := by
  have hne : st.vars ≠ [] := by intro e; simp [e, Vars.get] at ha
  obtain ⟨vs, hi⟩ := insert_ok st.vars a (.array (acc ++ [w]) k) hne
  refine ⟨vs, ?_, (insert_slots hi).1, (insert_slots hi).2⟩
  simp [evalStmts, evalStmt, evalAssign, evalExpr, ha, hv, orErr, binop, plusOp, bind, Except.bind, hi]

/-- **C35, the snapshot at work**: for every array `a`, the loop `for v in a { a = a + v; }` terminates
and appends the *original* elements in order, although it grows the very array it iterates over. -/
theorem C35_snapshot (a v : Str) (hav : a ≠ v) (st : State) (items : List Value) (k : Bool)
    (ha : st.vars.get a = some (.array items k)) :
    let s : Stmt := .for (.ident v) (.ident a) [.assign (.ident a) (.bin .plus (.ident a) (.ident v))]
    (evalStmt cfg s st).2 = .ok ∧ (evalStmt cfg s st).1.vars.get a = some (.array (items ++ items) k) := by
  intro s
  have he : evalExpr cfg { st with vars := st.vars.push } (.ident a) = .ok (.array items k) := by
    rw [evalExpr_push]; simp [evalExpr, ha, orErr]
  -- the loop, from any state with a fresh innermost scope as far as `a` is concerned
  have loop : ∀ (rest acc : List Value) (st : State), st.vars.get a = some (.array acc k) →
      (slots st.vars a).head? = some none →
      let r := forLoop v (evalStmts cfg [.assign (.ident a) (.bin .plus (.ident a) (.ident v))]) rest st
      r.2 = .ok ∧ r.1.vars.get a = some (.array (acc ++ rest) k) ∧ (slots r.1.vars a).head? = some none := by
    intro rest
    induction rest with
    | nil => intro acc st h1 h2; simpa [forLoop] using ⟨h1, h2⟩
    | cons w ws ih =>
      intro acc st h1 h2
      have hne : st.vars ≠ [] := by intro e; simp [e, Vars.get] at h1
      obtain ⟨vars, hi⟩ := insert_ok st.vars v w hne
      have hs := insert_slots hi
      have hg := get_insert hi
      have h1' : vars.get a = some (.array acc k) := by rw [hg.2 a hav]; exact h1
      obtain ⟨vs, hb, hsa, hso⟩ := evalAssign_append cfg a v { st with vars := vars } acc k w h1' hg.1
      simp only [forLoop, hi, hb]
      have hbound : (slots vars a).bound = true := by
        apply bound_of_read (v := Value.array acc k)
        rw [← get_eq_read]; exact h1'
      have h2' : (slots vars a).head? = some none := by rw [hs.2 a hav]; exact h2
      have := ih (acc ++ [w]) { st with vars := vs } (by
          rw [get_eq_read]; simp only [hsa]; exact read_write _ _) (by
          simp only [hsa, Slots.write, hbound, if_true]
          generalize slots vars a = sl at h2'
          cases sl with
          | nil => simp at h2'
          | cons o r =>
            simp at h2'; subst h2'
            simp [Slots.update])
      simpa using this
  have hl := loop items items { st with vars := st.vars.push } (by
      rw [get_eq_read]; simp only [slots, Vars.push, List.map_cons, Scope.empty, Slots.read]
      rw [get_eq_read] at ha; exact ha) (by simp [slots, Vars.push, Scope.empty])
  obtain ⟨st₁, sc, hruns, hv, -, -⟩ := C35_for cfg v (.ident a)
    [.assign (.ident a) (.bin .plus (.ident a) (.ident v))] st items k he
  simp only at hl
  have hfor : evalFor cfg (.ident v) (.ident a) (evalStmts cfg [.assign (.ident a) (.bin .plus (.ident a) (.ident v))])
      { st with vars := st.vars.push } =
      forLoop v (evalStmts cfg [.assign (.ident a) (.bin .plus (.ident a) (.ident v))]) items
        { st with vars := st.vars.push } := by
    simp only [evalFor, he, Value.asVec]
  revert hl
  rw [← hfor]
  intro hl
  generalize hr : evalFor cfg (.ident v) (.ident a)
    (evalStmts cfg [.assign (.ident a) (.bin .plus (.ident a) (.ident v))])
    { st with vars := st.vars.push } = r at hl
  obtain ⟨st₂, r⟩ := r
  obtain ⟨h1, h2, h3⟩ := hl
  simp only at h1 h2 h3
  subst h1
  cases hvs : st₂.vars with
  | nil => simp [hvs, slots] at h3
  | cons sc' rest =>
    have : evalStmt cfg s st = ({ st₂ with vars := rest }, .ok) := by
      simp only [s, evalStmt]
      exact inScope_eq hr hvs
    rw [this]
    refine ⟨rfl, ?_⟩
    rw [hvs] at h2 h3
    simp only [slots, List.map_cons, List.head?_cons, Option.some.injEq] at h3
    simpa [Vars.get, h3] using h2

/-! ### C36: if -/

/-- **C36**: the condition decides which one branch runs, in a scope of its own; a condition that fails or
is not boolean fails the statement and runs nothing. -/
theorem C36_if (c : Expr) (t f : List Stmt) (st : State) :
    (evalExpr cfg st c = .ok (.bool true) →
      evalStmt cfg (.ite c t f) st = inScope st (evalStmts cfg t)) ∧
    (evalExpr cfg st c = .ok (.bool false) →
      evalStmt cfg (.ite c t f) st = inScope st (evalStmts cfg f)) ∧
    (∀ v, evalExpr cfg st c = .ok v → (∀ b, v ≠ .bool b) →
      evalStmt cfg (.ite c t f) st = (st, .fail (.err (.typeMismatch s!' "boolean" v.shortDisplay)))) ∧
    (∀ e, evalExpr cfg st c = .error e → evalStmt cfg (.ite c t f) st = (st, .fail e)) := by
  have hp := evalExpr_push cfg st c
  refine ⟨?_, ?_, ?_, ?_⟩
  · intro h
    rw [evalStmt, inScope, inScope]
    simp [evalCond, hp, h, bind, Except.bind, Value.asBoolean]
  · intro h
    rw [evalStmt, inScope, inScope]
    simp [evalCond, hp, h, bind, Except.bind, Value.asBoolean]
  · intro v h hv
    have hc : evalCond cfg { st with vars := st.vars.push } c = .error (.err (.typeMismatch s!' "boolean" v.shortDisplay)) := by
      cases v with
      | bool b => exact absurd rfl (hv b)
      | _ => simp only [evalCond, hp, h, bind, Except.bind, Value.asBoolean, R.err]
    rw [evalStmt, inScope_eq (s := Scope.empty) (vs := st.vars)
      (st₁ := { st with vars := st.vars.push }) (r := .fail (.err (.typeMismatch s!' "boolean" v.shortDisplay))) (by simp only [hc]) rfl]
  · intro e h
    have hc : evalCond cfg { st with vars := st.vars.push } c = .error e := by
      simp only [evalCond, hp, h, bind, Except.bind]
    rw [evalStmt, inScope_eq (s := Scope.empty) (vs := st.vars)
      (st₁ := { st with vars := st.vars.push }) (r := .fail e) (by simp only [hc]) rfl]

/-- **C36**: what running a branch in its own scope means: run it with a fresh innermost scope, then drop
that scope and keep everything else, including the result. -/
theorem C36_branch_scope (b : List Stmt) (st : State) :
    ∃ s, (evalStmts cfg b { st with vars := st.vars.push }).1.vars = s :: (inScope st (evalStmts cfg b)).1.vars ∧
      (inScope st (evalStmts cfg b)).2 = (evalStmts cfg b { st with vars := st.vars.push }).2 ∧
      (inScope st (evalStmts cfg b)).1.sink = (evalStmts cfg b { st with vars := st.vars.push }).1.sink ∧
      (inScope st (evalStmts cfg b)).1.fs = (evalStmts cfg b { st with vars := st.vars.push }).1.fs := by
  have hg := evalStmts_rel (gained_closed cfg) b (allT_true b) { st with vars := st.vars.push }
  obtain ⟨s, vs, hv⟩ := gained_push (st := st) hg
  have := inScope_eq (st := st) (body := evalStmts cfg b)
    (st₁ := (evalStmts cfg b { st with vars := st.vars.push }).1)
    (r := (evalStmts cfg b { st with vars := st.vars.push }).2) rfl hv
  rw [this]
  exact ⟨s, hv, rfl, rfl, rfl⟩

/-! ### C37: quit -/

/-- **C37**: once a program has reached `quit`, whatever follows it does not matter: same state (so the
same output) and the result is quit. -/
theorem C37_nothing_after_quit (p q : List Stmt) (st st' : State) (h : evalStmts cfg p st = (st', .quit)) :
    evalStmts cfg (p ++ q) st = (st', .quit) := by
  rw [evalStmts_append, h]

/-- **C37**: a `quit` statement that is reached quits, changing nothing. -/
theorem C37_quit_quits (p q : List Stmt) (st st' : State) (h : evalStmts cfg p st = (st', .ok)) :
    evalStmts cfg (p ++ .quit :: q) st = (st', .quit) := by
  rw [evalStmts_append, h]
  simp [evalStmts, evalStmt]

/-- **C37**, depth: a quit in the branch taken by an `if` quits the `if`, with the output and filesystem of
that moment. -/
theorem C37_quit_in_if (c : Expr) (t f : List Stmt) (st st' : State) (v : Bool)
    (hc : evalExpr cfg st c = .ok (.bool v))
    (h : evalStmts cfg (if v then t else f) { st with vars := st.vars.push } = (st', .quit)) :
    (evalStmt cfg (.ite c t f) st).2 = .quit ∧ (evalStmt cfg (.ite c t f) st).1.sink = st'.sink ∧
    (evalStmt cfg (.ite c t f) st).1.fs = st'.fs := by
  have hi := C36_if cfg c t f st
  have : evalStmt cfg (.ite c t f) st = inScope st (evalStmts cfg (if v then t else f)) := by
    cases v
    · exact hi.2.1 hc
    · exact hi.1 hc
  rw [this]
  obtain ⟨s, h1, h2, h3, h4⟩ := C36_branch_scope cfg (if v then t else f) st
  rw [h2, h3, h4, h]
  exact ⟨rfl, rfl, rfl⟩

/-- **C37**, depth: a quit in any iteration of a `while` quits the `while`: no further test, no further
iteration. -/
theorem C37_quit_in_while {cond : State → R Bool} {body : State → State × IRes} {st st₁ : State}
    (hc : cond st = .ok true) (hb : body st = (st₁, .quit)) (st₂ : State) (r : IRes)
    (h : WhileRuns cond body st st₂ r) : st₂ = st₁ ∧ r = .quit :=
  C34_rules_deterministic h (.quits hc hb)

/-- **C37**, depth: a quit in any iteration of a `for` quits the `for`, whatever items are left. -/
theorem C37_quit_in_for {x : Str} {body : State → State × IRes} {st st₁ : State} {v : Value}
    {vs : Vars Value} {items : List Value} (hi : st.vars.insert x v = .ok vs)
    (hb : body { st with vars := vs } = (st₁, .quit)) (st₂ : State) (r : IRes)
    (h : ForRuns x body (v :: items) st st₂ r) : st₂ = st₁ ∧ r = .quit := by
  cases h with
  | again h1 h2 h3 => rw [hi] at h1; injection h1 with h1; subst h1; rw [hb] at h2; simp at h2
  | continued h1 h2 h3 => rw [hi] at h1; injection h1 with h1; subst h1; rw [hb] at h2; simp at h2
  | broken h1 h2 => rw [hi] at h1; injection h1 with h1; subst h1; rw [hb] at h2; simp at h2
  | quits h1 h2 =>
    rw [hi] at h1; injection h1 with h1; subst h1; rw [hb] at h2
    simp at h2; exact ⟨h2.symm, rfl⟩
  | fails h1 h2 => rw [hi] at h1; injection h1 with h1; subst h1; rw [hb] at h2; simp at h2

/-- **C37**, sessions: a line that quits ends the session; later input is not looked at. -/
theorem C37_quit_ends_session (rs : RState) (line : Str) (events : List ReplEvent)
    (h : (runtimeEval cfg rs (fixupInput (stripComments line))).2 = .quit) :
    replRun cfg rs (.line line :: events) =
      ((runtimeEval cfg rs (fixupInput (stripComments line))).1, .exited) := by
  unfold replRun replStep
  simp only
  generalize runtimeEval cfg rs (fixupInput (stripComments line)) = r at h
  obtain ⟨rs', r⟩ := r
  simp only at h
  subst h
  rfl

/-! ### C38: output only grows -/

theorem sink_write_prefix (k : Sink) (s : Str) : k.out <+: (k.write s).1.out := by
  unfold Sink.write
  split
  · exact List.prefix_append _ _
  · split
    · exact List.prefix_append _ _
    · exact List.prefix_append _ _

theorem evalAssign_sink (st : State) (l r : Expr) : (evalAssign cfg st l r).1.sink = st.sink := by
  unfold evalAssign
  split
  · rfl
  · split
    · split <;> rfl
    · split <;> rfl

theorem evalFilesystem_sink (st : State) (e : Expr) : (evalFilesystem cfg st e).1.sink = st.sink := by
  unfold evalFilesystem
  split
  · rfl
  · split
    · rfl
    · split <;> rfl

theorem out_closed (o : Str) : InvClosed cfg (fun _ => True) (fun st => o <+: st.sink.out) where
  push st h := h
  pop st vs h _ := h
  assign st l r _ _ h := by rw [evalAssign_sink]; exact h
  filesystem st e _ h := by rw [evalFilesystem_sink]; exact h
  write st s h := by
    unfold State.write
    have := sink_write_prefix st.sink s
    generalize st.sink.write s = w at this
    obtain ⟨k, w⟩ := w
    cases w with
    | ok u => exact h.trans this
    | error e => exact h.trans this
  bind st e items k _ _ _ v _ st' name vs h _ := h

/-- **C38**: whatever a program does and however it ends, the output it started with is a prefix of the
output it ends with. -/
theorem C38_output_grows (p : List Stmt) (st : State) :
    st.sink.out <+: (evalProgram cfg p st).1.sink.out :=
  evalStmts_inv (out_closed cfg st.sink.out) p (allE_true p) st (List.prefix_refl _)

/-- **C38**, sessions: the same over any sequence of REPL events. -/
theorem C38_session_output_grows (events : List ReplEvent) (rs : RState) :
    rs.ev.sink.out <+: (replRun cfg rs events).1.ev.sink.out := by
  apply replRun_inv cfg (fun r => rs.ev.sink.out <+: r.ev.sink.out)
  · intro r cmd h
    rcases runtimeEval_cases cfg r cmd with ⟨_, h'⟩ | ⟨p, e, _, _, h'⟩ | ⟨p, _, _, h'⟩
    · rw [h']; exact h
    · rw [h']; exact h
    · rw [h']; exact h.trans (C38_output_grows cfg p r.ev)
  · exact List.prefix_refl _

/-- **C38**: when a statement fails, the program ends with the state that statement left behind — all
effects and output of the statements before it included — and no later statement has run. -/
theorem C38_error_keeps_effects (p q : List Stmt) (s : Stmt) (st st₁ st₂ : State) (f : Fail)
    (hp : evalStmts cfg p st = (st₁, .ok)) (hs : evalStmt cfg s st₁ = (st₂, .fail f)) :
    evalProgram cfg (p ++ s :: q) st = (st₂, .fail f) ∧ st₁.sink.out <+: st₂.sink.out := by
  constructor
  · unfold evalProgram
    rw [evalStmts_append, hp]
    simp [evalStmts, hs, IRes.toEvalResult]
  · have h := evalStmt_inv (out_closed cfg st₁.sink.out) s s.allE_true st₁ (List.prefix_refl _)
    rw [hs] at h; exact h

/-! ### C39: expression statements -/

/-- **C39**: not interactive, an expression statement changes nothing at all; it only can fail. -/
theorem C39_script_silent (h : cfg.interactive = false) (e : Expr) (st : State) :
    (evalStmt cfg (.expr e) st).1 = st ∧
    (∀ v, evalExpr cfg st e = .ok v → (evalStmt cfg (.expr e) st).2 = .ok) ∧
    (∀ f, evalExpr cfg st e = .error f → (evalStmt cfg (.expr e) st).2 = .fail f) := by
  simp only [evalStmt, evalExprStmt]
  cases he : evalExpr cfg st e with
  | error f => simp
  | ok v => simp [h]

/-- **C39**: interactive, it prints the displayed value and a newline (all of it if the sink takes it), and
changes neither variables nor the filesystem. -/
theorem C39_interactive_prints (h : cfg.interactive = true) (e : Expr) (st : State) (v : Value) (t : Str)
    (he : evalExpr cfg st e = .ok v) (hd : v.display = .ok t) (hroom : st.sink.room = none) :
    evalStmt cfg (.expr e) st = ({ st with sink := ⟨st.sink.out ++ t ++ ['\n'], none⟩ }, .ok) := by
  simp only [evalStmt, evalExprStmt, he, h, if_true, hd, State.write, Sink.write, hroom]
  simp

/-- **C39**: in every case an expression statement leaves variables and filesystem alone. -/
theorem C39_no_variable_changes (e : Expr) (st : State) :
    (evalStmt cfg (.expr e) st).1.vars = st.vars ∧ (evalStmt cfg (.expr e) st).1.fs = st.fs := by
  refine ⟨by rw [evalStmt, evalExprStmt_vars], ?_⟩
  rw [evalStmt]
  unfold evalExprStmt
  split
  · rfl
  · split
    · split
      · rfl
      · unfold State.write; split <;> rfl
    · rfl

/-! ### C40: splitting programs -/

/-- **C40**: when the first part succeeds, evaluating the two parts one after the other is evaluating them
at once: same state, output and result. -/
theorem C40_split (p q : List Stmt) (st st' : State) (h : evalProgram cfg p st = (st', .ok)) :
    evalProgram cfg (p ++ q) st = evalProgram cfg q st' := by
  unfold evalProgram at h ⊢
  rw [evalStmts_append]
  cases hp : evalStmts cfg p st with
  | mk st₁ r =>
    rw [hp] at h
    cases r with
    | ok => simp [IRes.toEvalResult] at h; subst h; rfl
    | quit => simp [IRes.toEvalResult] at h
    | brk => simp [IRes.toEvalResult] at h
    | cont => simp [IRes.toEvalResult] at h
    | fail f => simp [IRes.toEvalResult] at h

/-- **C40**: when the first part quits or fails, the second part is irrelevant. -/
theorem C40_split_stopped (p q : List Stmt) (st : State) (h : (evalProgram cfg p st).2 ≠ .ok) :
    evalProgram cfg (p ++ q) st = evalProgram cfg p st := by
  unfold evalProgram at h ⊢
  rw [evalStmts_append]
  generalize evalStmts cfg p st = r at h
  obtain ⟨st', r⟩ := r
  cases r with
  | ok => simp [IRes.toEvalResult] at h
  | _ => rfl

/-- a program for the examples: `x = 2; while x > 0 { print x; x = x - 1; } quit; print 9;` -/
def exProg : List Stmt :=
  [.assign (.ident s!' "x") (.int 2),
   .while (.bin .gt (.ident s!' "x") (.int 0))
     [.print (.ident s!' "x"), .assign (.ident s!' "x") (.bin .minus (.ident s!' "x") (.int 1))],
   .quit, .print (.int 9)]

example :
    let cfg : Cfg := ⟨⟨false⟩, ⟨fun _ => none, fun _ => none, none⟩, false, 10⟩
    let st : State := ⟨⟨[], none⟩, [Scope.empty], none⟩
    (evalProgram cfg exProg st).2 = .quit ∧ (evalProgram cfg exProg st).1.sink.out = s!' "2\n1\n" ∧
    (evalStmts cfg (exProg.take 2) st).2 = .ok :=
  ⟨by rfl, by rfl, by rfl⟩

end Btrd
