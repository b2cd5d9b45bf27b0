/-
The evaluator against the rules of `Spec/Rules`: statements.
-/
import Verif.Lemmas.Rules

namespace Btrd
open Spec

/-- how a result of the evaluator is called in the rules -/
def kind : IRes → Outcome
  | .ok => .done
  | .brk => .brk
  | .cont => .cont
  | .quit => .quit
  | .fail _ => .failed

/-! ### output -/

theorem write_rule (σ : State) (t : Str) : Outputs t σ (σ.write t).1 (kind (σ.write t).2) := by
  obtain ⟨⟨out, room⟩, vars, fs⟩ := σ
  cases room with
  | none => exact .free
  | some n =>
    by_cases h : t.length ≤ n
    · have e : State.write ⟨⟨out, some n⟩, vars, fs⟩ t = (⟨⟨out ++ t, some (n - t.length)⟩, vars, fs⟩, .ok) := by
        simp only [State.write, Sink.write, if_pos h]
      rw [e]
      obtain ⟨k, rfl⟩ : ∃ k, n = t.length + k := ⟨n - t.length, by omega⟩
      rw [Nat.add_sub_cancel_left]
      exact .room
    · have e : State.write ⟨⟨out, some n⟩, vars, fs⟩ t = (⟨⟨out ++ t.take n, some 0⟩, vars, fs⟩, .fail (.err .sink)) := by
        simp only [State.write, Sink.write, if_neg h, R.err]
      rw [e]
      exact .full (by omega)

/-- this result is the one of the rules -/
def Is (r : State × IRes) (σ : State) (o : Outcome) : Prop := r.1 = σ ∧ kind r.2 = o

theorem rule_write {t : Str} {σ σ' : State} {o : Outcome} (h : Outputs t σ σ' o) : Is (σ.write t) σ' o := by
  cases h with
  | free => exact ⟨rfl, rfl⟩
  | room =>
    rename_i out n vars fs
    have h : t.length ≤ t.length + n := by omega
    have e : State.write ⟨⟨out, some (t.length + n)⟩, vars, fs⟩ t =
        (⟨⟨out ++ t, some (t.length + n - t.length)⟩, vars, fs⟩, .ok) := by
      simp only [State.write, Sink.write, if_pos h]
    rw [e, Nat.add_sub_cancel_left]
    exact ⟨rfl, rfl⟩
  | full hn =>
    rename_i out n vars fs
    have h : ¬ t.length ≤ n := by omega
    have e : State.write ⟨⟨out, some n⟩, vars, fs⟩ t = (⟨⟨out ++ t.take n, some 0⟩, vars, fs⟩, .fail (.err .sink)) := by
      simp only [State.write, Sink.write, if_neg h, R.err]
    rw [e]
    exact ⟨rfl, rfl⟩

set_option maxRecDepth 100000 in
theorem write_not_diverge (σ : State) (t : Str) : (σ.write t).2 ≠ .fail .diverge := by
  unfold State.write Sink.write
  cases σ.sink.room with
  | none => simp
  | some n =>
    simp only
    split
    · rename_i h
      split at h <;> simp_all
    · rename_i h
      split at h
      · simp_all
      · simp only [R.err, Prod.mk.injEq, Except.error.injEq] at h
        rw [← h.2]; simp

theorem raw_byte (b : UInt8) : (if isAsciiWhitespace b then [b] else escapeDefault b).map
    (fun b => Char.ofNat b.toNat) = rawText b := by
  unfold rawText
  by_cases h : b = 32 ∨ b = 9 ∨ b = 10 ∨ b = 12 ∨ b = 13
  · have : isAsciiWhitespace b = true := by
      rcases h with h | h | h | h | h <;> subst h <;> decide
    rw [if_pos this, if_pos h]
    rfl
  · have : ¬ isAsciiWhitespace b = true := by
      intro h'
      apply h
      simp only [isAsciiWhitespace, Bool.or_eq_true, beq_iff_eq] at h'
      rcases h' with (((h | h) | h) | h) | h <;> simp [h]
    rw [if_neg this, if_neg h, escape_byteText]

theorem raw_string (s : Bytes) : (Value.str s).asString false = .ok (s.flatMap rawText) := by
  simp only [Value.asString, fromAscii_escape]
  congr 1
  induction s with
  | nil => rfl
  | cons b s ih =>
    unfold escapeBytes at ih ⊢
    rw [List.flatMap_cons, List.map_append, ih, List.flatMap_cons, ← raw_byte b]
    rfl

set_option maxRecDepth 100000 in
theorem help_rule : helpText = helpLines.flatMap (· ++ ['\n']) := by decide +kernel

/-- what `print` writes is what the rules say -/
theorem print_rule (cfg : Cfg) {v : Value} {t : Str} (h : printText cfg v = .ok t) : Prints (world cfg) v t := by
  unfold printText at h
  split at h
  · exact .diagram ⟨cfg.fuel, h⟩
  · rw [raw_string, Except.ok.injEq] at h
    subst h
    exact .string _
  · rename_i h1 h2
    exact .other (fun xs hx => h1 xs hx) (fun s hs => h2 s hs) h

theorem rule_print {cfg : Cfg} {v : Value} {t : Str} (h : Prints (world cfg) v t) :
    ∃ n, ∀ m, n ≤ m → printText (cfg.steps m) v = .ok t := by
  cases h with
  | diagram h =>
    obtain ⟨n, hn⟩ := h
    refine ⟨n, fun m hm => ?_⟩
    have := apx_asHist (S := (· = .diverge)) (b := cfg.build) (.inl rfl) (.inr ⟨hm, rfl⟩) (vec := ‹List Value›)
    rcases this with h' | ⟨f, rfl, h'⟩
    · exact h'.symm.trans hn
    · rw [h'] at hn; simp at hn
  | string s => exact ⟨0, fun m _ => raw_string s⟩
  | other h1 h2 h3 =>
    refine ⟨0, fun m _ => ?_⟩
    have h3 : v.display = .ok t := h3
    cases v with
    | str s => exact absurd rfl (h2 s)
    | array xs k =>
      cases k with
      | true => exact absurd rfl (h1 xs)
      | false => exact h3
    | _ => exact h3

/-- a printout that fails is none of the rules -/
theorem no_print {cfg : Cfg} {v : Value} {f : Fail} (h : printText cfg v = .error f) (hf : f ≠ .diverge) (t : Str) :
    ¬ Prints (world cfg) v t := by
  intro hp
  obtain ⟨n, hn⟩ := rule_print hp
  rcases apx_printText (finer_steps cfg (Nat.le_max_left cfg.fuel n)) v with h' | ⟨g, rfl, h'⟩
  · have h : printText (cfg.steps cfg.fuel) v = .error f := h
    rw [h', hn _ (Nat.le_max_right _ _)] at h
    simp at h
  · have h : printText (cfg.steps cfg.fuel) v = .error f := h
    rw [h, Except.error.injEq] at h'
    exact hf h'

/-! ### statements: what the evaluator does, the rules do -/

theorem cond_rule (cfg : Cfg) {σ : State} {c : Expr} {b : Bool} (h : evalCond cfg σ c = .ok b) :
    Ev (world cfg) σ c (.bool b) := by
  obtain ⟨v, h1, h2⟩ := bind_ok h
  rw [asBoolean_inv h2] at h1
  exact ev_of_eval cfg σ c _ h1

theorem cond_of_ev {cfg : Cfg} {σ : State} {c : Expr} {b : Bool} (h : evalExpr cfg σ c = .ok (.bool b)) :
    evalCond cfg σ c = .ok b := by
  unfold evalCond; rw [h]; rfl

theorem no_cond {cfg : Cfg} {σ : State} {c : Expr} {f : Fail} (h : evalCond cfg σ c = .error f) (hf : f ≠ .diverge)
    (b : Bool) : ¬ Ev (world cfg) σ c (.bool b) := by
  intro hv
  rcases ev_eval hv cfg.fuel with h' | h'
  · have := cond_of_ev (cfg := cfg) h'
    rw [h] at this; simp at this
  · have : evalExpr cfg σ c = .error .diverge := h'
    unfold evalCond at h
    rw [this] at h
    simp only [bind, Except.bind, Except.error.injEq] at h
    exact hf h.symm

theorem assign_rule (cfg : Cfg) (σ : State) (l r : Expr) (hd : (evalAssign cfg σ l r).2 ≠ .fail .diverge) :
    Runs (world cfg) (.assign l r) σ (evalAssign cfg σ l r).1 (kind (evalAssign cfg σ l r).2) := by
  unfold evalAssign at hd ⊢
  cases hr : evalExpr cfg σ r with
  | error f =>
    rw [hr] at hd
    exact .assignFails fun v vs h => absurd h (no_ev hr (fun e => hd (by rw [e])) v)
  | ok v =>
    rw [hr] at hd
    have hev := ev_of_eval cfg σ r v hr
    by_cases hl : ∃ x, l = .ident x
    · obtain ⟨x, rfl⟩ := hl
      simp only
      cases hi : σ.vars.insert x v with
      | ok vs => exact .assign hev (.var (insert_iff.1 hi))
      | error f =>
        refine .assignFails fun w vs hw hs => ?_
        rw [ev_unique hw hev] at hs
        cases hs with
        | var h => rw [insert_iff.2 h] at hi; simp at hi
        | part h => exact absurd rfl (h x)
    · have hl' : ∀ y, l ≠ .ident y := fun y hy => hl ⟨y, hy⟩
      simp only at hd ⊢
      cases hm : modifyLhs cfg σ l (fun _ => .ok v) with
      | ok vs =>
        obtain ⟨x, p, old, new, h1, h2, h3, h4⟩ := lhs_rule cfg σ l _ vs hm
        exact .assign hev (.part hl' h1 h2 (through_const.1 h3) h4)
      | error f =>
        rw [hm] at hd
        refine .assignFails fun w vs hw hs => ?_
        rw [ev_unique hw hev] at hs
        cases hs with
        | var h => exact absurd rfl (hl' _)
        | part _ h1 h2 h3 h4 =>
          obtain ⟨n, hn⟩ := rule_lhs h1 h2 (through_const.2 h3) h4
          rcases apx_modifyLhs (finer_steps cfg (Nat.le_max_left cfg.fuel n)) σ l (fun _ => .ok v) with h' | ⟨g, rfl, h'⟩
          · rw [hn _ (Nat.le_max_right _ _)] at h'
            have h' : modifyLhs cfg σ l (fun _ => .ok v) = .ok vs := h'
            rw [hm] at h'; simp at h'
          · have h' : modifyLhs cfg σ l (fun _ => .ok v) = .error .diverge := h'
            rw [hm, Except.error.injEq] at h'
            exact hd (by rw [h'])

theorem filesystem_rule (cfg : Cfg) (σ : State) (e : Expr) (hd : (evalFilesystem cfg σ e).2 ≠ .fail .diverge) :
    Runs (world cfg) (.filesystem e) σ (evalFilesystem cfg σ e).1 (kind (evalFilesystem cfg σ e).2) := by
  unfold evalFilesystem at hd ⊢
  cases hr : evalExpr cfg σ e with
  | error f =>
    rw [hr] at hd
    exact .filesystemFails fun s fs h => absurd h (no_ev hr (fun e => hd (by rw [e])) _)
  | ok v =>
    have hev := ev_of_eval cfg σ e v hr
    cases v with
    | str s =>
      simp only [C41_string_text_bytewise]
      cases hf : Fs.new cfg.host (s.flatMap byteText) with
      | ok fs => exact .filesystem hev hf
      | error f =>
        refine .filesystemFails fun s' fs h ho => ?_
        have := ev_unique h hev
        simp only [Value.str.injEq] at this
        subst this
        have ho : Fs.new cfg.host (s'.flatMap byteText) = .ok fs := ho
        rw [ho] at hf; simp at hf
    | _ => exact .filesystemFails fun s' fs h => by have := ev_unique h hev; simp at this

theorem print_stmt_rule (cfg : Cfg) (σ : State) (e : Expr) (hd : (evalPrint cfg σ e).2 ≠ .fail .diverge) :
    Runs (world cfg) (.print e) σ (evalPrint cfg σ e).1 (kind (evalPrint cfg σ e).2) := by
  unfold evalPrint at hd ⊢
  cases hr : evalExpr cfg σ e with
  | error f =>
    rw [hr] at hd
    exact .printFails fun v t h => absurd h (no_ev hr (fun e => hd (by rw [e])) _)
  | ok v =>
    rw [hr] at hd
    have hev := ev_of_eval cfg σ e v hr
    simp only at hd ⊢
    cases hp : printText cfg v with
    | ok t => exact .print hev (print_rule cfg hp) (write_rule σ _)
    | error f =>
      rw [hp] at hd
      refine .printFails fun w t h => ?_
      rw [ev_unique h hev]
      exact no_print hp (fun e => hd (by rw [e])) t

theorem expr_stmt_rule (cfg : Cfg) (σ : State) (e : Expr) (hd : (evalExprStmt cfg σ e).2 ≠ .fail .diverge) :
    Runs (world cfg) (.expr e) σ (evalExprStmt cfg σ e).1 (kind (evalExprStmt cfg σ e).2) := by
  unfold evalExprStmt at hd ⊢
  cases hr : evalExpr cfg σ e with
  | error f =>
    rw [hr] at hd
    exact .exprFails fun v h => absurd h (no_ev hr (fun e => hd (by rw [e])) _)
  | ok v =>
    have hev := ev_of_eval cfg σ e v hr
    simp only
    by_cases hi : cfg.interactive = true
    · rw [if_pos hi]
      obtain ⟨t, ht⟩ := C42_display_total v
      rw [ht]
      exact .shown hi hev ht (write_rule σ _)
    · rw [if_neg hi]
      exact .silent hi hev

/-- leaving a scope -/
theorem inScope_closes {σ : State} {body : State → State × IRes} (hg : ∀ st, Gained st.vars (body st).1.vars) :
    Closes (body (opened σ)).1 (inScope σ body).1 ∧ (inScope σ body).2 = (body (opened σ)).2 := by
  obtain ⟨s, r, hr⟩ := gained_push (hg { σ with vars := σ.vars.push })
  rw [inScope_eq (st₁ := (body { σ with vars := σ.vars.push }).1) (r := (body { σ with vars := σ.vars.push }).2) rfl hr]
  exact ⟨⟨s, hr, rfl, rfl⟩, rfl⟩

theorem closes_unique {σ σ₁ σ₂ : State} (h : Closes σ σ₁) (h' : Closes σ σ₂) : σ₁ = σ₂ := by
  obtain ⟨s, h1, h2, h3⟩ := h
  obtain ⟨s', h1', h2', h3'⟩ := h'
  obtain ⟨k, v, f⟩ := σ₁
  obtain ⟨k', v', f'⟩ := σ₂
  rw [h1] at h1'
  simp only [List.cons.injEq] at h1' h2 h3 h2' h3'
  rw [h1'.2, h2, h3, h2', h3']

theorem closes_opened (σ : State) : Closes (opened σ) σ := ⟨_, rfl, rfl, rfl⟩

theorem loop_rule (cfg : Cfg) (c : Expr) (b : List Stmt)
    (hb : ∀ st, (evalStmts cfg b st).2 ≠ .fail .diverge →
      RunsAll (world cfg) b st (evalStmts cfg b st).1 (kind (evalStmts cfg b st).2)) :
    ∀ (n : Nat) (σ : State), (whileLoop (fun st => evalCond cfg st c) (evalStmts cfg b) n σ).2 ≠ .fail .diverge →
      Loops (world cfg) c b σ (whileLoop (fun st => evalCond cfg st c) (evalStmts cfg b) n σ).1
        (kind (whileLoop (fun st => evalCond cfg st c) (evalStmts cfg b) n σ).2) := by
  intro n
  induction n with
  | zero => intro σ h; exact absurd rfl h
  | succ n ih =>
    intro σ hd
    unfold whileLoop at hd ⊢
    cases hc : evalCond cfg σ c with
    | error f =>
      simp only [hc] at hd ⊢
      exact .condFails (no_cond hc (fun e => hd (by rw [e])))
    | ok t =>
      have hev := cond_rule cfg hc
      cases t with
      | false => simp only [hc]; exact .over hev
      | true =>
        simp only [hc] at hd ⊢
        have h1 := hb σ
        generalize evalStmts cfg b σ = q at h1 hd
        obtain ⟨σ₁, r⟩ := q
        cases r with
        | ok => exact .again hev (h1 (by simp)) (.inl rfl) (ih σ₁ hd)
        | cont => exact .again hev (h1 (by simp)) (.inr rfl) (ih σ₁ hd)
        | brk => exact .broken hev (h1 (by simp))
        | quit => exact .ended hev (h1 (by simp)) (.inl rfl)
        | fail f => exact .ended hev (h1 hd) (.inr rfl)

theorem assigns_ne {x : Str} {v : Value} {vs vs' : Vars Value} (h : Assigns x v vs vs') : vs' ≠ [] := by
  cases h with
  | old h => cases h <;> simp
  | new h => simp

theorem visit_rule (cfg : Cfg) (x : Str) (b : List Stmt)
    (hb : ∀ st, (evalStmts cfg b st).2 ≠ .fail .diverge →
      RunsAll (world cfg) b st (evalStmts cfg b st).1 (kind (evalStmts cfg b st).2)) :
    ∀ (xs : List Value) (σ : State), σ.vars ≠ [] → (forLoop x (evalStmts cfg b) xs σ).2 ≠ .fail .diverge →
      Visits (world cfg) x b xs σ (forLoop x (evalStmts cfg b) xs σ).1 (kind (forLoop x (evalStmts cfg b) xs σ).2) := by
  intro xs
  induction xs with
  | nil => intro σ _ _; exact .over
  | cons v xs ih =>
    intro σ hv hd
    obtain ⟨vs, hi⟩ := insert_ok σ.vars x v hv
    unfold forLoop at hd ⊢
    simp only [hi] at hd ⊢
    have ha := insert_iff.1 hi
    have hne := assigns_ne ha
    have h1 := hb { σ with vars := vs }
    have h2 := evalStmts_rel (gained_closed cfg) b (allT_true b) { σ with vars := vs }
    generalize evalStmts cfg b { σ with vars := vs } = q at h1 h2 hd
    obtain ⟨σ₁, r⟩ := q
    have hne1 : σ₁.vars ≠ [] := gained_ne_nil h2 hne
    cases r with
    | ok => exact .again ha (h1 (by simp)) (.inl rfl) (ih σ₁ hne1 hd)
    | cont => exact .again ha (h1 (by simp)) (.inr rfl) (ih σ₁ hne1 hd)
    | brk => exact .broken ha (h1 (by simp))
    | quit => exact .ended ha (h1 (by simp)) (.inl rfl)
    | fail f => exact .ended ha (h1 hd) (.inr rfl)

/-- the body of `if` -/
def iteBody (cfg : Cfg) (c : Expr) (t f : List Stmt) (st : State) : State × IRes :=
  match evalCond cfg st c with
  | .error e => (st, .fail e)
  | .ok true => evalStmts cfg t st
  | .ok false => evalStmts cfg f st

theorem evalStmt_ite (cfg : Cfg) (c : Expr) (t f : List Stmt) (σ : State) :
    evalStmt cfg (.ite c t f) σ = inScope σ (iteBody cfg c t f) := by
  rw [evalStmt]
  congr 1

theorem iteBody_gained (cfg : Cfg) (c : Expr) (t f : List Stmt) (st : State) :
    Gained st.vars (iteBody cfg c t f st).1.vars := by
  unfold iteBody
  cases evalCond cfg st c with
  | error e => exact Gained.refl _
  | ok b => cases b
            · exact evalStmts_rel (gained_closed cfg) f (allT_true f) st
            · exact evalStmts_rel (gained_closed cfg) t (allT_true t) st

mutual
theorem stmt_rule (cfg : Cfg) : ∀ (s : Stmt) (σ : State), (evalStmt cfg s σ).2 ≠ .fail .diverge →
    Runs (world cfg) s σ (evalStmt cfg s σ).1 (kind (evalStmt cfg s σ).2)
  | .assign l r, σ, h => by
    rw [evalStmt] at h ⊢
    exact assign_rule cfg σ l r h
  | .ite c t f, σ, h => by
    rw [evalStmt_ite] at h ⊢
    obtain ⟨h1, h2⟩ := inScope_closes (σ := σ) (iteBody_gained cfg c t f)
    have ht := stmts_rule cfg t (opened σ)
    have hf := stmts_rule cfg f (opened σ)
    rw [h2] at h ⊢
    unfold iteBody at h h1 ⊢
    cases hc : evalCond cfg (opened σ) c with
    | error e =>
      simp only [hc] at h h1 ⊢
      rw [closes_unique h1 (closes_opened σ)]
      exact .ifFails (no_cond hc (fun e => h (by rw [e])))
    | ok b =>
      have hev := cond_rule cfg hc
      cases b with
      | true =>
        simp only [hc] at h h1 ⊢
        exact .ifTrue hev (ht h) h1
      | false =>
        simp only [hc] at h h1 ⊢
        exact .ifFalse hev (hf h) h1
  | .while c b, σ, h => by
    rw [evalStmt] at h ⊢
    obtain ⟨h1, h2⟩ := inScope_closes (σ := σ)
      (body := fun st => whileLoop (fun st => evalCond cfg st c) (evalStmts cfg b) cfg.fuel st)
      (fun st => whileLoop_rel (gained_closed cfg) _ _
        (fun st => evalStmts_rel (gained_closed cfg) b (allT_true b) st) _ st)
    rw [h2] at h ⊢
    exact .while (loop_rule cfg c b (fun st => stmts_rule cfg b st) cfg.fuel (opened σ) h) h1
  | .for x r b, σ, h => by
    rw [evalStmt] at h ⊢
    obtain ⟨h1, h2⟩ := inScope_closes (σ := σ) (body := evalFor cfg x r (evalStmts cfg b))
      (fun st => evalFor_rel (gained_closed cfg) x r trivial _
        (fun st => evalStmts_rel (gained_closed cfg) b (allT_true b) st) st)
    have hb : ∀ st, (evalStmts cfg b st).2 ≠ .fail .diverge →
      RunsAll (world cfg) b st (evalStmts cfg b st).1 (kind (evalStmts cfg b st).2) := fun st => stmts_rule cfg b st
    rw [h2] at h ⊢
    unfold evalFor at h h1 ⊢
    cases x with
    | ident x =>
      simp only at h h1 ⊢
      cases hr : evalExpr cfg (opened σ) r with
      | error e =>
        simp only [hr] at h h1 ⊢
        rw [closes_unique h1 (closes_opened σ)]
        exact .forFails fun xs k => no_ev hr (fun e => h (by rw [e])) _
      | ok v =>
        have hev := ev_of_eval cfg _ r v hr
        cases v with
        | array xs k =>
          simp only [hr, Value.asVec] at h h1 ⊢
          exact .for hev (visit_rule cfg x b hb xs (opened σ) (by simp [opened]) h) h1
        | _ =>
          simp only [hr, Value.asVec] at h h1 ⊢
          rw [closes_unique h1 (closes_opened σ)]
          exact .forFails fun xs k h' => by have := ev_unique h' hev; simp at this
    | _ =>
      simp only at h h1 ⊢
      rw [closes_unique h1 (closes_opened σ)]
      exact .forNoName (by simp)
  | .brk, σ, _ => by rw [evalStmt]; exact .brk
  | .cont, σ, _ => by rw [evalStmt]; exact .cont
  | .help, σ, _ => by rw [evalStmt, help_rule]; exact .help (write_rule σ _)
  | .quit, σ, _ => by rw [evalStmt]; exact .quit
  | .filesystem e, σ, h => by rw [evalStmt] at h ⊢; exact filesystem_rule cfg σ e h
  | .print e, σ, h => by rw [evalStmt] at h ⊢; exact print_stmt_rule cfg σ e h
  | .expr e, σ, h => by rw [evalStmt] at h ⊢; exact expr_stmt_rule cfg σ e h
theorem stmts_rule (cfg : Cfg) : ∀ (p : List Stmt) (σ : State), (evalStmts cfg p σ).2 ≠ .fail .diverge →
    RunsAll (world cfg) p σ (evalStmts cfg p σ).1 (kind (evalStmts cfg p σ).2)
  | [], σ, _ => by rw [evalStmts]; exact .nil
  | s :: ss, σ, h => by
    rw [evalStmts] at h ⊢
    have h1 := stmt_rule cfg s σ
    generalize evalStmt cfg s σ = q at h1 h
    obtain ⟨σ₁, r⟩ := q
    cases r with
    | ok => exact .next (h1 (by simp)) (stmts_rule cfg ss σ₁ h)
    | brk => exact .stop (h1 (by simp)) (by simp [Outcome.stops, kind])
    | cont => exact .stop (h1 (by simp)) (by simp [Outcome.stops, kind])
    | quit => exact .stop (h1 (by simp)) (by simp [Outcome.stops, kind])
    | fail f => exact .stop (h1 h) (by simp [Outcome.stops, kind])
end

/-! ### statements: what the rules do, the evaluator does -/

/-- the results at the various bounds: this one or "more steps needed"; the former from some bound on unless
it is a failure -/
def Meets (R : Nat → State × IRes) (σ : State) (o : Outcome) : Prop :=
  (∀ m, Is (R m) σ o ∨ (R m).2 = .fail .diverge) ∧ (o ≠ .failed → ∃ n, ∀ m, n ≤ m → Is (R m) σ o)

theorem meets_now {R : Nat → State × IRes} {σ : State} {o : Outcome} (h : ∀ m, Is (R m) σ o) : Meets R σ o :=
  ⟨fun m => .inl (h m), fun _ => ⟨0, fun m _ => h m⟩⟩

theorem meets_failed {R : Nat → State × IRes} {σ : State} (h : ∀ m, ∃ f, R m = (σ, .fail f)) : Meets R σ .failed := by
  refine ⟨fun m => ?_, fun h => absurd rfl h⟩
  obtain ⟨f, hf⟩ := h m
  rw [hf]
  exact .inl ⟨rfl, rfl⟩

/-- what depends on the value of an expression -/
theorem meets_ev {cfg : Cfg} {σ₀ : State} {e : Expr} {v : Value} (he : Ev (world cfg) σ₀ e v)
    {R R' : Nat → State × IRes} {σ : State} {o : Outcome}
    (h1 : ∀ m, evalExpr (cfg.steps m) σ₀ e = .ok v → R m = R' m)
    (h2 : ∀ m, evalExpr (cfg.steps m) σ₀ e = .error .diverge → (R m).2 = .fail .diverge)
    (h : Meets R' σ o) : Meets R σ o := by
  refine ⟨fun m => ?_, fun ho => ?_⟩
  · rcases ev_eval he m with h' | h'
    · rw [h1 m h']; exact h.1 m
    · exact .inr (h2 m h')
  · obtain ⟨n, hn⟩ := ev_gives he
    obtain ⟨k, hk⟩ := h.2 ho
    exact ⟨max n k, fun m hm => by rw [h1 m (hn m (by omega))]; exact hk m (by omega)⟩

theorem error_of_no_ev {cfg : Cfg} {σ : State} {e : Expr} (h : ∀ v, ¬ Ev (world cfg) σ e v) (m : Nat) :
    ∃ f, evalExpr (cfg.steps m) σ e = .error f := by
  cases he : evalExpr (cfg.steps m) σ e with
  | error f => exact ⟨f, rfl⟩
  | ok v => exact absurd (ev_of_eval (cfg.steps m) σ e v he) (h v)

theorem error_of_no_cond {cfg : Cfg} {σ : State} {e : Expr} (h : ∀ b, ¬ Ev (world cfg) σ e (.bool b)) (m : Nat) :
    ∃ f, evalCond (cfg.steps m) σ e = .error f := by
  cases he : evalCond (cfg.steps m) σ e with
  | error f => exact ⟨f, rfl⟩
  | ok v => exact absurd (cond_rule (cfg.steps m) he) (h v)

theorem cond_of_diverge {cfg : Cfg} {σ : State} {c : Expr} (h : evalExpr cfg σ c = .error .diverge) :
    evalCond cfg σ c = .error .diverge := by
  unfold evalCond; rw [h]; rfl

/-- a statement with a body in a scope of its own -/
theorem meets_scope {R B : Nat → State × IRes} {σ₁ σ₂ : State} {o : Outcome}
    (hR : ∀ m, Closes (B m).1 (R m).1 ∧ (R m).2 = (B m).2) (hB : Meets B σ₁ o) (hc : Closes σ₁ σ₂) : Meets R σ₂ o := by
  have key : ∀ m, Is (B m) σ₁ o → Is (R m) σ₂ o := by
    rintro m ⟨h1, h2⟩
    obtain ⟨h3, h4⟩ := hR m
    rw [h1] at h3
    exact ⟨closes_unique h3 hc, by rw [h4, h2]⟩
  refine ⟨fun m => ?_, fun ho => ?_⟩
  · rcases hB.1 m with h | h
    · exact .inl (key m h)
    · exact .inr (by rw [(hR m).2, h])
  · obtain ⟨n, hn⟩ := hB.2 ho
    exact ⟨n, fun m hm => key m (hn m hm)⟩

theorem meets_assign {cfg : Cfg} {l r : Expr} {σ : State} {v : Value} {vs : Vars Value} (he : Ev (world cfg) σ r v)
    (hs : Stores (world cfg) σ l v vs) :
    Meets (fun m => evalStmt (cfg.steps m) (.assign l r) σ) { σ with vars := vs } .done := by
  cases hs with
  | var h =>
    refine meets_ev he (R' := fun _ => ({ σ with vars := vs }, .ok)) (fun m hm => ?_) (fun m hm => ?_)
      (meets_now fun m => ⟨rfl, rfl⟩)
    · rw [evalStmt, evalAssign, hm]
      simp only [insert_iff.2 h]
    · rw [evalStmt, evalAssign, hm]
  | part hl h1 h2 h3 h4 =>
    obtain ⟨n, hn⟩ := rule_lhs h1 h2 (through_const.2 h3) h4
    have step : ∀ m, evalExpr (cfg.steps m) σ r = .ok v → evalStmt (cfg.steps m) (.assign l r) σ =
        match modifyLhs (cfg.steps m) σ l (fun _ => .ok v) with
        | .ok vs => ({ σ with vars := vs }, .ok)
        | .error e => (σ, .fail e) := by
      intro m hm
      rw [evalStmt, evalAssign, hm]
      cases l with
      | ident x => exact absurd rfl (hl x)
      | _ => rfl
    refine meets_ev he step (fun m hm => by rw [evalStmt, evalAssign, hm]) ⟨fun m => ?_, fun _ => ⟨n, fun m hm => ?_⟩⟩
    · rcases apx_modifyLhs (finer_steps cfg (Nat.le_max_left m n)) σ l (fun _ => .ok v) with h' | ⟨g, rfl, h'⟩
      · rw [hn _ (Nat.le_max_right _ _)] at h'
        left; simp only [h']; exact ⟨rfl, rfl⟩
      · right; simp only [h']
    · simp only [hn m hm]; exact ⟨rfl, rfl⟩

theorem assign_cases (cfg : Cfg) (σ : State) (l r : Expr) :
    (∃ vs, evalAssign cfg σ l r = ({ σ with vars := vs }, .ok)) ∨ ∃ f, evalAssign cfg σ l r = (σ, .fail f) := by
  unfold evalAssign
  split
  · exact .inr ⟨_, rfl⟩
  · split
    · split
      · exact .inl ⟨_, rfl⟩
      · exact .inr ⟨_, rfl⟩
    · split
      · exact .inl ⟨_, rfl⟩
      · exact .inr ⟨_, rfl⟩

theorem runs_assign_inv {W : World} {s : Stmt} {l r : Expr} {σ σ' : State} {o : Outcome} (h : Runs W s σ σ' o)
    (hs : s = .assign l r) (ho : o = .done) : ∃ v vs, Ev W σ r v ∧ Stores W σ l v vs := by
  cases h with
  | assign h1 h2 =>
    simp only [Stmt.assign.injEq] at hs
    obtain ⟨rfl, rfl⟩ := hs
    exact ⟨_, _, h1, h2⟩
  | assignFails => simp at ho
  | _ => simp at hs

theorem fails_assign {cfg : Cfg} {l r : Expr} {σ : State}
    (h : ∀ v vs, Ev (world cfg) σ r v → ¬ Stores (world cfg) σ l v vs) :
    Meets (fun m => evalStmt (cfg.steps m) (.assign l r) σ) σ .failed := by
  refine meets_failed fun m => ?_
  rw [evalStmt]
  rcases assign_cases (cfg.steps m) σ l r with ⟨vs, hv⟩ | hf
  · exfalso
    have hr := assign_rule (cfg.steps m) σ l r (by rw [hv]; simp)
    rw [hv] at hr
    obtain ⟨v, vs', h1, h2⟩ := runs_assign_inv hr rfl rfl
    exact h _ _ h1 h2
  · exact hf

theorem meets_print {cfg : Cfg} {e : Expr} {v : Value} {t : Str} {σ σ' : State} {o : Outcome}
    (he : Ev (world cfg) σ e v) (hp : Prints (world cfg) v t) (ho : Outputs (t ++ ['\n']) σ σ' o) :
    Meets (fun m => evalStmt (cfg.steps m) (.print e) σ) σ' o := by
  obtain ⟨n, hn⟩ := rule_print hp
  refine meets_ev he (R' := fun m => match printText (cfg.steps m) v with
      | .error f => (σ, .fail f)
      | .ok t => σ.write (t ++ ['\n'])) (fun m hm => by rw [evalStmt, evalPrint]; simp only [hm]; cases printText (cfg.steps m) v <;> rfl)
    (fun m hm => by rw [evalStmt, evalPrint, hm]) ⟨fun m => ?_, fun _ => ⟨n, fun m hm => ?_⟩⟩
  · rcases apx_printText (finer_steps cfg (Nat.le_max_left m n)) v with h' | ⟨g, rfl, h'⟩
    · rw [hn _ (Nat.le_max_right _ _)] at h'
      left; simp only [h']; exact rule_write ho
    · right; simp only [h']
  · simp only [hn m hm]; exact rule_write ho

/-- loops have a bound of their own -/
def MeetsLoop (R : Nat → Nat → State × IRes) (σ : State) (o : Outcome) : Prop :=
  (∀ m k, Is (R m k) σ o ∨ (R m k).2 = .fail .diverge) ∧
  (o ≠ .failed → ∃ n, ∀ m k, n ≤ m → n ≤ k → Is (R m k) σ o)

theorem kind_done {r : IRes} (h : kind r = .done) : r = .ok := by cases r <;> simp_all [kind]
theorem kind_brk {r : IRes} (h : kind r = .brk) : r = .brk := by cases r <;> simp_all [kind]
theorem kind_cont {r : IRes} (h : kind r = .cont) : r = .cont := by cases r <;> simp_all [kind]
theorem kind_quit {r : IRes} (h : kind r = .quit) : r = .quit := by cases r <;> simp_all [kind]
theorem kind_failed {r : IRes} (h : kind r = .failed) : ∃ f, r = .fail f := by cases r <;> simp_all [kind]

/-- what depends on the result of a part -/
theorem meets_seq {Q R R' : Nat → State × IRes} {σ₁ σ : State} {o₁ o : Outcome} (hQ : Meets Q σ₁ o₁)
    (h1 : ∀ m, Is (Q m) σ₁ o₁ → R m = R' m) (h2 : ∀ m, (Q m).2 = .fail .diverge → (R m).2 = .fail .diverge)
    (ho : o₁ = .failed → o = .failed) (h : Meets R' σ o) : Meets R σ o := by
  refine ⟨fun m => ?_, fun h0 => ?_⟩
  · rcases hQ.1 m with h' | h'
    · rw [h1 m h']; exact h.1 m
    · exact .inr (h2 m h')
  · obtain ⟨n, hn⟩ := hQ.2 (fun e => h0 (ho e))
    obtain ⟨k, hk⟩ := h.2 h0
    exact ⟨max n k, fun m hm => by rw [h1 m (hn m (by omega))]; exact hk m (by omega)⟩

/-- the part's result is the result -/
theorem meets_map {Q R : Nat → State × IRes} {σ : State} {o o' : Outcome} (hQ : Meets Q σ o)
    (h1 : ∀ m, Is (Q m) σ o → Is (R m) σ o') (h2 : ∀ m, (Q m).2 = .fail .diverge → (R m).2 = .fail .diverge)
    (ho : o = .failed → o' = .failed) : Meets R σ o' := by
  refine ⟨fun m => ?_, fun h0 => ?_⟩
  · rcases hQ.1 m with h' | h'
    · exact .inl (h1 m h')
    · exact .inr (h2 m h')
  · obtain ⟨n, hn⟩ := hQ.2 (fun e => h0 (ho e))
    exact ⟨n, fun m hm => h1 m (hn m hm)⟩

theorem is_ok {q : State × IRes} {σ : State} (h : Is q σ .done) : q = (σ, .ok) := by
  obtain ⟨a, r⟩ := q; obtain ⟨h1, h2⟩ := h; simp only at h1 h2; rw [h1, kind_done h2]
theorem is_cont {q : State × IRes} {σ : State} (h : Is q σ .cont) : q = (σ, .cont) := by
  obtain ⟨a, r⟩ := q; obtain ⟨h1, h2⟩ := h; simp only at h1 h2; rw [h1, kind_cont h2]
theorem is_brk {q : State × IRes} {σ : State} (h : Is q σ .brk) : q = (σ, .brk) := by
  obtain ⟨a, r⟩ := q; obtain ⟨h1, h2⟩ := h; simp only at h1 h2; rw [h1, kind_brk h2]
theorem is_quit {q : State × IRes} {σ : State} (h : Is q σ .quit) : q = (σ, .quit) := by
  obtain ⟨a, r⟩ := q; obtain ⟨h1, h2⟩ := h; simp only at h1 h2; rw [h1, kind_quit h2]
theorem is_failed {q : State × IRes} {σ : State} (h : Is q σ .failed) : ∃ f, q = (σ, .fail f) := by
  obtain ⟨a, r⟩ := q; obtain ⟨h1, h2⟩ := h; simp only at h1 h2
  obtain ⟨f, hf⟩ := kind_failed h2
  exact ⟨f, by rw [h1, hf]⟩
theorem is_diverge {q : State × IRes} (h : q.2 = .fail .diverge) : ∃ σ, q = (σ, .fail .diverge) := by
  obtain ⟨a, r⟩ := q; simp only at h; exact ⟨a, by rw [h]⟩

theorem seq_next {cfg : Cfg} {s : Stmt} {ss : List Stmt} {σ σ₁ σ₂ : State} {o : Outcome}
    (h1 : Meets (fun m => evalStmt (cfg.steps m) s σ) σ₁ .done)
    (h2 : Meets (fun m => evalStmts (cfg.steps m) ss σ₁) σ₂ o) :
    Meets (fun m => evalStmts (cfg.steps m) (s :: ss) σ) σ₂ o := by
  refine meets_seq h1 (fun m hm => ?_) (fun m hm => ?_) (by simp) h2
  · try dsimp only at hm ⊢
    rw [evalStmts, is_ok hm]
  · obtain ⟨σ', h⟩ := is_diverge hm
    try dsimp only at h ⊢
    rw [evalStmts, h]

theorem seq_stop {cfg : Cfg} {s : Stmt} {ss : List Stmt} {σ σ₁ : State} {o : Outcome}
    (h1 : Meets (fun m => evalStmt (cfg.steps m) s σ) σ₁ o) (ho : o.stops) :
    Meets (fun m => evalStmts (cfg.steps m) (s :: ss) σ) σ₁ o := by
  refine meets_map h1 (fun m hm => ?_) (fun m hm => ?_) id
  · try dsimp only at hm ⊢
    rw [evalStmts]
    cases o with
    | done => exact absurd rfl ho
    | brk => rw [is_brk hm]; exact ⟨rfl, rfl⟩
    | cont => rw [is_cont hm]; exact ⟨rfl, rfl⟩
    | quit => rw [is_quit hm]; exact ⟨rfl, rfl⟩
    | failed => obtain ⟨f, hf⟩ := is_failed hm; rw [hf]; exact ⟨rfl, rfl⟩
  · obtain ⟨σ', h⟩ := is_diverge hm
    try dsimp only at h ⊢
    rw [evalStmts, h]

section
variable {cfg : Cfg} {c : Expr} {b : List Stmt} {σ σ₁ σ₂ : State} {o o' : Outcome}

theorem loop_over (he : Ev (world cfg) σ c (.bool false)) :
    MeetsLoop (fun m k => whileLoop (fun st => evalCond (cfg.steps m) st c) (evalStmts (cfg.steps m) b) k σ) σ .done := by
  refine ⟨fun m k => ?_, fun _ => ?_⟩
  · cases k with
    | zero => exact .inr rfl
    | succ k =>
      rcases ev_eval he m with h | h
      · left; unfold whileLoop; simp only [cond_of_ev h]; exact ⟨rfl, rfl⟩
      · right; unfold whileLoop; simp only [cond_of_diverge h]
  · obtain ⟨n, hn⟩ := ev_gives he
    refine ⟨n + 1, fun m k hm hk => ?_⟩
    obtain ⟨k, rfl⟩ : ∃ j, k = j + 1 := ⟨k - 1, by omega⟩
    unfold whileLoop
    simp only [cond_of_ev (hn m (by omega))]
    exact ⟨rfl, rfl⟩

theorem loop_fails (h : ∀ t, ¬ Ev (world cfg) σ c (.bool t)) :
    MeetsLoop (fun m k => whileLoop (fun st => evalCond (cfg.steps m) st c) (evalStmts (cfg.steps m) b) k σ) σ .failed := by
  refine ⟨fun m k => ?_, fun h => absurd rfl h⟩
  cases k with
  | zero => exact .inr rfl
  | succ k =>
    obtain ⟨f, hf⟩ := error_of_no_cond h m
    left
    unfold whileLoop
    simp only [hf]
    exact ⟨rfl, rfl⟩

/-- one iteration -/
theorem loop_step (he : Ev (world cfg) σ c (.bool true)) (hb : Meets (fun m => evalStmts (cfg.steps m) b σ) σ₁ o)
    {T : Nat → Nat → State × IRes} (ho : o = .failed → o' = .failed)
    (hT : ∀ m k, Is (evalStmts (cfg.steps m) b σ) σ₁ o → evalCond (cfg.steps m) σ c = .ok true →
      whileLoop (fun st => evalCond (cfg.steps m) st c) (evalStmts (cfg.steps m) b) (k + 1) σ = T m k)
    (h : MeetsLoop T σ₂ o') :
    MeetsLoop (fun m k => whileLoop (fun st => evalCond (cfg.steps m) st c) (evalStmts (cfg.steps m) b) k σ) σ₂ o' := by
  refine ⟨fun m k => ?_, fun h0 => ?_⟩
  · cases k with
    | zero => exact .inr rfl
    | succ k =>
      rcases ev_eval he m with h' | h'
      · rcases hb.1 m with h'' | h''
        · try dsimp only at h'' ⊢; rw [hT m k h'' (cond_of_ev h')]; exact h.1 m k
        · right
          obtain ⟨σ', hd⟩ := is_diverge h''
          simp only at hd
          unfold whileLoop
          simp only [cond_of_ev h', hd]
      · right; unfold whileLoop; simp only [cond_of_diverge h']
  · obtain ⟨n, hn⟩ := ev_gives he
    obtain ⟨i, hi⟩ := hb.2 (fun e => h0 (ho e))
    obtain ⟨j, hj⟩ := h.2 h0
    refine ⟨n + i + j + 1, fun m k hm hk => ?_⟩
    obtain ⟨k, rfl⟩ : ∃ l, k = l + 1 := ⟨k - 1, by omega⟩
    try dsimp only
    rw [hT m k (hi m (by omega)) (cond_of_ev (hn m (by omega)))]
    exact hj m k (by omega) (by omega)

theorem loop_again (he : Ev (world cfg) σ c (.bool true)) (hb : Meets (fun m => evalStmts (cfg.steps m) b σ) σ₁ o)
    (ho : o = .done ∨ o = .cont)
    (hl : MeetsLoop (fun m k => whileLoop (fun st => evalCond (cfg.steps m) st c) (evalStmts (cfg.steps m) b) k σ₁) σ₂ o') :
    MeetsLoop (fun m k => whileLoop (fun st => evalCond (cfg.steps m) st c) (evalStmts (cfg.steps m) b) k σ) σ₂ o' := by
  refine loop_step he hb (by rcases ho with rfl | rfl <;> simp) (fun m k hm hc => ?_) hl
  rw [whileLoop]
  simp only [hc]
  rcases ho with rfl | rfl
  · rw [is_ok hm]
  · rw [is_cont hm]

theorem loop_broken (he : Ev (world cfg) σ c (.bool true)) (hb : Meets (fun m => evalStmts (cfg.steps m) b σ) σ₁ .brk) :
    MeetsLoop (fun m k => whileLoop (fun st => evalCond (cfg.steps m) st c) (evalStmts (cfg.steps m) b) k σ) σ₁ .done := by
  refine loop_step (T := fun _ _ => (σ₁, .ok)) he hb (by simp) (fun m k hm hc => ?_)
    ⟨fun _ _ => .inl ⟨rfl, rfl⟩, fun _ => ⟨0, fun _ _ _ _ => ⟨rfl, rfl⟩⟩⟩
  rw [whileLoop]
  simp only [hc, is_brk hm]

theorem loop_ended (he : Ev (world cfg) σ c (.bool true)) (hb : Meets (fun m => evalStmts (cfg.steps m) b σ) σ₁ o)
    (ho : o = .quit ∨ o = .failed) :
    MeetsLoop (fun m k => whileLoop (fun st => evalCond (cfg.steps m) st c) (evalStmts (cfg.steps m) b) k σ) σ₁ o := by
  refine loop_step (T := fun m _ => evalStmts (cfg.steps m) b σ) he hb id (fun m k hm hc => ?_)
    ⟨fun m _ => hb.1 m, fun h => ?_⟩
  · rw [whileLoop]
    simp only [hc]
    rcases ho with rfl | rfl
    · rw [is_quit hm]
    · obtain ⟨f, hf⟩ := is_failed hm; rw [hf]
  · obtain ⟨n, hn⟩ := hb.2 h
    exact ⟨n, fun m k hm _ => hn m hm⟩

variable {x : Str} {v : Value} {xs : List Value} {vs : Vars Value}

theorem visit_again (ha : Assigns x v σ.vars vs)
    (hb : Meets (fun m => evalStmts (cfg.steps m) b { σ with vars := vs }) σ₁ o) (ho : o = .done ∨ o = .cont)
    (hv : Meets (fun m => forLoop x (evalStmts (cfg.steps m) b) xs σ₁) σ₂ o') :
    Meets (fun m => forLoop x (evalStmts (cfg.steps m) b) (v :: xs) σ) σ₂ o' := by
  refine meets_seq hb (fun m hm => ?_) (fun m hm => ?_) (by rcases ho with rfl | rfl <;> simp) hv
  · try dsimp only at hm ⊢
    rw [forLoop, insert_iff.2 ha]
    rcases ho with rfl | rfl
    · simp only [is_ok hm]
    · simp only [is_cont hm]
  · obtain ⟨σ', h⟩ := is_diverge hm
    try dsimp only at h ⊢
    rw [forLoop, insert_iff.2 ha]
    simp only [h]

theorem visit_broken (ha : Assigns x v σ.vars vs)
    (hb : Meets (fun m => evalStmts (cfg.steps m) b { σ with vars := vs }) σ₁ .brk) :
    Meets (fun m => forLoop x (evalStmts (cfg.steps m) b) (v :: xs) σ) σ₁ .done := by
  refine meets_map hb (fun m hm => ?_) (fun m hm => ?_) (by simp)
  · try dsimp only at hm ⊢
    rw [forLoop, insert_iff.2 ha]
    simp only [is_brk hm]
    exact ⟨rfl, rfl⟩
  · obtain ⟨σ', h⟩ := is_diverge hm
    try dsimp only at h ⊢
    rw [forLoop, insert_iff.2 ha]
    simp only [h]

theorem visit_ended (ha : Assigns x v σ.vars vs)
    (hb : Meets (fun m => evalStmts (cfg.steps m) b { σ with vars := vs }) σ₁ o) (ho : o = .quit ∨ o = .failed) :
    Meets (fun m => forLoop x (evalStmts (cfg.steps m) b) (v :: xs) σ) σ₁ o := by
  refine meets_map hb (fun m hm => ?_) (fun m hm => ?_) id
  · try dsimp only at hm ⊢
    rw [forLoop, insert_iff.2 ha]
    rcases ho with rfl | rfl
    · simp only [is_quit hm]; exact ⟨rfl, rfl⟩
    · obtain ⟨f, hf⟩ := is_failed hm
      simp only [hf]; exact ⟨rfl, rfl⟩
  · obtain ⟨σ', h⟩ := is_diverge hm
    try dsimp only at h ⊢
    rw [forLoop, insert_iff.2 ha]
    simp only [h]

end

mutual
theorem meets_stmt {cfg : Cfg} : ∀ {s : Stmt} {σ σ' : State} {o : Outcome}, Runs (world cfg) s σ σ' o →
    Meets (fun m => evalStmt (cfg.steps m) s σ) σ' o
  | _, _, _, _, .assign he hs => meets_assign he hs
  | _, _, _, _, .assignFails h => fails_assign h
  | .ite c t f, σ, _, _, .ifTrue he hr hc =>
    meets_scope (B := fun m => iteBody (cfg.steps m) c t f (opened σ))
      (fun m => by rw [evalStmt_ite]; exact inScope_closes (iteBody_gained (cfg.steps m) c t f))
      (meets_ev he (fun m hm => by unfold iteBody; rw [cond_of_ev hm])
        (fun m hm => by unfold iteBody; rw [cond_of_diverge hm]) (meets_stmts hr)) hc
  | .ite c t f, σ, _, _, .ifFalse he hr hc =>
    meets_scope (B := fun m => iteBody (cfg.steps m) c t f (opened σ))
      (fun m => by rw [evalStmt_ite]; exact inScope_closes (iteBody_gained (cfg.steps m) c t f))
      (meets_ev he (fun m hm => by unfold iteBody; rw [cond_of_ev hm])
        (fun m hm => by unfold iteBody; rw [cond_of_diverge hm]) (meets_stmts hr)) hc
  | .ite c t f, σ, _, _, .ifFails h =>
    meets_scope (B := fun m => iteBody (cfg.steps m) c t f (opened σ))
      (fun m => by rw [evalStmt_ite]; exact inScope_closes (iteBody_gained (cfg.steps m) c t f))
      (meets_failed fun m => by
        obtain ⟨e, he⟩ := error_of_no_cond h m
        exact ⟨e, by unfold iteBody; rw [he]⟩) (closes_opened σ)
  | .while c b, σ, _, _, .while hl hc =>
    meets_scope (B := fun m => whileLoop (fun st => evalCond (cfg.steps m) st c) (evalStmts (cfg.steps m) b) m (opened σ))
      (fun m => by
        rw [evalStmt]
        exact inScope_closes (body := fun st => whileLoop (fun st => evalCond (cfg.steps m) st c)
          (evalStmts (cfg.steps m) b) m st) (fun st => whileLoop_rel (gained_closed (cfg.steps m)) _ _
            (fun st => evalStmts_rel (gained_closed (cfg.steps m)) b (allT_true b) st) _ st))
      (by
        have h := meets_loop hl
        refine ⟨fun m => h.1 m m, fun ho => ?_⟩
        obtain ⟨n, hn⟩ := h.2 ho
        exact ⟨n, fun m hm => hn m m hm hm⟩) hc
  | .for (.ident x) r b, σ, _, _, .for he hv hc =>
    meets_scope (B := fun m => evalFor (cfg.steps m) (.ident x) r (evalStmts (cfg.steps m) b) (opened σ))
      (fun m => by
        rw [evalStmt]
        exact inScope_closes (fun st => evalFor_rel (gained_closed (cfg.steps m)) _ r trivial _
          (fun st => evalStmts_rel (gained_closed (cfg.steps m)) b (allT_true b) st) st))
      (meets_ev he (fun m hm => by unfold evalFor; simp only [hm, Value.asVec])
        (fun m hm => by unfold evalFor; simp only [hm]) (meets_visits hv)) hc
  | .for (.ident x) r b, σ, _, _, .forFails h =>
    meets_scope (B := fun m => evalFor (cfg.steps m) (.ident x) r (evalStmts (cfg.steps m) b) (opened σ))
      (fun m => by
        rw [evalStmt]
        exact inScope_closes (fun st => evalFor_rel (gained_closed (cfg.steps m)) _ r trivial _
          (fun st => evalStmts_rel (gained_closed (cfg.steps m)) b (allT_true b) st) st))
      (meets_failed fun m => by
        unfold evalFor
        simp only
        cases he : evalExpr (cfg.steps m) (opened σ) r with
        | error f => exact ⟨f, rfl⟩
        | ok v =>
          have hev := ev_of_eval (cfg.steps m) _ r v he
          cases v with
          | array xs k => exact absurd hev (h xs k)
          | _ => exact ⟨_, rfl⟩) (closes_opened σ)
  | .for x r b, σ, _, _, .forNoName h =>
    meets_scope (B := fun m => evalFor (cfg.steps m) x r (evalStmts (cfg.steps m) b) (opened σ))
      (fun m => by
        rw [evalStmt]
        exact inScope_closes (fun st => evalFor_rel (gained_closed (cfg.steps m)) _ r trivial _
          (fun st => evalStmts_rel (gained_closed (cfg.steps m)) b (allT_true b) st) st))
      (meets_failed fun m => by
        unfold evalFor
        cases x with
        | ident y => exact absurd rfl (h y)
        | _ => exact ⟨_, rfl⟩) (closes_opened σ)
  | _, _, _, _, .brk => meets_now fun m => by rw [evalStmt]; exact ⟨rfl, rfl⟩
  | _, _, _, _, .cont => meets_now fun m => by rw [evalStmt]; exact ⟨rfl, rfl⟩
  | _, _, _, _, .quit => meets_now fun m => by rw [evalStmt]; exact ⟨rfl, rfl⟩
  | _, _, _, _, .help h => meets_now fun m => by rw [evalStmt, help_rule]; exact rule_write h
  | .filesystem e, σ, _, _, .filesystem (s := s) (fs := fs) he ho =>
    meets_ev he (R' := fun _ => ({ σ with fs := some fs }, .ok))
      (fun m hm => by
        have ho : Fs.new (cfg.steps m).host (s.flatMap byteText) = .ok fs := ho
        rw [evalStmt, evalFilesystem, hm]
        simp only [C41_string_text_bytewise, ho])
      (fun m hm => by rw [evalStmt, evalFilesystem, hm]) (meets_now fun m => ⟨rfl, rfl⟩)
  | .filesystem e, σ, _, _, .filesystemFails h =>
    meets_failed fun m => by
      rw [evalStmt, evalFilesystem]
      cases he : evalExpr (cfg.steps m) σ e with
      | error f => exact ⟨f, rfl⟩
      | ok v =>
        have hev := ev_of_eval (cfg.steps m) σ e v he
        cases v with
        | str s =>
          simp only [C41_string_text_bytewise]
          cases hf : Fs.new (cfg.steps m).host (s.flatMap byteText) with
          | error f => exact ⟨f, rfl⟩
          | ok fs => exact absurd hf (h s fs hev)
        | _ => exact ⟨_, rfl⟩
  | _, _, _, _, .print he hp ho => meets_print he hp ho
  | .print e, σ, _, _, .printFails h =>
    meets_failed fun m => by
      rw [evalStmt, evalPrint]
      cases he : evalExpr (cfg.steps m) σ e with
      | error f => exact ⟨f, rfl⟩
      | ok v =>
        simp only
        cases hp : printText (cfg.steps m) v with
        | error f => exact ⟨f, rfl⟩
        | ok t => exact absurd (print_rule (cfg.steps m) hp) (h v t (ev_of_eval (cfg.steps m) σ e v he))
  | .expr e, σ, _, _, .shown (v := v) (t := t) hi he ht ho =>
    meets_ev he (R' := fun _ => σ.write (t ++ ['\n']))
      (fun m hm => by
        have hi : (cfg.steps m).interactive = true := hi
        have ht : v.display = .ok t := ht
        rw [evalStmt, evalExprStmt, hm]
        simp only [hi, if_true, ht])
      (fun m hm => by rw [evalStmt, evalExprStmt, hm]) (meets_now fun m => rule_write ho)
  | .expr e, σ, _, _, .silent hi he =>
    meets_ev he (R' := fun _ => (σ, .ok))
      (fun m hm => by
        have hi : ¬ (cfg.steps m).interactive = true := hi
        rw [evalStmt, evalExprStmt, hm]
        simp only [if_neg hi])
      (fun m hm => by rw [evalStmt, evalExprStmt, hm]) (meets_now fun m => ⟨rfl, rfl⟩)
  | .expr e, σ, _, _, .exprFails h =>
    meets_failed fun m => by
      obtain ⟨f, hf⟩ := error_of_no_ev h m
      exact ⟨f, by rw [evalStmt, evalExprStmt, hf]⟩
theorem meets_stmts {cfg : Cfg} : ∀ {p : List Stmt} {σ σ' : State} {o : Outcome}, RunsAll (world cfg) p σ σ' o →
    Meets (fun m => evalStmts (cfg.steps m) p σ) σ' o
  | _, _, _, _, .nil => meets_now fun m => by rw [evalStmts]; exact ⟨rfl, rfl⟩
  | s :: ss, σ, _, _, .next hs hss => seq_next (meets_stmt hs) (meets_stmts hss)
  | s :: ss, σ, _, _, .stop hs ho => seq_stop (meets_stmt hs) ho
theorem meets_loop {cfg : Cfg} : ∀ {c : Expr} {b : List Stmt} {σ σ' : State} {o : Outcome},
    Loops (world cfg) c b σ σ' o →
    MeetsLoop (fun m k => whileLoop (fun st => evalCond (cfg.steps m) st c) (evalStmts (cfg.steps m) b) k σ) σ' o
  | _, _, _, _, _, .over he => loop_over he
  | _, _, _, _, _, .again he hb ho hl => loop_again he (meets_stmts hb) ho (meets_loop hl)
  | _, _, _, _, _, .broken he hb => loop_broken he (meets_stmts hb)
  | _, _, _, _, _, .ended he hb ho => loop_ended he (meets_stmts hb) ho
  | _, _, _, _, _, .condFails h => loop_fails h
theorem meets_visits {cfg : Cfg} : ∀ {x : Str} {b : List Stmt} {xs : List Value} {σ σ' : State} {o : Outcome},
    Visits (world cfg) x b xs σ σ' o →
    Meets (fun m => forLoop x (evalStmts (cfg.steps m) b) xs σ) σ' o
  | _, _, _, _, _, _, .over => meets_now fun m => ⟨rfl, rfl⟩
  | _, _, _, _, _, _, .again ha hb ho hv => visit_again ha (meets_stmts hb) ho (meets_visits hv)
  | _, _, _, _, _, _, .broken ha hb => visit_broken ha (meets_stmts hb)
  | _, _, _, _, _, _, .ended ha hb ho => visit_ended ha (meets_stmts hb) ho
end

end Btrd
