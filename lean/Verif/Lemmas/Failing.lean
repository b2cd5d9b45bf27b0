/-
The messages of failing statements are those of `Spec.Fails`.
-/
import Verif.Lemmas.FailsLhs
import Verif.Lemmas.RulesStmt

namespace Btrd
open Spec

/-- this statement failed with this text -/
def Told (r : IRes) (m : Option Str) : Prop := ∃ er, r = .fail (.err er) ∧ er.text = m

theorem told_fail {f : Fail} {m : Option Str} : Told (.fail f) m ↔ ∃ er, f = .err er ∧ er.text = m := by simp [Told]

theorem told_not_diverge {r : IRes} {m : Option Str} (h : Told r m) : r ≠ .fail .diverge := by
  obtain ⟨er, rfl, -⟩ := h; simp

theorem told_of_tells {α : Type} {e : Fail} {m : Option Str} : Told (.fail e) m ↔ Tells (.error e : R α) m := by
  simp [Told, Tells]

set_option maxRecDepth 100000 in
theorem write_told {σ : State} {t : Str} {m : Option Str} (h : Told (σ.write t).2 m) :
    m = none ∧ Outputs t σ (σ.write t).1 .failed := by
  obtain ⟨er, h, rfl⟩ := h
  have hr := write_rule σ t
  rw [h] at hr
  refine ⟨?_, hr⟩
  revert h
  unfold State.write Sink.write
  cases σ.sink.room with
  | none => simp
  | some n =>
    simp only
    intro h
    split at h
    · simp at h
    · rename_i h'
      split at h'
      · simp_all
      · simp only [R.err, Prod.mk.injEq, Except.error.injEq] at h'
        rw [← h'.2] at h
        simp only [IRes.fail.injEq, Fail.err.injEq] at h
        rw [← h]; rfl

theorem outputs_told {σ σ' : State} {t : Str} (h : Outputs t σ σ' .failed) : Told (σ.write t).2 none := by
  obtain ⟨f, hf⟩ := is_failed (rule_write h)
  rw [hf]
  cases h with
  | full hn =>
    rename_i out n vars fs
    have h : ¬ t.length ≤ n := by omega
    have e : State.write ⟨⟨out, some n⟩, vars, fs⟩ t = (⟨⟨out ++ t.take n, some 0⟩, vars, fs⟩, .fail (.err .sink)) := by
      simp only [State.write, Sink.write, if_neg h, R.err]
    rw [e] at hf
    simp only [Prod.mk.injEq, IRes.fail.injEq] at hf
    rw [← hf.2]
    exact ⟨_, rfl, rfl⟩

/-! ### histograms -/

theorem bucketLines_no_err (b : Build) (fuel total : Nat) (er : Err) : ∀ ks, bucketLines b fuel total ks ≠ .error (.err er) := by
  have hn : ∀ x, numBytesToPretty b fuel x ≠ .error (.err er) := by
    intro x h
    unfold numBytesToPretty at h
    rcases bind_err h with h | ⟨q, -, h⟩
    · rcases previousPower2_only fuel x with ⟨q, h'⟩ | h' <;> rw [h'] at h <;> simp at h
    · split at h
      · simp at h
      · split at h
        · simp at h
        · split at h
          · rcases bind_err h with h | ⟨_, _, h⟩
            · exact negI128_err h
            · simp at h
          · simp at h
  intro ks
  induction ks with
  | nil => simp [bucketLines]
  | cons k ks ih =>
    intro h
    rw [bucketLines] at h
    rcases bind_err h with h | ⟨_, _, h⟩
    · rcases bind_err h with h | ⟨_, _, h⟩
      · exact hn _ h
      · rcases bind_err h with h | ⟨_, _, h⟩
        · exact hn _ h
        · simp at h
    · rcases bind_err h with h | ⟨_, _, h⟩
      · exact ih h
      · simp at h

/-- a histogram is not shown exactly if one of its elements is no integer -/
theorem asHist_tells {b : Build} {fuel : Nat} {vec : List Value} {m : Option Str} (h : Tells (asHist b fuel vec) m) :
    ∃ before v after, vec = before ++ v :: after ∧ (∀ w ∈ before, ∃ i, w = .int i) ∧ (∀ i, v ≠ .int i) ∧
      m = some (s!' "Found invalid value '" ++ brief v ++ s!' "' when printing histogram") := by
  unfold asHist at h
  rcases tells_bind h with h | ⟨vals, -, h⟩
  · rcases histInts_cases vec with ⟨vals, rfl⟩ | ⟨vals, v, rest, rfl, h1, h2⟩
    · rw [histInts_ints] at h
      obtain ⟨_, h, _⟩ := h; simp at h
    · rw [h2, tells_text] at h
      refine ⟨_, v, rest, rfl, by simp, h1, ?_⟩
      rw [← h, Err.text, brief_eq]
  · exfalso
    split at h
    · obtain ⟨_, h, _⟩ := h; simp at h
    · rename_i v vs
      rcases tells_bind h with ⟨er, h, -⟩ | ⟨_, -, er, h, -⟩
      · rcases histBuckets_only fuel v vs with ⟨q, h'⟩ | h' <;> rw [h'] at h <;> simp at h
      · exact bucketLines_no_err _ _ _ _ _ h

theorem hist_told {b : Build} {fuel : Nat} {before : List Value} {v : Value} {after : List Value}
    (hb : ∀ w ∈ before, ∃ i, w = .int i) (hv : ∀ i, v ≠ .int i) : Tells (asHist b fuel (before ++ v :: after))
      (some (s!' "Found invalid value '" ++ brief v ++ s!' "' when printing histogram")) := by
  unfold asHist
  refine bind_tells ?_
  induction before with
  | nil =>
    rw [← brief_eq]
    cases v with
    | int i => exact absurd rfl (hv i)
    | _ => exact ⟨_, rfl, rfl⟩
  | cons w before ih =>
    obtain ⟨i, rfl⟩ := hb w (by simp)
    exact bind_tells (ih fun w hw => hb w (by simp [hw]))

/-! ### what the evaluator says, the rules say -/

variable (cfg : Cfg)

theorem cond_told {σ : State} {c : Expr} {m : Option Str} (h : Tells (evalCond cfg σ c) m) :
    CondFails (world cfg) (complaints cfg) σ c m := by
  rcases tells_bind h with ⟨er, h0, rfl⟩ | ⟨v, h1, er, h0, rfl⟩
  · exact .fails (complains_of_eval cfg σ c er h0)
  · obtain ⟨h2, h3⟩ := asBoolean_err h0
    rw [h3]
    exact .kind (ev_of_eval cfg σ c v h1) h2

theorem assign_told {σ : State} {l r : Expr} {m : Option Str} (h : Told (evalAssign cfg σ l r).2 m) :
    Fails (world cfg) (complaints cfg) (.assign l r) σ m := by
  unfold evalAssign at h
  cases hr : evalExpr cfg σ r with
  | error f =>
    rw [hr] at h
    obtain ⟨er, rfl, rfl⟩ := told_fail.1 h
    exact .assignFrom (complains_of_eval cfg σ r er hr)
  | ok v =>
    rw [hr] at h
    refine .assignTo (ev_of_eval cfg σ r v hr) ?_
    by_cases hl : ∃ x, l = .ident x
    · obtain ⟨x, rfl⟩ := hl
      exfalso
      simp only at h
      unfold Vars.insert at h
      cases ho : σ.vars.overwrite x v with
      | some vs => rw [ho] at h; obtain ⟨_, h, _⟩ := h; simp at h
      | none =>
        rw [ho] at h
        cases hv : σ.vars with
        | nil => rw [hv] at h; obtain ⟨_, h, _⟩ := h; simp [R.panic] at h
        | cons s vs => rw [hv] at h; obtain ⟨_, h, _⟩ := h; simp at h
    · have hl' : ∀ y, l ≠ .ident y := fun y hy => hl ⟨y, hy⟩
      simp only at h
      cases hm : modifyLhs cfg σ l (fun _ => .ok v) with
      | ok vs =>
        rw [hm] at h
        cases l with
        | ident x => exact absurd rfl (hl' x)
        | _ => obtain ⟨_, h, _⟩ := h; simp at h
      | error f =>
        have h : Told (.fail f) m := by
          rw [hm] at h
          cases l with
          | ident x => exact absurd rfl (hl' x)
          | _ => exact h
        rw [told_of_tells (α := Vars Value), ← hm] at h
        rcases lhs_fails cfg σ m l _ h with h | ⟨x, p, old, h1, h2, h3⟩
        · exact .target hl' h
        · exact .blocked h1 h2 (stuck_const.1 h3)

theorem filesystem_told {σ : State} {e : Expr} {m : Option Str} (h : Told (evalFilesystem cfg σ e).2 m) :
    Fails (world cfg) (complaints cfg) (.filesystem e) σ m := by
  unfold evalFilesystem at h
  cases hr : evalExpr cfg σ e with
  | error f =>
    rw [hr] at h
    obtain ⟨er, rfl, rfl⟩ := told_fail.1 h
    exact .filesystemOf (complains_of_eval cfg σ e er hr)
  | ok v =>
    have hev := ev_of_eval cfg σ e v hr
    rw [hr] at h
    by_cases hs : ∃ s, v = .str s
    · obtain ⟨s, rfl⟩ := hs
      simp only [C41_string_text_bytewise] at h
      refine .filesystem hev ?_
      cases hf : Fs.new cfg.host (s.flatMap byteText) with
      | ok fs => rw [hf] at h; obtain ⟨_, h, _⟩ := h; simp at h
      | error f =>
        rw [hf] at h
        obtain ⟨er, rfl, rfl⟩ := told_fail.1 h
        exact ⟨er, hf, rfl⟩
    · have hs' : ∀ s, v ≠ .str s := fun s h => hs ⟨s, h⟩
      have : v.asString true = .error (.err (.typeMismatch s!' "string" v.shortDisplay)) := by
        cases v with
        | str s => exact absurd rfl (hs' s)
        | _ => rfl
      simp only [this] at h
      obtain ⟨er, h0, h1⟩ := told_fail.1 h
      have h0 := Fail.err.inj h0
      subst h0
      subst h1
      rw [text_mismatch]
      exact .filesystemKind hev hs'

theorem print_told {σ : State} {e : Expr} {m : Option Str} (h : Told (evalPrint cfg σ e).2 m) :
    Fails (world cfg) (complaints cfg) (.print e) σ m := by
  unfold evalPrint at h
  cases hr : evalExpr cfg σ e with
  | error f =>
    rw [hr] at h
    obtain ⟨er, rfl, rfl⟩ := told_fail.1 h
    exact .printOf (complains_of_eval cfg σ e er hr)
  | ok v =>
    have hev := ev_of_eval cfg σ e v hr
    rw [hr] at h
    simp only at h
    cases hp : printText cfg v with
    | ok t =>
      rw [hp] at h
      obtain ⟨rfl, h0⟩ := write_told h
      exact .printFull hev (print_rule cfg hp) h0
    | error f =>
      rw [hp] at h
      obtain ⟨er, rfl, rfl⟩ := told_fail.1 h
      unfold printText at hp
      split at hp
      · obtain ⟨b, v, a, rfl, h1, h2, h3⟩ := asHist_tells ⟨er, hp, rfl⟩
        rw [h3]
        exact .printNoDiagram hev h1 h2
      · rw [raw_string] at hp; simp at hp
      · obtain ⟨t, ht⟩ := C42_display_total v
        rw [ht] at hp; simp at hp

theorem expr_told {σ : State} {e : Expr} {m : Option Str} (h : Told (evalExprStmt cfg σ e).2 m) :
    Fails (world cfg) (complaints cfg) (.expr e) σ m := by
  unfold evalExprStmt at h
  cases hr : evalExpr cfg σ e with
  | error f =>
    rw [hr] at h
    obtain ⟨er, rfl, rfl⟩ := told_fail.1 h
    exact .exprOf (complains_of_eval cfg σ e er hr)
  | ok v =>
    have hev := ev_of_eval cfg σ e v hr
    rw [hr] at h
    simp only at h
    by_cases hi : cfg.interactive = true
    · rw [if_pos hi] at h
      obtain ⟨t, ht⟩ := C42_display_total v
      rw [ht] at h
      obtain ⟨rfl, h0⟩ := write_told h
      exact .exprFull hi hev ht h0
    · rw [if_neg hi] at h
      obtain ⟨_, h, _⟩ := h; simp at h

theorem loop_told (c : Expr) (b : List Stmt)
    (hb : ∀ st m, Told (evalStmts cfg b st).2 m → FailsAll (world cfg) (complaints cfg) b st m) (m : Option Str) :
    ∀ (n : Nat) (σ : State), Told (whileLoop (fun st => evalCond cfg st c) (evalStmts cfg b) n σ).2 m →
      LoopFails (world cfg) (complaints cfg) c b σ m := by
  intro n
  induction n with
  | zero => intro σ h; exact absurd rfl (told_not_diverge h)
  | succ n ih =>
    intro σ h
    unfold whileLoop at h
    cases hc : evalCond cfg σ c with
    | error f =>
      simp only [hc] at h
      rw [told_of_tells (α := Bool), ← hc] at h
      exact .cond (cond_told cfg h)
    | ok t =>
      have hev := cond_rule cfg hc
      cases t with
      | false => simp only [hc] at h; obtain ⟨_, h, _⟩ := h; simp at h
      | true =>
        simp only [hc] at h
        have h1 := stmts_rule cfg b σ
        have h2 := hb σ m
        generalize evalStmts cfg b σ = q at h1 h2 h
        obtain ⟨σ₁, r⟩ := q
        cases r with
        | ok => exact .later hev (h1 (by simp)) (.inl rfl) (ih σ₁ h)
        | cont => exact .later hev (h1 (by simp)) (.inr rfl) (ih σ₁ h)
        | brk => obtain ⟨_, h, _⟩ := h; simp at h
        | quit => obtain ⟨_, h, _⟩ := h; simp at h
        | fail f => exact .body hev (h2 h)

theorem visit_told (x : Str) (b : List Stmt)
    (hb : ∀ st m, Told (evalStmts cfg b st).2 m → FailsAll (world cfg) (complaints cfg) b st m) (m : Option Str) :
    ∀ (xs : List Value) (σ : State), σ.vars ≠ [] → Told (forLoop x (evalStmts cfg b) xs σ).2 m →
      VisitFails (world cfg) (complaints cfg) x b xs σ m := by
  intro xs
  induction xs with
  | nil => intro σ _ h; obtain ⟨_, h, _⟩ := h; simp [forLoop] at h
  | cons v xs ih =>
    intro σ hv h
    obtain ⟨vs, hi⟩ := insert_ok σ.vars x v hv
    unfold forLoop at h
    simp only [hi] at h
    have ha := insert_iff.1 hi
    have hne := assigns_ne ha
    have h1 := stmts_rule cfg b { σ with vars := vs }
    have h2 := evalStmts_rel (gained_closed cfg) b (allT_true b) { σ with vars := vs }
    have h3 := hb { σ with vars := vs } m
    generalize evalStmts cfg b { σ with vars := vs } = q at h1 h2 h3 h
    obtain ⟨σ₁, r⟩ := q
    have hne1 : σ₁.vars ≠ [] := gained_ne_nil h2 hne
    cases r with
    | ok => exact .later ha (h1 (by simp)) (.inl rfl) (ih σ₁ hne1 h)
    | cont => exact .later ha (h1 (by simp)) (.inr rfl) (ih σ₁ hne1 h)
    | brk => obtain ⟨_, h, _⟩ := h; simp at h
    | quit => obtain ⟨_, h, _⟩ := h; simp at h
    | fail f => exact .body ha (h3 h)

mutual
theorem stmt_told : ∀ (s : Stmt) (σ : State) (m : Option Str), Told (evalStmt cfg s σ).2 m →
    Fails (world cfg) (complaints cfg) s σ m
  | .assign l r, σ, m, h => by rw [evalStmt] at h; exact assign_told cfg h
  | .ite c t f, σ, m, h => by
    rw [evalStmt_ite, (inScope_closes (σ := σ) (iteBody_gained cfg c t f)).2] at h
    have ht := stmts_told t (opened σ) m
    have hf := stmts_told f (opened σ) m
    unfold iteBody at h
    cases hc : evalCond cfg (opened σ) c with
    | error e =>
      simp only [hc] at h
      rw [told_of_tells (α := Bool), ← hc] at h
      exact .ifCond (cond_told cfg h)
    | ok b =>
      have hev := cond_rule cfg hc
      cases b with
      | true => simp only [hc] at h; exact .ifTrue hev (ht h)
      | false => simp only [hc] at h; exact .ifFalse hev (hf h)
  | .while c b, σ, m, h => by
    rw [evalStmt] at h
    rw [(inScope_closes (σ := σ)
      (body := fun st => whileLoop (fun st => evalCond cfg st c) (evalStmts cfg b) cfg.fuel st)
      (fun st => whileLoop_rel (gained_closed cfg) _ _
        (fun st => evalStmts_rel (gained_closed cfg) b (allT_true b) st) _ st)).2] at h
    exact .while (loop_told cfg c b (fun st m => stmts_told b st m) m cfg.fuel (opened σ) h)
  | .for x r b, σ, m, h => by
    have hb := fun st m => stmts_told b st m
    rw [evalStmt, (inScope_closes (σ := σ) (body := evalFor cfg x r (evalStmts cfg b))
      (fun st => evalFor_rel (gained_closed cfg) x r trivial _
        (fun st => evalStmts_rel (gained_closed cfg) b (allT_true b) st) st)).2] at h
    by_cases hx : ∃ y, x = .ident y
    · obtain ⟨x, rfl⟩ := hx
      unfold evalFor at h
      simp only at h
      cases hr : evalExpr cfg (opened σ) r with
      | error f =>
        rw [hr] at h
        obtain ⟨er, rfl, rfl⟩ := told_fail.1 h
        exact .forRange (complains_of_eval cfg _ r er hr)
      | ok v =>
        have hev := ev_of_eval cfg _ r v hr
        rw [hr] at h
        simp only at h
        cases hv : v.asVec with
        | error f =>
          rw [hv] at h
          obtain ⟨er, rfl, rfl⟩ := told_fail.1 h
          obtain ⟨h1, h2⟩ := asVec_err hv
          rw [h2]
          exact .forKind hev h1
        | ok xs =>
          rw [hv] at h
          obtain ⟨k, rfl⟩ := asVec_inv hv
          exact .forBody hev (visit_told cfg x b hb m xs (opened σ) (by simp [opened]) h)
    · have hx' : ∀ y, x ≠ .ident y := fun y hy => hx ⟨y, hy⟩
      have h : Told (.fail (.err (.notIdentifier s!' "Variable in for loop must be an identifier"))) m := by
        cases x with
        | ident y => exact absurd rfl (hx' y)
        | _ => exact h
      obtain ⟨er, h0, h1⟩ := told_fail.1 h
      have h0 := Fail.err.inj h0
      subst h0
      subst h1
      exact .forNoName hx'
  | .brk, σ, m, h => by rw [evalStmt] at h; obtain ⟨_, h, _⟩ := h; simp at h
  | .cont, σ, m, h => by rw [evalStmt] at h; obtain ⟨_, h, _⟩ := h; simp at h
  | .help, σ, m, h => by
    rw [evalStmt, help_rule] at h
    obtain ⟨rfl, h0⟩ := write_told h
    exact .help h0
  | .quit, σ, m, h => by rw [evalStmt] at h; obtain ⟨_, h, _⟩ := h; simp at h
  | .filesystem e, σ, m, h => by rw [evalStmt] at h; exact filesystem_told cfg h
  | .print e, σ, m, h => by rw [evalStmt] at h; exact print_told cfg h
  | .expr e, σ, m, h => by rw [evalStmt] at h; exact expr_told cfg h
theorem stmts_told : ∀ (p : List Stmt) (σ : State) (m : Option Str), Told (evalStmts cfg p σ).2 m →
    FailsAll (world cfg) (complaints cfg) p σ m
  | [], σ, m, h => by rw [evalStmts] at h; obtain ⟨_, h, _⟩ := h; simp at h
  | s :: ss, σ, m, h => by
    rw [evalStmts] at h
    have h1 := stmt_rule cfg s σ
    have h2 := stmt_told s σ m
    generalize evalStmt cfg s σ = q at h1 h2 h
    obtain ⟨σ₁, r⟩ := q
    cases r with
    | ok => exact .later (h1 (by simp)) (stmts_told ss σ₁ m h)
    | brk => obtain ⟨_, h, _⟩ := h; simp at h
    | cont => obtain ⟨_, h, _⟩ := h; simp at h
    | quit => obtain ⟨_, h, _⟩ := h; simp at h
    | fail f => exact .here (h2 h)
end

/-! ### what the rules say, the evaluator says -/

/-- from some bound on, a failure with this text -/
def LateS (R : Nat → State × IRes) (m : Option Str) : Prop := ∃ n, ∀ k, n ≤ k → Told (R k).2 m

variable {cfg}

theorem lateS_now {R : Nat → State × IRes} {m : Option Str} (h : ∀ k, Told (R k).2 m) : LateS R m := ⟨0, fun k _ => h k⟩

theorem lateS_ev {σ : State} {e : Expr} {v : Value} (he : Ev (world cfg) σ e v) {R R' : Nat → State × IRes}
    {m : Option Str} (h : LateS R' m) (hR : ∀ k, evalExpr (cfg.steps k) σ e = .ok v → R k = R' k) : LateS R m := by
  obtain ⟨n, hn⟩ := ev_gives he
  obtain ⟨n', hn'⟩ := h
  exact ⟨max n n', fun k hk => by rw [hR k (hn k (by omega))]; exact hn' k (by omega)⟩

theorem lateS_fails {σ : State} {e : Expr} {m : Option Str} (h : Complains (world cfg) (complaints cfg) σ e m)
    {R : Nat → State × IRes} (hR : ∀ k f, evalExpr (cfg.steps k) σ e = .error f → (R k).2 = .fail f) : LateS R m := by
  obtain ⟨n, hn⟩ := late_says h
  refine ⟨n, fun k hk => ?_⟩
  obtain ⟨er, h1, h2⟩ := hn k hk
  exact ⟨er, hR k _ h1, h2⟩

theorem late_cond {σ : State} {c : Expr} {m : Option Str} (h : CondFails (world cfg) (complaints cfg) σ c m) :
    Late (fun k => evalCond (cfg.steps k) σ c) m := by
  cases h with
  | fails h =>
    obtain ⟨n, hn⟩ := late_says h
    exact ⟨n, fun k hk => bind_tells (hn k hk)⟩
  | kind h hv =>
    obtain ⟨n, hn⟩ := ev_gives h
    refine ⟨n, fun k hk => ?_⟩
    unfold evalCond
    dsimp only
    rw [hn k hk]
    exact ⟨_, not_boolean hv, text_mismatch _ _⟩

theorem lateS_scope {R B : Nat → State × IRes} {m : Option Str} (hR : ∀ k, (R k).2 = (B k).2) (h : LateS B m) :
    LateS R m := by
  obtain ⟨n, hn⟩ := h
  exact ⟨n, fun k hk => by rw [hR k]; exact hn k hk⟩

theorem storeFails_late {σ : State} {l : Expr} {v : Value} {m : Option Str}
    (h : StoreFails (world cfg) (complaints cfg) σ l m) : (∀ x, l ≠ .ident x) ∧
      Late (fun k => modifyLhs (cfg.steps k) σ l (fun _ => .ok v)) m := by
  cases h with
  | target hl h => exact ⟨hl, noTarget_lhs h _⟩
  | blocked h1 h2 h3 =>
    refine ⟨?_, stuck_lhs h1 h2 (stuck_const.2 h3)⟩
    rintro x rfl
    cases h1
    cases h3

theorem is_next {q : State × IRes} {σ : State} {o : Outcome} (h : Is q σ o) (ho : o = .done ∨ o = .cont) :
    q = (σ, .ok) ∨ q = (σ, .cont) := by
  rcases ho with rfl | rfl
  · exact .inl (is_ok h)
  · exact .inr (is_cont h)

theorem next_not_failed {o : Outcome} (ho : o = .done ∨ o = .cont) : o ≠ .failed := by
  rcases ho with rfl | rfl <;> simp

mutual
theorem told_stmt : ∀ {s : Stmt} {σ : State} {m : Option Str}, Fails (world cfg) (complaints cfg) s σ m →
    LateS (fun k => evalStmt (cfg.steps k) s σ) m
  | .assign l r, σ, _, .assignFrom h => lateS_fails h fun k f hf => by
      rw [evalStmt, evalAssign, hf]
  | .assign l r, σ, m, .assignTo (v := v) he h => by
    obtain ⟨hl, n, hn⟩ := storeFails_late (v := v) h
    refine lateS_ev he (R' := fun k => match modifyLhs (cfg.steps k) σ l (fun _ => .ok v) with
        | .ok vs => ({ σ with vars := vs }, .ok)
        | .error e => (σ, .fail e)) ⟨n, fun k hk => ?_⟩ fun k hk => ?_
    · obtain ⟨er, h1, h2⟩ := hn k hk
      dsimp only at h1 ⊢
      rw [h1]
      exact ⟨er, rfl, h2⟩
    · rw [evalStmt, evalAssign, hk]
      cases l with
      | ident x => exact absurd rfl (hl x)
      | _ => rfl
  | .ite c t f, σ, m, .ifCond h => by
    refine lateS_scope (B := fun k => iteBody (cfg.steps k) c t f (opened σ)) (fun k => ?_) ?_
    · rw [evalStmt_ite]; exact (inScope_closes (iteBody_gained (cfg.steps k) c t f)).2
    · obtain ⟨n, hn⟩ := late_cond h
      refine ⟨n, fun k hk => ?_⟩
      obtain ⟨er, h1, h2⟩ := hn k hk
      dsimp only at h1 ⊢
      unfold iteBody
      rw [h1]
      exact ⟨er, rfl, h2⟩
  | .ite c t f, σ, m, .ifTrue he h => by
    refine lateS_scope (B := fun k => iteBody (cfg.steps k) c t f (opened σ)) (fun k => ?_) ?_
    · rw [evalStmt_ite]; exact (inScope_closes (iteBody_gained (cfg.steps k) c t f)).2
    · exact lateS_ev he (told_stmts h) fun k hk => by unfold iteBody; rw [cond_of_ev hk]
  | .ite c t f, σ, m, .ifFalse he h => by
    refine lateS_scope (B := fun k => iteBody (cfg.steps k) c t f (opened σ)) (fun k => ?_) ?_
    · rw [evalStmt_ite]; exact (inScope_closes (iteBody_gained (cfg.steps k) c t f)).2
    · exact lateS_ev he (told_stmts h) fun k hk => by unfold iteBody; rw [cond_of_ev hk]
  | .while c b, σ, m, .while h => by
    refine lateS_scope (B := fun m => whileLoop (fun st => evalCond (cfg.steps m) st c)
      (evalStmts (cfg.steps m) b) m (opened σ)) (fun k => ?_) ?_
    · rw [evalStmt]
      exact (inScope_closes (body := fun st => whileLoop (fun st => evalCond (cfg.steps k) st c)
          (evalStmts (cfg.steps k) b) k st) (fun st => whileLoop_rel (gained_closed (cfg.steps k)) _ _
            (fun st => evalStmts_rel (gained_closed (cfg.steps k)) b (allT_true b) st) _ st)).2
    · obtain ⟨n, hn⟩ := told_loop h
      exact ⟨n, fun k hk => hn k k hk hk⟩
  | .for x r b, σ, _, .forNoName h => by
    refine lateS_scope (B := fun m => evalFor (cfg.steps m) x r (evalStmts (cfg.steps m) b) (opened σ))
      (fun k => ?_) (lateS_now fun k => ?_)
    · rw [evalStmt]
      exact (inScope_closes (fun st => evalFor_rel (gained_closed (cfg.steps k)) _ r trivial _
          (fun st => evalStmts_rel (gained_closed (cfg.steps k)) b (allT_true b) st) st)).2
    · cases x with
      | ident y => exact absurd rfl (h y)
      | _ => exact ⟨_, rfl, rfl⟩
  | .for (.ident x) r b, σ, m, .forRange h => by
    refine lateS_scope (B := fun m => evalFor (cfg.steps m) (.ident x) r (evalStmts (cfg.steps m) b) (opened σ))
      (fun k => ?_) (lateS_fails h fun k f hf => ?_)
    · rw [evalStmt]
      exact (inScope_closes (fun st => evalFor_rel (gained_closed (cfg.steps k)) _ r trivial _
          (fun st => evalStmts_rel (gained_closed (cfg.steps k)) b (allT_true b) st) st)).2
    · simp only [evalFor, hf]
  | .for (.ident x) r b, σ, _, .forKind he hv => by
    refine lateS_scope (B := fun m => evalFor (cfg.steps m) (.ident x) r (evalStmts (cfg.steps m) b) (opened σ))
      (fun k => ?_) ?_
    · rw [evalStmt]
      exact (inScope_closes (fun st => evalFor_rel (gained_closed (cfg.steps k)) _ r trivial _
          (fun st => evalStmts_rel (gained_closed (cfg.steps k)) b (allT_true b) st) st)).2
    · obtain ⟨n, hn⟩ := ev_gives he
      refine ⟨n, fun k hk => ?_⟩
      simp only [evalFor, hn k hk, not_array hv]
      exact ⟨_, rfl, text_mismatch _ _⟩
  | .for (.ident x) r b, σ, m, .forBody he h => by
    refine lateS_scope (B := fun m => evalFor (cfg.steps m) (.ident x) r (evalStmts (cfg.steps m) b) (opened σ))
      (fun k => ?_) (lateS_ev he (told_visits h) fun k hk => ?_)
    · rw [evalStmt]
      exact (inScope_closes (fun st => evalFor_rel (gained_closed (cfg.steps k)) _ r trivial _
          (fun st => evalStmts_rel (gained_closed (cfg.steps k)) b (allT_true b) st) st)).2
    · simp only [evalFor, hk, Value.asVec]
  | .help, σ, _, .help h => lateS_now fun k => by rw [evalStmt, help_rule]; exact outputs_told h
  | .filesystem e, σ, _, .filesystemOf h => lateS_fails h fun k f hf => by
      rw [evalStmt, evalFilesystem, hf]
  | .filesystem e, σ, _, .filesystemKind (v := v) he hv => by
    refine lateS_ev he (R' := fun _ => (σ, .fail (.err (.typeMismatch s!' "string" v.shortDisplay))))
      (lateS_now fun k => ⟨_, rfl, text_mismatch _ _⟩) fun k hk => ?_
    rw [evalStmt, evalFilesystem, hk]
    cases v with
    | str s => exact absurd rfl (hv s)
    | _ => rfl
  | .filesystem e, σ, _, .filesystem (s := s) he h => by
    obtain ⟨er, h1, h2⟩ := h
    refine lateS_ev he (R' := fun _ => (σ, .fail (.err er))) (lateS_now fun k => ⟨_, rfl, h2⟩) fun k hk => ?_
    have h1 : Fs.new (cfg.steps k).host (s.flatMap byteText) = .error (.err er) := h1
    rw [evalStmt, evalFilesystem, hk]
    simp only [C41_string_text_bytewise, h1]
  | .print e, σ, _, .printOf h => lateS_fails h fun k f hf => by
      rw [evalStmt, evalPrint, hf]
  | .print e, σ, _, .printNoDiagram (before := before) (v := v) (after := after) he hb hv => by
    obtain ⟨n, hn⟩ := ev_gives he
    refine ⟨n, fun k hk => ?_⟩
    obtain ⟨er, h1, h2⟩ := hist_told (b := (cfg.steps k).build) (fuel := (cfg.steps k).fuel) (after := after) hb hv
    dsimp only
    rw [evalStmt, evalPrint, hn k hk]
    simp only [printText, h1]
    exact ⟨er, rfl, h2⟩
  | .print e, σ, _, .printFull he hp h => by
    obtain ⟨n, hn⟩ := ev_gives he
    obtain ⟨n', hn'⟩ := rule_print hp
    refine ⟨max n n', fun k hk => ?_⟩
    dsimp only
    rw [evalStmt, evalPrint, hn k (by omega)]
    simp only [hn' k (by omega)]
    exact outputs_told h
  | .expr e, σ, _, .exprOf h => lateS_fails h fun k f hf => by
      rw [evalStmt, evalExprStmt, hf]
  | .expr e, σ, _, .exprFull (v := v) (t := t) hi he ht h => by
    refine lateS_ev he (R' := fun _ => σ.write (t ++ ['\n'])) (lateS_now fun k => outputs_told h) fun k hk => ?_
    have hi : (cfg.steps k).interactive = true := hi
    have ht : v.display = .ok t := ht
    rw [evalStmt, evalExprStmt, hk]
    simp only [hi, if_true, ht]
theorem told_stmts : ∀ {p : List Stmt} {σ : State} {m : Option Str}, FailsAll (world cfg) (complaints cfg) p σ m →
    LateS (fun k => evalStmts (cfg.steps k) p σ) m
  | s :: ss, σ, m, .here h => by
    obtain ⟨n, hn⟩ := told_stmt h
    refine ⟨n, fun k hk => ?_⟩
    obtain ⟨er, h1, h2⟩ := hn k hk
    dsimp only at h1 ⊢
    rw [evalStmts]
    generalize evalStmt (cfg.steps k) s σ = q at h1
    obtain ⟨σ₁, r⟩ := q
    simp only at h1
    subst h1
    exact ⟨er, rfl, h2⟩
  | s :: ss, σ, m, .later hr h => by
    obtain ⟨n, hn⟩ := (meets_stmt hr).2 (by simp)
    obtain ⟨n', hn'⟩ := told_stmts h
    refine ⟨max n n', fun k hk => ?_⟩
    have h1 := is_ok (hn k (by omega))
    dsimp only at h1 ⊢
    rw [evalStmts, h1]
    exact hn' k (by omega)
theorem told_loop : ∀ {c : Expr} {b : List Stmt} {σ : State} {m : Option Str},
    LoopFails (world cfg) (complaints cfg) c b σ m →
    ∃ n, ∀ i k, n ≤ i → n ≤ k →
      Told (whileLoop (fun st => evalCond (cfg.steps i) st c) (evalStmts (cfg.steps i) b) k σ).2 m
  | c, b, σ, m, .cond h => by
    obtain ⟨n, hn⟩ := late_cond h
    refine ⟨n + 1, fun i k hi hk => ?_⟩
    obtain ⟨k, rfl⟩ : ∃ j, k = j + 1 := ⟨k - 1, by omega⟩
    obtain ⟨er, h1, h2⟩ := hn i (by omega)
    dsimp only at h1
    unfold whileLoop
    simp only [h1]
    exact ⟨er, rfl, h2⟩
  | c, b, σ, m, .body he h => by
    obtain ⟨n, hn⟩ := ev_gives he
    obtain ⟨n', hn'⟩ := told_stmts h
    refine ⟨n + n' + 1, fun i k hi hk => ?_⟩
    obtain ⟨k, rfl⟩ : ∃ j, k = j + 1 := ⟨k - 1, by omega⟩
    have h1 := hn' i (by omega)
    dsimp only at h1
    unfold whileLoop
    simp only [cond_of_ev (hn i (by omega))]
    generalize evalStmts (cfg.steps i) b σ = q at h1
    obtain ⟨σ₁, r⟩ := q
    obtain ⟨er, h1, h2⟩ := h1
    simp only at h1
    subst h1
    exact ⟨er, rfl, h2⟩
  | c, b, σ, m, .later he hr ho h => by
    obtain ⟨n, hn⟩ := ev_gives he
    obtain ⟨n₁, hn₁⟩ := (meets_stmts hr).2 (next_not_failed ho)
    obtain ⟨n₂, hn₂⟩ := told_loop h
    refine ⟨n + n₁ + n₂ + 1, fun i k hi hk => ?_⟩
    obtain ⟨k, rfl⟩ : ∃ j, k = j + 1 := ⟨k - 1, by omega⟩
    have h1 := hn₂ i k (by omega) (by omega)
    rw [whileLoop]
    simp only [cond_of_ev (hn i (by omega))]
    rcases is_next (hn₁ i (by omega)) ho with h2 | h2
    · dsimp only at h2; rw [h2]; exact h1
    · dsimp only at h2; rw [h2]; exact h1
theorem told_visits : ∀ {x : Str} {b : List Stmt} {xs : List Value} {σ : State} {m : Option Str},
    VisitFails (world cfg) (complaints cfg) x b xs σ m → LateS (fun k => forLoop x (evalStmts (cfg.steps k) b) xs σ) m
  | x, b, v :: xs, σ, m, .body (vs := vs) ha h => by
    obtain ⟨n, hn⟩ := told_stmts h
    refine ⟨n, fun k hk => ?_⟩
    have h1 := hn k hk
    dsimp only at h1 ⊢
    rw [forLoop, insert_iff.2 ha]
    simp only
    generalize evalStmts (cfg.steps k) b { σ with vars := vs } = q at h1
    obtain ⟨σ₁, r⟩ := q
    obtain ⟨er, h1, h2⟩ := h1
    simp only at h1
    subst h1
    exact ⟨er, rfl, h2⟩
  | x, b, v :: xs, σ, m, .later (vs := vs) ha hr ho h => by
    obtain ⟨n, hn⟩ := (meets_stmts hr).2 (next_not_failed ho)
    obtain ⟨n', hn'⟩ := told_visits h
    refine ⟨max n n', fun k hk => ?_⟩
    have h1 := hn' k (by omega)
    dsimp only at h1 ⊢
    rw [forLoop, insert_iff.2 ha]
    rcases is_next (hn k (by omega)) ho with h2 | h2
    · dsimp only at h2 ⊢; rw [h2]; exact h1
    · dsimp only at h2 ⊢; rw [h2]; exact h1
end

/-- the message of a failing program is determined -/
theorem failsAll_unique {p : List Stmt} {σ : State} {m m' : Option Str}
    (h : FailsAll (world cfg) (complaints cfg) p σ m) (h' : FailsAll (world cfg) (complaints cfg) p σ m') : m = m' := by
  obtain ⟨n, hn⟩ := told_stmts h
  obtain ⟨n', hn'⟩ := told_stmts h'
  obtain ⟨er, h1, rfl⟩ := hn (max n n') (by omega)
  obtain ⟨er', h1', rfl⟩ := hn' (max n n') (by omega)
  dsimp only at h1 h1'
  rw [h1] at h1'
  simp only [IRes.fail.injEq, Fail.err.injEq] at h1'
  rw [h1']

end Btrd
