/-
C78: the interpreter runs programs by the rules of `Spec/Rules`.
-/
import Verif.Lemmas.RulesUnique

namespace Btrd
open Spec

/-- **C78** Expressions have the values the rules give them, and no others: a value comes out, for some bound on
the steps, exactly if the rules give it. -/
theorem C78_expression (cfg : Cfg) (σ : State) (e : Expr) (v : Value) :
    (∃ n, evalExpr (cfg.steps n) σ e = .ok v) ↔ Ev (world cfg) σ e v :=
  ⟨fun ⟨n, h⟩ => ev_of_eval (cfg.steps n) σ e v h, fun h => by
    obtain ⟨n, hn⟩ := ev_gives h
    exact ⟨n, hn n (Nat.le_refl n)⟩⟩

/-- **C78** At every bound the evaluation gives this value or reports that it needs more steps; from some bound on
it gives the value. -/
theorem C78_expression_bound (cfg : Cfg) (σ : State) (e : Expr) (v : Value) (h : Ev (world cfg) σ e v) :
    (∀ n, evalExpr (cfg.steps n) σ e = .ok v ∨ evalExpr (cfg.steps n) σ e = .error .diverge) ∧
    ∃ n, ∀ m, n ≤ m → evalExpr (cfg.steps m) σ e = .ok v :=
  ⟨ev_eval h, ev_gives h⟩

/-- the result of a program, for one of the ends of the rules -/
inductive Ends : EvalResult → Outcome → Prop where
  | done : Ends .ok .done
  | quit : Ends .quit .quit
  | failed {f} : f ≠ .diverge → Ends (.fail f) .failed
  /-- `break` or `continue` outside a loop -/
  | brk {f} : f ≠ .diverge → Ends (.fail f) .brk
  | cont {f} : f ≠ .diverge → Ends (.fail f) .cont

theorem ends_kind {r : IRes} (h : r ≠ .fail .diverge) : Ends r.toEvalResult (kind r) := by
  cases r with
  | ok => exact .done
  | quit => exact .quit
  | brk => exact .brk (by simp)
  | cont => exact .cont (by simp)
  | fail f => exact .failed fun e => h (by rw [e])

/-- **C78** A program that comes to an end does so by the rules: same effects, same kind of end. -/
theorem C78_program (cfg : Cfg) (p : List Stmt) (σ σ' : State) (r : EvalResult) (h : evalProgram cfg p σ = (σ', r))
    (hr : r ≠ .fail .diverge) : ∃ o, RunsAll (world cfg) p σ σ' o ∧ Ends r o := by
  unfold evalProgram at h
  simp only [Prod.mk.injEq] at h
  have hd : (evalStmts cfg p σ).2 ≠ .fail .diverge := by
    intro e
    rw [e] at h
    exact hr h.2.symm
  refine ⟨kind (evalStmts cfg p σ).2, ?_, ?_⟩
  · rw [← h.1]; exact stmts_rule cfg p σ hd
  · rw [← h.2]; exact ends_kind hd

/-- **C78** And a program the rules run, runs like that: at every bound it does, or needs more steps. -/
theorem C78_program_rules (cfg : Cfg) (p : List Stmt) (σ σ' : State) (o : Outcome)
    (h : RunsAll (world cfg) p σ σ' o) (n : Nat) :
    ((evalProgram (cfg.steps n) p σ).1 = σ' ∧ Ends (evalProgram (cfg.steps n) p σ).2 o) ∨
      (evalProgram (cfg.steps n) p σ).2 = .fail .diverge := by
  unfold evalProgram
  rcases (meets_stmts h).1 n with ⟨h1, h2⟩ | h1
  · by_cases hd : (evalStmts (cfg.steps n) p σ).2 = .fail .diverge
    · right; simp only [hd, IRes.toEvalResult]
    · left
      refine ⟨h1, ?_⟩
      have := ends_kind hd
      rw [← h2]
      exact this
  · right; simp only [h1, IRes.toEvalResult]

/-- **C78** If they do not make it fail, it does come to its end: from some bound on. -/
theorem C78_program_ends (cfg : Cfg) (p : List Stmt) (σ σ' : State) (o : Outcome) (ho : o ≠ .failed)
    (h : RunsAll (world cfg) p σ σ' o) :
    ∃ n, ∀ m, n ≤ m → (evalProgram (cfg.steps m) p σ).1 = σ' ∧ Ends (evalProgram (cfg.steps m) p σ).2 o := by
  obtain ⟨n, hn⟩ := (meets_stmts h).2 ho
  refine ⟨n, fun m hm => ?_⟩
  obtain ⟨h1, h2⟩ := hn m hm
  refine ⟨h1, ?_⟩
  have hd : (evalStmts (cfg.steps m) p σ).2 ≠ .fail .diverge := by
    intro e
    dsimp only at h2
    rw [e] at h2
    exact ho h2.symm
  have := ends_kind hd
  dsimp only at h2
  rw [h2] at this
  exact this

/-- **C78** The rules leave no choice. -/
theorem C78_deterministic (cfg : Cfg) (p : List Stmt) (σ σ₁ σ₂ : State) (o₁ o₂ : Outcome)
    (h₁ : RunsAll (world cfg) p σ σ₁ o₁) (h₂ : RunsAll (world cfg) p σ σ₂ o₂) : σ₁ = σ₂ ∧ o₁ = o₂ :=
  runsAll_unique h₁ h₂

/-- **C78** Nor for expressions. -/
theorem C78_expression_deterministic (cfg : Cfg) (σ : State) (e : Expr) (v w : Value) (h : Ev (world cfg) σ e v)
    (h' : Ev (world cfg) σ e w) : v = w := ev_unique h h'

/-- **C78** What the rules leave open depends neither on the bound nor, except for overflow of negation, on
anything but the value and the filesystem: the text of a value with printable names is its lines. -/
theorem C78_shows (cfg : Cfg) (v : Value) (h : PlainNames v) (t : Str) :
    (world cfg).shows v t ↔ t = unlines (shown v) := by
  change v.display = .ok t ↔ _
  rw [(C42_display_layout v h).1, Except.ok.injEq]
  exact eq_comm

/-- **C78** A script succeeds, given enough steps, exactly if it parses, the static rules accept it, and the rules
of the language run it to its end or to `quit`. -/
theorem C78_script (cfg : Cfg) (room : Option Nat) (contents : Str) :
    (∃ n, scriptSucceeded (scriptRun (cfg.steps n) room contents).2 = true) ↔
      ∃ p, parse (stripComments contents) = some p ∧
        AcceptedL (fun x => x ∈ constants.map (·.1) ∨ x ∈ functions.map Function.display) False p ∧
        ∃ σ' o, RunsAll (world { cfg with interactive := false }) p (State.new cfg room) σ' o ∧
          (o = .done ∨ o = .quit) := by
  constructor
  · rintro ⟨n, h⟩
    obtain ⟨p, h1, h2, h3⟩ := (C66_success_iff (cfg.steps n) room contents).1 h
    refine ⟨p, h1, h2, ?_⟩
    have hst : State.new (cfg.steps n) room = State.new cfg room := rfl
    rw [hst] at h3
    have hd : (evalProgram { cfg.steps n with interactive := false } p (State.new cfg room)).2 ≠ .fail .diverge := by
      rcases h3 with h3 | h3 <;> rw [h3] <;> simp
    obtain ⟨o, h4, h5⟩ := C78_program { cfg.steps n with interactive := false } p (State.new cfg room) _ _ rfl hd
    refine ⟨_, o, h4, ?_⟩
    have h5 : Ends (evalProgram { cfg.steps n with interactive := false } p (State.new cfg room)).2 o := h5
    have h3 : (evalProgram { cfg.steps n with interactive := false } p (State.new cfg room)).2 = .ok ∨
      (evalProgram { cfg.steps n with interactive := false } p (State.new cfg room)).2 = .quit := h3
    generalize (evalProgram { cfg.steps n with interactive := false } p (State.new cfg room)).2 = r at h5 h3
    rcases h3 with rfl | rfl
    · cases h5; exact .inl rfl
    · cases h5; exact .inr rfl
  · rintro ⟨p, h1, h2, σ', o, h3, ho⟩
    obtain ⟨n, hn⟩ := C78_program_ends { cfg with interactive := false } p _ _ _
      (by rcases ho with rfl | rfl <;> simp) h3
    refine ⟨n, (C66_success_iff (cfg.steps n) room contents).2 ⟨p, h1, h2, ?_⟩⟩
    obtain ⟨-, h5⟩ := hn n (Nat.le_refl n)
    have h5 : Ends (evalProgram { cfg.steps n with interactive := false } p (State.new cfg room)).2 o := h5
    change (evalProgram { cfg.steps n with interactive := false } p (State.new cfg room)).2 = .ok ∨
      (evalProgram { cfg.steps n with interactive := false } p (State.new cfg room)).2 = .quit
    generalize (evalProgram { cfg.steps n with interactive := false } p (State.new cfg room)).2 = r at h5 ⊢
    rcases ho with rfl | rfl
    · cases h5; exact .inl rfl
    · cases h5; exact .inr rfl

/-! ### a program run by hand -/

/-- `i = 0; while i < 2 { i = i + 1; }`, `i` new -/
def countTwo : List Stmt :=
  [.assign (.ident s!' "i") (.int 0),
   .while (.bin .lt (.ident s!' "i") (.int 2)) [.assign (.ident s!' "i") (.bin .plus (.ident s!' "i") (.int 1))]]

/-- a state with one scope, in which `i` has this value -/
def counted (v : Int) : State := ⟨⟨[], none⟩, [bind1 (fun _ => none) s!' "i" (.int v)], none⟩

/-- the same with the scope of the loop -/
def countedIn (v : Int) : State := opened (counted v)

theorem counted_holds (v : Int) : Holds1 s!' "i" (.int v) (countedIn v).vars :=
  .outer rfl (.here (by simp [bind1]))

theorem counted_rebinds (v w : Int) : Rebinds s!' "i" (.int w) (countedIn v).vars (countedIn w).vars := by
  refine .outer rfl ?_
  have : bind1 (bind1 (fun _ => none) s!' "i" (.int v)) s!' "i" (.int w) = bind1 (fun _ => none) s!' "i" (.int w) := by
    funext y; unfold bind1; split <;> rfl
  change Rebinds s!' "i" (.int w) [bind1 (fun _ => none) s!' "i" (.int v)] [bind1 (fun _ => none) s!' "i" (.int w)]
  rw [← this]
  exact .here (by simp [bind1]; exact rfl)

theorem counted_step (W : World) (v : Int) (h : Fits (v + 1)) :
    RunsAll W [.assign (.ident s!' "i") (.bin .plus (.ident s!' "i") (.int 1))] (countedIn v) (countedIn (v + 1)) .done :=
  .next (.assign (.ints (.var (counted_holds v)) (.int 1) (.plus h)) (.var (.old (counted_rebinds v (v + 1))))) .nil

theorem counted_cond (W : World) (v : Int) :
    Ev W (countedIn v) (.bin .lt (.ident s!' "i") (.int 2)) (.bool (decide (v < 2))) :=
  .ints (.var (counted_holds v)) (.int 2) .lt

/-- the rules run it, whatever they leave open -/
theorem countTwo_runs (W : World) : RunsAll W countTwo ⟨⟨[], none⟩, [fun _ => none], none⟩ (counted 2) .done := by
  refine .next (.assign (.int 0) (.var (.new (by simp)))) (.next (.while (σ₁ := countedIn 2) ?_ ⟨_, rfl, rfl, rfl⟩) .nil)
  exact .again (counted_cond W 0) (counted_step W 0 (by unfold Fits; omega)) (.inl rfl)
    (.again (counted_cond W 1) (counted_step W 1 (by unfold Fits; omega)) (.inl rfl) (.over (counted_cond W 2)))

/-- so the interpreter ends with `i` two, given enough steps -/
example : ∃ n, (evalProgram (demo.steps n) countTwo ⟨⟨[], none⟩, [fun _ => none], none⟩).1 = counted 2 := by
  obtain ⟨n, hn⟩ := C78_program_ends demo countTwo _ _ _ (by simp) (countTwo_runs (world demo))
  exact ⟨n, (hn n (Nat.le_refl n)).1⟩

/-- and a failing one: nothing after the failed division is run -/
theorem failing_runs (W : World) (σ : State) :
    RunsAll W [.assign (.ident s!' "i") (.bin .div (.int 1) (.int 0)), .quit] σ σ .failed := by
  refine .stop (.assignFails fun v vs h => ?_) (by simp [Outcome.stops])
  exfalso
  generalize hx : Expr.bin .div (.int 1) (.int 0) = x at h
  cases h <;> simp only [reduceCtorEq, Expr.bin.injEq, false_and] at hx
  case ints h1 h2 h3 =>
    obtain ⟨rfl, rfl, rfl⟩ := hx
    cases h2
    cases h3
    contradiction

/-- a script, end to end -/
example : ∃ n, scriptSucceeded (scriptRun (demo.steps n) none s!' "i = 0; while i < 2 { i = i + 1; } print i;").2 = true :=
  ⟨10, by decide +kernel⟩

end Btrd
