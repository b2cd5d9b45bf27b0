/-
C67: the bound on loop iterations does not matter once it suffices. C71: overflow checks only add panics.
-/
import Verif.Lemmas.Approx
import Verif.Props.Analysis

namespace Btrd
open Spec

/-- the same interpreter with another bound on loop iterations -/
def Cfg.steps (cfg : Cfg) (n : Nat) : Cfg := { cfg with fuel := n }

/-- the same interpreter built with or without overflow checks -/
def Cfg.checks (cfg : Cfg) (c : Bool) : Cfg := { cfg with build := ⟨c⟩ }

theorem finer_steps (cfg : Cfg) {n n' : Nat} (h : n ≤ n') : Finer (· = .diverge) (cfg.steps n) (cfg.steps n') :=
  ⟨.inl rfl, .inr ⟨h, rfl⟩, rfl, rfl⟩

theorem finer_checks (cfg : Cfg) : Finer (· = .panic) (cfg.checks true) (cfg.checks false) :=
  ⟨.inr ⟨rfl, rfl⟩, .inl rfl, rfl, rfl⟩

/-- **C67** A program that finishes within `n` iterations per loop has the same effects and the same
result whenever more are allowed. -/
theorem C67_more_steps (cfg : Cfg) (n n' : Nat) (h : n ≤ n') (p : List Stmt) (st : State)
    (hd : (evalProgram (cfg.steps n) p st).2 ≠ .fail .diverge) :
    evalProgram (cfg.steps n') p st = evalProgram (cfg.steps n) p st := by
  rcases apx_program (finer_steps cfg h) p st with h | ⟨f, rfl, h⟩
  · exact h.symm
  · exact absurd h hd

/-- **C67** So a program has at most one outcome, whatever the bound. -/
theorem C67_one_outcome (cfg : Cfg) (n n' : Nat) (p : List Stmt) (st : State)
    (hd : (evalProgram (cfg.steps n) p st).2 ≠ .fail .diverge)
    (hd' : (evalProgram (cfg.steps n') p st).2 ≠ .fail .diverge) :
    evalProgram (cfg.steps n) p st = evalProgram (cfg.steps n') p st := by
  rcases Nat.le_total n n' with h | h
  · exact (C67_more_steps cfg n n' h p st hd).symm
  · exact C67_more_steps cfg n' n h p st hd'

/-- **C67** The same for the value of an expression. -/
theorem C67_expression (cfg : Cfg) (n n' : Nat) (h : n ≤ n') (e : Expr) (st : State)
    (hd : evalExpr (cfg.steps n) st e ≠ .error .diverge) :
    evalExpr (cfg.steps n') st e = evalExpr (cfg.steps n) st e := by
  rcases apx_evalExpr (finer_steps cfg h) st e with h | ⟨f, rfl, h⟩
  · exact h.symm
  · exact absurd h hd

/-- **C67** And for whole sessions: every variable, all output, and whether the session has ended. -/
theorem C67_session (cfg : Cfg) (n n' : Nat) (h : n ≤ n') (rs : RState) (events : List ReplEvent)
    (hd : (replRun (cfg.steps n) rs events).2 ≠ .crashed .diverge) :
    replRun (cfg.steps n') rs events = replRun (cfg.steps n) rs events := by
  rcases apx_session (finer_steps cfg h) (fun f hf => .inr hf) events rs with h | ⟨f, rfl, h⟩
  · exact h.symm
  · exact absurd h hd

/-- **C67** And for scripts. -/
theorem C67_script (cfg : Cfg) (n n' : Nat) (h : n ≤ n') (room : Option Nat) (contents : Str)
    (hd : (scriptRun (cfg.steps n) room contents).2 ≠ .fail .diverge) :
    scriptRun (cfg.steps n') room contents = scriptRun (cfg.steps n) room contents := by
  have hf : Finer (· = .diverge) ({ cfg.steps n with interactive := false }) ({ cfg.steps n' with interactive := false }) :=
    ⟨.inl rfl, .inr ⟨h, rfl⟩, rfl, rfl⟩
  rcases apx_runtime hf (RState.new cfg room) (stripComments contents) with h | ⟨f, rfl, h⟩
  · exact h.symm
  · exact absurd h hd

/-- a loop of three iterations needs four tests of its condition: with three it does not finish, with four
it does -/
example : (evalProgram (demo.steps 3) [.assign (.ident s!' "n") (.int 0),
    .while (.bin .lt (.ident s!' "n") (.int 3)) [.assign (.ident s!' "n") (.bin .plus (.ident s!' "n") (.int 1))]]
    (State.new demo none)).2 = .fail .diverge := by decide +kernel
example : (evalProgram (demo.steps 4) [.assign (.ident s!' "n") (.int 0),
    .while (.bin .lt (.ident s!' "n") (.int 3)) [.assign (.ident s!' "n") (.bin .plus (.ident s!' "n") (.int 1))]]
    (State.new demo none)).2 = .ok := by decide +kernel

/-- **C71** A session under a build with overflow checks is, in every effect and result, the session
under a build without, unless it dies in a panic. -/
theorem C71_session (cfg : Cfg) (rs : RState) (events : List ReplEvent) :
    replRun (cfg.checks true) rs events = replRun (cfg.checks false) rs events ∨
    (replRun (cfg.checks true) rs events).2 = .crashed .panic := by
  rcases apx_session (finer_checks cfg) (fun f hf => .inl hf) events rs with h | ⟨f, rfl, h⟩
  · exact .inl h
  · exact .inr h

/-- **C71** The same for one program and for one expression. -/
theorem C71_program (cfg : Cfg) (p : List Stmt) (st : State) :
    evalProgram (cfg.checks true) p st = evalProgram (cfg.checks false) p st ∨
    (evalProgram (cfg.checks true) p st).2 = .fail .panic := by
  rcases apx_program (finer_checks cfg) p st with h | ⟨f, rfl, h⟩
  · exact .inl h
  · exact .inr h

theorem C71_expression (cfg : Cfg) (e : Expr) (st : State) :
    evalExpr (cfg.checks true) st e = evalExpr (cfg.checks false) st e ∨
    evalExpr (cfg.checks true) st e = .error .panic := by
  rcases apx_evalExpr (finer_checks cfg) st e with h | ⟨f, rfl, h⟩
  · exact .inl h
  · exact .inr h

/-- **C71** With the release build never panicking (C70), every panic of a debug session is at an overflow
check: the same session under a release build goes on. -/
theorem C71_debug_panics_are_overflow_checks (cfg : Cfg) (room : Option Nat) (events : List ReplEvent)
    (h : (replRun (cfg.checks true) (RState.new cfg room) events).2 = .crashed .panic) :
    replRun (cfg.checks false) (RState.new cfg room) events ≠ replRun (cfg.checks true) (RState.new cfg room) events := by
  intro he
  have := C65_release_never_dies (cfg.checks false) rfl room events
  rw [show RState.new (cfg.checks false) room = RState.new cfg room from rfl, he] at this
  exact this h

/-- such panics exist: negating the least integer -/
example : (replRun (demo.checks true) (RState.new demo none) [.line s!' "x = -(1 << 127)"]).2 = .crashed .panic := by
  decide +kernel
example : (replRun (demo.checks false) (RState.new demo none) [.line s!' "x = -(1 << 127)"]).2 = .running := by
  decide +kernel

end Btrd
