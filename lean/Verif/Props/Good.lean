/-
C23: all integers stay within 128 bits; C42 for every value of a session.
-/
import Verif.Lemmas.Good
import Verif.Lemmas.ParserRes
import Verif.Lemmas.Runtime
import Verif.Props.Display

namespace Btrd
open Spec

theorem foldl_set_mem {α T : Type} (key : α → Str) (val : α → T) : ∀ (l : List α) (s : Scope T) (x : Str) (v : T),
    (l.foldl (fun s a => s.set (key a) (val a)) s) x = some v → s x = some v ∨ ∃ a ∈ l, v = val a := by
  intro l
  induction l with
  | nil => intro s x v h; exact .inl h
  | cons a l ih =>
    intro s x v h
    simp only [List.foldl_cons] at h
    rcases ih _ _ _ h with h | ⟨b, hb, rfl⟩
    · simp only [Scope.set] at h
      split at h
      · simp only [Option.some.injEq] at h
        exact .inr ⟨a, List.mem_cons_self .., h.symm⟩
      · exact .inl h
    · exact .inr ⟨b, List.mem_cons_of_mem _ hb, rfl⟩

set_option maxRecDepth 100000 in
theorem constants_fit : ∀ c ∈ constants, Fits c.2 := by decide

theorem initial_good : GoodVars [initialScope Value.int Value.func] := by
  rw [GoodVars.cons]
  refine ⟨?_, by simp [GoodVars]⟩
  intro x v h
  rcases foldl_set_mem Function.display Value.func functions _ x v h with h | ⟨f, -, rfl⟩
  · rcases foldl_set_mem (fun c : Str × Int => c.1) (fun c => Value.int c.2) constants _ x v h with h | ⟨c, hc, rfl⟩
    · simp [Scope.empty] at h
    · exact good_int.2 (constants_fit c hc)
  · exact good_func f

theorem runtimeEval_good (cfg : Cfg) (rs : RState) (cmd : Str) (h : GoodVars rs.ev.vars) :
    GoodVars (runtimeEval cfg rs cmd).1.ev.vars := by
  rcases runtimeEval_cases cfg rs cmd with ⟨-, he⟩ | ⟨p, e, -, -, he⟩ | ⟨p, hp, -, he⟩ <;> rw [he]
  · exact h
  · exact h
  · exact evalStmts_inv (good_closed cfg) p (parse_literals hp) rs.ev h

theorem session_good (cfg : Cfg) (room : Option Nat) (events : List ReplEvent) :
    GoodVars (replRun cfg (RState.new cfg room) events).1.ev.vars :=
  replRun_inv cfg (fun rs => GoodVars rs.ev.vars) (fun rs cmd h => runtimeEval_good cfg rs cmd h) events _ initial_good

/-- **C23** In every session, after any sequence of inputs, every integer inside every variable of every
scope, at any depth and including disk keys, fits a signed 128-bit integer. -/
theorem C23_session_variables (cfg : Cfg) (room : Option Nat) (events : List ReplEvent) (scope : Scope Value)
    (h : scope ∈ (replRun cfg (RState.new cfg room) events).1.ev.vars) (x : Str) (v : Value)
    (hx : scope x = some v) : AllInts Fits v :=
  (session_good cfg room events scope h x v hx).1

/-- **C23** So does every integer inside the value of every expression evaluated there, provided the
integer literals of the expression do (they always do when it comes from the parser, see below). -/
theorem C23_session_expressions (cfg : Cfg) (room : Option Nat) (events : List ReplEvent) (e : Expr) (v : Value)
    (hl : ∀ i ∈ e.literals, Fits i)
    (h : evalExpr cfg (replRun cfg (RState.new cfg room) events).1.ev e = .ok v) : AllInts Fits v :=
  (evalExpr_good cfg _ (session_good cfg room events) e hl v h).1

/-- **C23** The same in the middle of a program: if it holds before, it holds wherever a prefix of the
program leaves the state. -/
theorem C23_preserved (cfg : Cfg) (input : Str) (p : List Stmt) (hp : parse input = some p) (st : State)
    (h : ∀ scope ∈ st.vars, ∀ x v, scope x = some v → AllInts Fits v ∧ PlainNames v) :
    ∀ scope ∈ (evalStmts cfg p st).1.vars, ∀ x v, scope x = some v → AllInts Fits v ∧ PlainNames v :=
  evalStmts_inv (good_closed cfg) p (parse_literals hp) st h

/-- **C23** Every integer literal of an accepted program fits 128 bits. -/
theorem C23_literals (input : Str) (p : List Stmt) (h : parse input = some p) :
    allE (fun e => ∀ i ∈ e.literals, Fits i) p := parse_literals h

/-- a session that computes at the edge of the range: the least integer, from `<<` -/
example :
    (match (replRun ⟨⟨false⟩, ⟨fun _ => none, fun _ => none, none⟩, true, 10⟩
      (RState.new ⟨⟨false⟩, ⟨fun _ => none, fun _ => none, none⟩, true, 10⟩ none)
      [.line s!' "x = 1 << 127", .line s!' "y = x + 1"]).1.ev.vars.get s!' "x" with
    | some (.int i) => i == -(2 ^ 127)
    | _ => false) = true := by decide +kernel

/-- **C42** In every session, every value of every variable displays as printable ASCII text and line
feeds. -/
theorem C42_session_ascii (cfg : Cfg) (room : Option Nat) (events : List ReplEvent) (x : Str) (v : Value)
    (hx : (replRun cfg (RState.new cfg room) events).1.ev.vars.get x = some v) :
    ∃ t, v.display = .ok t ∧ ∀ c ∈ t, c = '\n' ∨ Printable c := by
  obtain ⟨t, ht⟩ := C42_display_total v
  have := (GoodVars.get (session_good cfg room events) hx).2
  exact ⟨t, ht, C42_display_ascii v this t ht⟩

/-- **C42** The same for the value of any expression. -/
theorem C42_expression_ascii (cfg : Cfg) (room : Option Nat) (events : List ReplEvent) (e : Expr) (v : Value)
    (hl : ∀ i ∈ e.literals, Fits i)
    (h : evalExpr cfg (replRun cfg (RState.new cfg room) events).1.ev e = .ok v) :
    ∃ t, v.display = .ok t ∧ ∀ c ∈ t, c = '\n' ∨ Printable c := by
  obtain ⟨t, ht⟩ := C42_display_total v
  have := (evalExpr_good cfg _ (session_good cfg room events) e hl v h).2
  exact ⟨t, ht, C42_display_ascii v this t ht⟩

end Btrd
