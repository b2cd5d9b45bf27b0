/-
Induction over REPL sessions.
-/
import Verif.Model.Runtime

namespace Btrd

theorem parseError_form (s : Str) : ∃ pos c, parseError s = .parse pos c := by
  unfold parseError
  split <;> exact ⟨_, _, rfl⟩

theorem runtimeEval_cases (cfg : Cfg) (rs : RState) (cmd : Str) :
    (parse cmd = none ∧ runtimeEval cfg rs cmd = (rs, .fail (.err (parseError cmd)))) ∨
    (∃ p e, parse cmd = some p ∧ (analyzeStmts p rs.sem).2 = .error e ∧
      runtimeEval cfg rs cmd = (⟨(analyzeStmts p rs.sem).1, rs.ev⟩, .fail e)) ∨
    (∃ p, parse cmd = some p ∧ (analyzeStmts p rs.sem).2 = .ok () ∧
      runtimeEval cfg rs cmd =
        (⟨(analyzeStmts p rs.sem).1, (evalProgram cfg p rs.ev).1⟩, (evalProgram cfg p rs.ev).2)) := by
  unfold runtimeEval
  cases parse cmd with
  | none => left; exact ⟨rfl, rfl⟩
  | some p =>
    right
    simp only
    generalize hr : analyzeStmts p rs.sem = r
    obtain ⟨sem, r⟩ := r
    cases r with
    | error e => left; exact ⟨p, e, rfl, by rw [hr], by rw [hr]⟩
    | ok u => right; exact ⟨p, rfl, by rw [hr], by rw [hr]⟩

/-- what one event does to the runtime: nothing, or the evaluation of one line -/
theorem replStep_state (cfg : Cfg) (rs : RState) (e : ReplEvent) :
    (replStep cfg rs e).1 = rs ∨ ∃ s, e = .line s ∧
      (replStep cfg rs e).1 = (runtimeEval cfg rs (fixupInput (stripComments s))).1 := by
  cases e with
  | line s =>
    right
    refine ⟨s, rfl, ?_⟩
    unfold replStep
    simp only
    generalize runtimeEval cfg rs (fixupInput (stripComments s)) = r
    obtain ⟨rs', r⟩ := r
    cases r with
    | ok => rfl
    | quit => rfl
    | fail f => cases f <;> rfl
  | interrupted => left; rfl
  | eof => left; rfl
  | otherError => left; rfl

theorem replRun_inv (cfg : Cfg) (I : RState → Prop) (h : ∀ rs cmd, I rs → I (runtimeEval cfg rs cmd).1) :
    ∀ events rs, I rs → I (replRun cfg rs events).1 := by
  intro events
  induction events with
  | nil => intro rs hi; exact hi
  | cons e es ih =>
    intro rs hi
    unfold replRun
    have h1 : I (replStep cfg rs e).1 := by
      rcases replStep_state cfg rs e with h' | ⟨s, _, h'⟩
      · rw [h']; exact hi
      · rw [h']; exact h _ _ hi
    generalize replStep cfg rs e = r at h1
    obtain ⟨rs', r⟩ := r
    cases r with
    | running => exact ih _ h1
    | exited => exact h1
    | crashed f => exact h1

end Btrd
