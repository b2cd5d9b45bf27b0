/-
C83: error messages. Every message of a refused or failing program is the one of the rules in `Spec/Messages`.
-/
import Verif.Props.Unread
import Verif.Lemmas.Failing
import Verif.Lemmas.DecodeMore
import Verif.Props.Session

namespace Btrd
open Spec

/-! ### every program that is not accepted has a message -/

mutual
theorem reads_or_refused (D : Names) : ∀ e : Expr, Spec.Reads D e ∨ ∃ m, Refused D e m
  | .ident x => by
    by_cases h : D x
    · exact .inl ⟨trivial, by simpa [Expr.uses] using h⟩
    · exact .inr ⟨_, .var h⟩
  | .int _ => .inl ⟨trivial, by simp [Expr.uses]⟩
  | .bool _ => .inl ⟨trivial, by simp [Expr.uses]⟩
  | .str _ => .inl ⟨trivial, by simp [Expr.uses]⟩
  | .paren e => by
    rcases reads_or_refused D e with h | ⟨m, h⟩
    · exact .inl (by simpa [Spec.Reads, Expr.Sound, Expr.uses] using h)
    · exact .inr ⟨m, .paren h⟩
  | .field e f => by
    by_cases hf : ∃ n, f = .ident n
    · obtain ⟨n, rfl⟩ := hf
      rcases reads_or_refused D e with h | ⟨m, h⟩
      · exact .inl (by simpa [Spec.Reads, Expr.Sound, Expr.uses] using h)
      · exact .inr ⟨m, .field h⟩
    · exact .inr ⟨_, .fieldName fun n hn => hf ⟨n, hn⟩⟩
  | .index e i => by
    rcases reads_or_refused D e with h | ⟨m, h⟩
    · rcases reads_or_refused D i with h' | ⟨m, h'⟩
      · refine .inl ⟨by simp only [Expr.Sound]; exact ⟨h.1, h'.1⟩, fun x hx => ?_⟩
        simp only [Expr.uses, List.mem_append] at hx
        exact hx.elim (h.2 x) (h'.2 x)
      · exact .inr ⟨m, .index h h'⟩
    · exact .inr ⟨m, .indexed h⟩
  | .call f args => by
    rcases reads_or_refused D f with h | ⟨m, h⟩
    · rcases args_or_refused D args with h' | ⟨m, h'⟩
      · refine .inl ⟨by simp only [Expr.Sound]; exact ⟨h.1, h'.1⟩, fun x hx => ?_⟩
        simp only [Expr.uses, List.mem_append] at hx
        exact hx.elim (h.2 x) (h'.2 x)
      · exact .inr ⟨m, .args h h'⟩
    · exact .inr ⟨m, .callee h⟩
  | .bin op l r => by
    rcases reads_or_refused D l with h | ⟨m, h⟩
    · rcases reads_or_refused D r with h' | ⟨m, h'⟩
      · refine .inl ⟨by simp only [Expr.Sound]; exact ⟨h.1, h'.1⟩, fun x hx => ?_⟩
        simp only [Expr.uses, List.mem_append] at hx
        exact hx.elim (h.2 x) (h'.2 x)
      · exact .inr ⟨m, .right h h'⟩
    · exact .inr ⟨m, .left h⟩
  | .un op e => by
    rcases reads_or_refused D e with h | ⟨m, h⟩
    · exact .inl (by simpa [Spec.Reads, Expr.Sound, Expr.uses] using h)
    · exact .inr ⟨m, .un h⟩
  | .cast ty e => by
    by_cases ht : ∃ n, ty = .ident n
    · obtain ⟨n, rfl⟩ := ht
      by_cases hs : ∃ s ∈ structs, s.name = n
      · obtain ⟨s, hs, rfl⟩ := hs
        rcases reads_or_refused D e with h | ⟨m, h⟩
        · exact .inl ⟨by simp only [Expr.Sound]; exact ⟨⟨_, rfl, s, hs, rfl⟩, h.1⟩, by simpa [Expr.uses] using h.2⟩
        · exact .inr ⟨m, .cast hs h⟩
      · exact .inr ⟨_, .castUnknown fun s h hn => hs ⟨s, h, hn⟩⟩
    · exact .inr ⟨_, .castOdd fun n hn => ht ⟨n, hn⟩⟩
theorem args_or_refused (D : Names) : ∀ es : List Expr, (SoundL es ∧ ∀ x ∈ usesL es, D x) ∨ ∃ m, RefusedArgs D es m
  | [] => .inl ⟨trivial, by simp [usesL]⟩
  | e :: es => by
    rcases reads_or_refused D e with h | ⟨m, h⟩
    · rcases args_or_refused D es with h' | ⟨m, h'⟩
      · refine .inl ⟨by simp only [SoundL]; exact ⟨h.1, h'.1⟩, fun x hx => ?_⟩
        simp only [usesL, List.mem_append] at hx
        exact hx.elim (h.2 x) (h'.2 x)
      · exact .inr ⟨m, .tail h h'⟩
    · exact .inr ⟨m, .head h⟩
end

mutual
theorem accepted_or_refused : ∀ (s : Stmt) (D : Names) (loop : Prop), Accepted D loop s ∨ ∃ m, RefusedStmt D loop s m
  | .assign l r, D, loop => by
    by_cases hl : ∃ x, l = .ident x
    · obtain ⟨x, rfl⟩ := hl
      rcases reads_or_refused (D.with [x]) r with h | ⟨m, h⟩
      · exact .inl (by rw [Accepted]; exact h)
      · exact .inr ⟨m, .assignVar h⟩
    · have hl' : ∀ x, l ≠ .ident x := fun x h => hl ⟨x, h⟩
      rcases reads_or_refused D l with h | ⟨m, h⟩
      · rcases reads_or_refused D r with h' | ⟨m, h'⟩
        · refine .inl ?_
          cases l with
          | ident x => exact absurd rfl (hl' x)
          | _ => exact ⟨h, h'⟩
        · exact .inr ⟨m, .assignFrom hl' h h'⟩
      · exact .inr ⟨m, .assignTo hl' h⟩
  | .ite c t f, D, loop => by
    rcases reads_or_refused D c with h | ⟨m, h⟩
    · rcases all_or_refused t D loop with h1 | ⟨m, h1⟩
      · rcases all_or_refused f (D.with (gainsL t)) loop with h2 | ⟨m, h2⟩
        · exact .inl (by rw [Accepted]; exact ⟨h, h1, h2⟩)
        · exact .inr ⟨m, .ifElse h h1 h2⟩
      · exact .inr ⟨m, .ifThen h h1⟩
    · exact .inr ⟨m, .ifCond h⟩
  | .while c b, D, loop => by
    rcases reads_or_refused D c with h | ⟨m, h⟩
    · rcases all_or_refused b D True with h1 | ⟨m, h1⟩
      · exact .inl (by rw [Accepted]; exact ⟨h, h1⟩)
      · exact .inr ⟨m, .whileBody h h1⟩
    · exact .inr ⟨m, .whileCond h⟩
  | .for x r b, D, loop => by
    by_cases hx : ∃ n, x = .ident n
    · obtain ⟨n, rfl⟩ := hx
      rcases reads_or_refused (D.with [n]) r with h | ⟨m, h⟩
      · rcases all_or_refused b (D.with [n]) True with h1 | ⟨m, h1⟩
        · exact .inl (by rw [Accepted]; exact ⟨n, rfl, h, h1⟩)
        · exact .inr ⟨m, .forBody h h1⟩
      · exact .inr ⟨m, .forRange h⟩
    · exact .inr ⟨_, .forNoName fun n hn => hx ⟨n, hn⟩⟩
  | .brk, D, loop => by
    by_cases h : loop
    · exact .inl (by rw [Accepted]; exact h)
    · exact .inr ⟨_, .brk h⟩
  | .cont, D, loop => by
    by_cases h : loop
    · exact .inl (by rw [Accepted]; exact h)
    · exact .inr ⟨_, .cont h⟩
  | .help, D, loop => .inl (by rw [Accepted]; trivial)
  | .quit, D, loop => .inl (by rw [Accepted]; trivial)
  | .filesystem e, D, loop => by
    by_cases h : ∃ s, e = .str s
    · exact .inl (by rw [Accepted]; exact h)
    · exact .inr ⟨_, .filesystem fun s hs => h ⟨s, hs⟩⟩
  | .print e, D, loop => by
    rcases reads_or_refused D e with h | ⟨m, h⟩
    · exact .inl (by rw [Accepted]; exact h)
    · exact .inr ⟨m, .print h⟩
  | .expr e, D, loop => by
    rcases reads_or_refused D e with h | ⟨m, h⟩
    · exact .inl (by rw [Accepted]; exact h)
    · exact .inr ⟨m, .expr h⟩
theorem all_or_refused : ∀ (p : List Stmt) (D : Names) (loop : Prop), AcceptedL D loop p ∨ ∃ m, RefusedAll D loop p m
  | [], D, loop => .inl (by rw [AcceptedL]; trivial)
  | s :: ss, D, loop => by
    rcases accepted_or_refused s D loop with h | ⟨m, h⟩
    · rcases all_or_refused ss (D.with s.gains) loop with h' | ⟨m, h'⟩
      · exact .inl (by rw [AcceptedL]; exact ⟨h, h'⟩)
      · exact .inr ⟨m, .tail h h'⟩
    · exact .inr ⟨m, .head h⟩
end

/-- **C83** Every program is accepted or refused with a message. -/
theorem C83_accepted_or_refused (D : Names) (p : List Stmt) : AcceptedL D False p ∨ ∃ m, RefusedAll D False p m :=
  all_or_refused p D False

/-! ### the messages of an entry or a script -/

theorem refused_session {rs : RState} (hs : Sess rs) (p : List Stmt) (m : Str) :
    RefusedAll (defined rs.sem.vars) False p m ↔
      ∃ x, (analyzeStmts p rs.sem).2 = .error (.err x) ∧ x.text = some m := by
  have h := stmts_msg m p rs.sem hs.semNe
  have hz : (0 < rs.sem.loopDepth) = False := by rw [hs.depth]; simp
  rw [hz] at h
  exact h.symm

theorem accepted_session {rs : RState} (hs : Sess rs) (p : List Stmt) :
    (analyzeStmts p rs.sem).2 = .ok () ↔ AcceptedL (defined rs.sem.vars) False p := by
  have h := (analyzed_stmts p rs.sem hs.semNe).verdict
  have hz : (0 < rs.sem.loopDepth) = False := by rw [hs.depth]; simp
  rw [hz] at h
  exact h

/-- what the message of an entry is, by the rules: the text is no program, it is refused, or it fails -/
theorem message_of_error (cfg : Cfg) (rs : RState) (hs : Sess rs) (cmd : Str) (er : Err)
    (h : (runtimeEval cfg rs cmd).2 = .fail (.err er)) :
    (∃ m, Unread cmd m ∧ er.text = some m) ∨
    ∃ p, parse cmd = some p ∧
      ((∃ m, RefusedAll (defined rs.sem.vars) False p m ∧ er.text = some m) ∨
       AcceptedL (defined rs.sem.vars) False p ∧ FailsAll (world cfg) (complaints cfg) p rs.ev er.text) := by
  rcases runtimeEval_cases cfg rs cmd with ⟨hp, he⟩ | ⟨p, e, hp, her, he⟩ | ⟨p, hp, hok, he⟩
  · rw [he] at h
    simp only [EvalResult.fail.injEq, Fail.err.injEq] at h
    subst h
    exact .inl (unread_text hp)
  · rw [he] at h
    simp only [EvalResult.fail.injEq] at h
    subst h
    refine .inr ⟨p, hp, .inl ?_⟩
    rcases all_or_refused p (defined rs.sem.vars) False with ha | ⟨m, hm⟩
    · rw [(accepted_session hs p).2 ha] at her; simp at her
    · obtain ⟨x, h1, h2⟩ := (refused_session hs p m).1 hm
      rw [her] at h1
      simp only [Except.error.injEq, Fail.err.injEq] at h1
      subst h1
      exact ⟨m, hm, h2⟩
  · rw [he] at h
    have hacc := (accepted_session hs p).1 hok
    refine .inr ⟨p, hp, .inr ⟨hacc, ?_⟩⟩
    have hk := accepted_kind cfg p _ hacc rs.ev
    refine stmts_told cfg p rs.ev _ ?_
    simp only [evalProgram] at h
    generalize (evalStmts cfg p rs.ev).2 = r at h hk
    cases r with
    | ok => simp [IRes.toEvalResult] at h
    | quit => simp [IRes.toEvalResult] at h
    | brk => simp [kind] at hk
    | cont => simp [kind] at hk
    | fail f =>
      simp only [IRes.toEvalResult, EvalResult.fail.injEq] at h
      exact ⟨er, by rw [h], rfl⟩

/-- **C83** At any point of a session, an entry that ends with an error does so with the message of the rules: that of
the text not being a program, that of the first offence against the static
checks, or that of the failure at which the program stops. -/
theorem C83_entry (cfg : Cfg) (room : Option Nat) (events : List ReplEvent) (cmd : Str) (er : Err)
    (h : (runtimeEval cfg (replRun cfg (RState.new cfg room) events).1 cmd).2 = .fail (.err er)) :
    (∃ m, Unread cmd m ∧ er.text = some m) ∨
    ∃ p, parse cmd = some p ∧
      ((∃ m, RefusedAll (defined (replRun cfg (RState.new cfg room) events).1.sem.vars) False p m ∧ er.text = some m) ∨
       AcceptedL (defined (replRun cfg (RState.new cfg room) events).1.sem.vars) False p ∧
       FailsAll (world cfg) (complaints cfg) p (replRun cfg (RState.new cfg room) events).1.ev er.text) :=
  message_of_error cfg _ (session cfg room events) cmd er h

/-- **C83** Conversely a program the rules refuse with a message ends with that message, and nothing of it runs. -/
theorem C83_refused (cfg : Cfg) (room : Option Nat) (events : List ReplEvent) (cmd : Str) (p : List Stmt) (m : Str)
    (hp : parse cmd = some p)
    (h : RefusedAll (defined (replRun cfg (RState.new cfg room) events).1.sem.vars) False p m) :
    ∃ er, runtimeEval cfg (replRun cfg (RState.new cfg room) events).1 cmd =
      (⟨(analyzeStmts p (replRun cfg (RState.new cfg room) events).1.sem).1, (replRun cfg (RState.new cfg room) events).1.ev⟩,
        .fail (.err er)) ∧ er.text = some m := by
  obtain ⟨x, h1, h2⟩ := (refused_session (session cfg room events) p m).1 h
  refine ⟨x, ?_, h2⟩
  generalize (replRun cfg (RState.new cfg room) events).1 = rs at h1
  rcases runtimeEval_cases cfg rs cmd with ⟨hp', he⟩ | ⟨p', e, hp', her, he⟩ | ⟨p', hp', hok, he⟩
  · rw [hp] at hp'; simp at hp'
  · rw [hp, Option.some.injEq] at hp'
    subst hp'
    rw [h1] at her
    simp only [Except.error.injEq] at her
    subst her
    exact he
  · rw [hp, Option.some.injEq] at hp'
    subst hp'
    rw [h1] at hok; simp at hok

/-- **C83** A program that is accepted and by the rules fails with a message ends, given enough steps, with it. -/
theorem C83_fails (cfg : Cfg) (rs : RState) (hs : Sess rs) (cmd : Str) (p : List Stmt) (m : Option Str)
    (hp : parse cmd = some p) (ha : AcceptedL (defined rs.sem.vars) False p)
    (h : FailsAll (world cfg) (complaints cfg) p rs.ev m) :
    ∃ n, ∀ k, n ≤ k → ∃ er, (runtimeEval (cfg.steps k) rs cmd).2 = .fail (.err er) ∧ er.text = m := by
  obtain ⟨n, hn⟩ := told_stmts h
  refine ⟨n, fun k hk => ?_⟩
  obtain ⟨er, h1, h2⟩ := hn k hk
  refine ⟨er, ?_, h2⟩
  dsimp only at h1
  rcases runtimeEval_cases (cfg.steps k) rs cmd with ⟨hp', he⟩ | ⟨p', e, hp', her, he⟩ | ⟨p', hp', hok, he⟩
  · rw [hp] at hp'; simp at hp'
  · rw [hp, Option.some.injEq] at hp'
    subst hp'
    rw [(accepted_session hs p).2 ha] at her; simp at her
  · rw [hp, Option.some.injEq] at hp'
    subst hp'
    rw [he]
    simp only [evalProgram, h1, IRes.toEvalResult]

/-- **C83** The rules give at most one message: a program is refused with only one, and not both refused and
accepted; -/
theorem C83_refused_unique (D : Names) (p : List Stmt) (m m' : Str) (h : RefusedAll D False p m)
    (h' : RefusedAll D False p m') : m = m' ∧ ¬ AcceptedL D False p := by
  classical
  let a : AState := ⟨[fun x => if D x then some () else none], 0⟩
  have hD : defined a.vars = D := by
    funext x
    by_cases hx : D x <;> simp [defined, a, Vars.get, hx]
  have hz : (0 < a.loopDepth) = False := by simp [a]
  have h1 := stmts_msg m p a (by simp [a])
  have h2 := stmts_msg m' p a (by simp [a])
  have h3 := (analyzed_stmts p a (by simp [a])).verdict
  rw [hD, hz] at h1 h2 h3
  obtain ⟨x, hx, hm⟩ := h1.2 h
  obtain ⟨y, hy, hm'⟩ := h2.2 h'
  rw [hx] at hy h3
  simp only [Except.error.injEq, Fail.err.injEq] at hy
  subst hy
  rw [hm, Option.some.injEq] at hm'
  exact ⟨hm', fun ha => by simpa using h3.2 ha⟩

/-- **C83** and it fails with only one, and then it does not run to its end: by the rules of the language it ends
`failed`. -/
theorem C83_fails_unique (cfg : Cfg) (p : List Stmt) (σ : State) (m m' : Option Str)
    (h : FailsAll (world cfg) (complaints cfg) p σ m) (h' : FailsAll (world cfg) (complaints cfg) p σ m') :
    m = m' ∧ ∃ σ', RunsAll (world cfg) p σ σ' .failed := by
  refine ⟨failsAll_unique h h', ?_⟩
  obtain ⟨n, hn⟩ := told_stmts h
  obtain ⟨er, h1, -⟩ := hn n (Nat.le_refl n)
  dsimp only at h1
  have := stmts_rule (cfg.steps n) p σ (by rw [h1]; simp)
  rw [h1] at this
  exact ⟨_, this⟩

/-- **C83** The same for expressions: the message of an expression that fails is that of the rules, -/
theorem C83_expression (cfg : Cfg) (σ : State) (e : Expr) (er : Err) (h : evalExpr cfg σ e = .error (.err er)) :
    Complains (world cfg) (complaints cfg) σ e er.text := complains_of_eval cfg σ e er h

/-- **C83** which give at most one, and none to an expression with a value. -/
theorem C83_expression_unique (cfg : Cfg) (σ : State) (e : Expr) (m : Option Str)
    (h : Complains (world cfg) (complaints cfg) σ e m) :
    (∀ m', Complains (world cfg) (complaints cfg) σ e m' → m = m') ∧ (∀ v, ¬ Ev (world cfg) σ e v) ∧
    ∃ n, ∀ k, n ≤ k → ∃ er, evalExpr (cfg.steps k) σ e = .error (.err er) ∧ er.text = m := by
  refine ⟨fun m' h' => complains_unique h h', fun v => complains_no_ev h, ?_⟩
  obtain ⟨er, n, ht, hn⟩ := says_complains h
  exact ⟨n, fun k hk => ⟨er, hn k hk, ht⟩⟩

/-! ### witnesses -/

/-- a division by zero behind an assignment: an entry that is accepted and fails, with the message of the rules -/
example : parse s!' "x = 4; print x / 0;" =
    some [.assign (.ident s!' "x") (.int 4), .print (.bin .div (.ident s!' "x") (.int 0))] := by
  with_unfolding_all rfl

example (σ σ' : State) (h : Runs (world demo) (.assign (.ident s!' "x") (.int 4)) σ σ' .done)
    (hx : Ev (world demo) σ' (.ident s!' "x") (.int 4)) :
    FailsAll (world demo) (complaints demo)
      [.assign (.ident s!' "x") (.int 4), .print (.bin .div (.ident s!' "x") (.int 0))] σ
      (some s!' "Divide by zero") := .later h (.here (.printOf (.ints hx (.int 0) .divZero)))

set_option maxRecDepth 100000 in
/-- it is what the program does in a fresh session -/
example : ∃ rs, runtimeEval demo (RState.new demo none) s!' "x = 4; print x / 0;" = (rs, .fail (.err .divByZero)) ∧
    Err.divByZero.text = some s!' "Divide by zero" := ⟨_, by with_unfolding_all rfl, rfl⟩

set_option maxRecDepth 100000 in
/-- a refused entry: the second statement uses an unknown variable, and the first one does not run -/
example : ∃ rs, runtimeEval demo (RState.new demo none) s!' "print 1; print nope;" =
      (rs, .fail (.err (.unknownVar s!' "nope"))) ∧ rs.ev.sink.out = [] ∧
    (Err.unknownVar s!' "nope").text = some s!' "Unknown variable: nope" := ⟨_, by with_unfolding_all rfl, rfl, rfl⟩

example (D : Names) (h : ¬ D s!' "nope") :
    RefusedAll D False [.print (.int 1), .print (.ident s!' "nope")] s!' "Unknown variable: nope" :=
  .tail (by rw [Accepted]; exact ⟨trivial, by simp [Expr.uses]⟩)
    (.head (.print (.var (by simpa [Names.with, Stmt.gains] using h))))

set_option maxRecDepth 100000 in
/-- an assignment that has no target: the message names the field and the struct -/
example : ∃ rs, runtimeEval demo (RState.new demo none) s!' "k = key(0, 0, 0, 0); k.min_typ = 1;" =
      (rs, .fail (.err (.noField s!' "min_typ" s!' "_btrfs_ioctl_search_key"))) ∧
    (Err.noField s!' "min_typ" s!' "_btrfs_ioctl_search_key").text =
      some s!' "Failed to find field 'min_typ' in 'struct _btrfs_ioctl_search_key'" :=
  ⟨_, by with_unfolding_all rfl, rfl⟩

set_option maxRecDepth 100000 in
/-- adding a number to a string: the message names both types -/
example : ∃ rs er, runtimeEval demo (RState.new demo none) s!' "print \"a\" + 1;" = (rs, .fail (.err er)) ∧
    er.text = some s!' "Cannot add types 'string' and 'integer'" :=
  ⟨_, _, by with_unfolding_all rfl, by with_unfolding_all rfl⟩

end Btrd
