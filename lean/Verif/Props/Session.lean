/-
C81: sessions at the prompt, end to end.
-/
import Verif.Spec.Session
import Verif.Props.Source
import Verif.Props.Rules

namespace Btrd
open Spec

/-! ### what is known after an entry -/

theorem stmt_known (s : Stmt) (a : AState) (ha : a.vars ≠ []) :
    defined (analyzeStmt s a).1.vars = (defined a.vars).with s.gains := by
  have h := analyzed_stmt s a ha
  cases hr : (analyzeStmt s a).2 with
  | ok u => exact h.ok hr
  | error e =>
    funext x
    refine propext ⟨h.atMost x, fun hx => ?_⟩
    rcases hx with hx | hx
    · exact gained_defined h.gained hx
    · cases s with
      | assign l r =>
        cases l with
        | ident y =>
          simp only [Stmt.gains, List.mem_cons, List.not_mem_nil, or_false] at hx
          subst hx
          obtain ⟨vs, hd, hi⟩ := declare_eq a x ha
          have h1 : (analyzeStmt (.assign (.ident x) r) a).1.vars = vs := by
            simp only [analyzeStmt, hd, andThenA]
          rw [h1, defined_insert hi]
          exact .inr (by simp)
        | _ => simp [Stmt.gains] at hx
      | _ => simp [Stmt.gains] at hx

theorem learns (p : List Stmt) : ∀ (a : AState), a.vars ≠ [] → a.loopDepth = 0 →
    Learns (defined a.vars) p (defined (analyzeStmts p a).1.vars) := by
  induction p with
  | nil => intro a _ _; exact .all
  | cons s ss ih =>
    intro a ha hd
    have h := analyzed_stmt s a ha
    have hk := stmt_known s a ha
    have hz : (0 < a.loopDepth) = False := by rw [hd]; simp
    simp only [analyzeStmts, andThenA]
    cases hr : (analyzeStmt s a).2 with
    | ok u =>
      refine .next (by have := h.verdict.1 hr; rwa [hz] at this) ?_
      rw [← hk]
      exact ih _ (gained_ne h.gained ha) (h.depth.trans hd)
    | error e =>
      simp only
      rw [hk]
      refine .refused fun hacc => ?_
      rw [← hz] at hacc
      rw [h.verdict.2 hacc] at hr
      simp at hr

theorem learns_unique {D : Names} {p : List Stmt} {D₁ D₂ : Names} (h₁ : Learns D p D₁) (h₂ : Learns D p D₂) : D₁ = D₂ := by
  induction h₁ with
  | all => cases h₂; rfl
  | next h _ ih =>
    cases h₂ with
    | next _ h' => exact ih h'
    | refused h' => exact absurd h h'
  | refused h =>
    cases h₂ with
    | next h' _ => exact absurd h' h
    | refused _ => rfl

/-- **C81** What an entry makes known, accepted or refused. -/
theorem C81_learns (cfg : Cfg) (room : Option Nat) (events : List ReplEvent) (p : List Stmt) :
    let a := (replRun cfg (RState.new cfg room) events).1.sem
    Learns (fun x => a.vars.get x ≠ none) p (fun x => (analyzeStmts p a).1.vars.get x ≠ none) := by
  have h := session cfg room events
  exact learns p _ h.semNe h.depth

/-! ### sessions -/

/-- the text of an entry without comments, and with a semicolon (main.rs:88-89; C01, C03, C80) -/
def entryText (s : Str) : Str := fixupInput (stripComments s)

/-- the program an entry is -/
def entryProgram (s : Str) : Option (List Stmt) := parse (fixupInput (stripComments s))

theorem replStep_line (cfg : Cfg) (rs : RState) (s : Str) : replStep cfg rs (.line s) =
    ((runtimeEval cfg rs (fixupInput (stripComments s))).1,
      match (runtimeEval cfg rs (fixupInput (stripComments s))).2 with
      | .ok => .running
      | .quit => .exited
      | .fail (.err _) => .running
      | .fail f => .crashed f) := by
  unfold replStep
  simp only
  generalize runtimeEval cfg rs (fixupInput (stripComments s)) = r
  obtain ⟨rs', r⟩ := r
  cases r with
  | ok => rfl
  | quit => rfl
  | fail f => cases f <;> rfl

theorem accepted_kind (cfg : Cfg) (p : List Stmt) (D : Names) (hp : AcceptedL D False p) (st : State) :
    kind (evalStmts cfg p st).2 = .done ∨ kind (evalStmts cfg p st).2 = .quit ∨ kind (evalStmts cfg p st).2 = .failed := by
  have h1 := acceptedL_no_jump cfg p D st hp
  generalize (evalStmts cfg p st).2 = r at h1
  cases r with
  | ok => exact .inl rfl
  | quit => exact .inr (.inl rfl)
  | brk => exact absurd rfl h1.1
  | cont => exact absurd rfl h1.2
  | fail f => exact .inr (.inr rfl)

/-- **C81** Every session that the process survives follows the rules: what has been written, the variables,
the filesystem, the names known, and whether it has ended. -/
theorem talks (cfg : Cfg) : ∀ (events : List ReplEvent) (rs : RState), Sess rs → ∀ rs' st, replRun cfg rs events = (rs', st) →
    (∀ f, st ≠ .crashed f) →
    Talks (world cfg) entryProgram (defined rs.sem.vars) rs.ev events (defined rs'.sem.vars) rs'.ev st
  | [], rs, _, rs', st, h, _ => by
    simp only [replRun, Prod.mk.injEq] at h
    obtain ⟨rfl, rfl⟩ := h
    exact .waits
  | .interrupted :: es, rs, hs, rs', st, h, hf => .noise (.inl rfl) (talks cfg es rs hs rs' st h hf)
  | .otherError :: es, rs, hs, rs', st, h, hf => .noise (.inr rfl) (talks cfg es rs hs rs' st h hf)
  | .eof :: es, rs, hs, rs', st, h, hf => by
    simp only [replRun, replStep, Prod.mk.injEq] at h
    obtain ⟨rfl, rfl⟩ := h
    exact .eof
  | .line s :: es, rs, hs, rs', st, h, hf => by
    rw [replRun, replStep_line] at h
    have hsess := sess_step cfg rs (fixupInput (stripComments s)) hs
    rcases runtimeEval_cases cfg rs (fixupInput (stripComments s)) with ⟨hp, he⟩ | ⟨p, e, hp, her, he⟩ | ⟨p, hp, hok, he⟩
    · rw [he] at h
      exact .unreadable hp (talks cfg es rs hs rs' st h hf)
    · rw [he] at h hsess
      have ha := analyzed_stmts p rs.sem hs.semNe
      obtain ⟨x, rfl, -⟩ := ha.err e her
      have hrec := talks cfg es _ hsess rs' st h hf
      refine .refused hp (fun hacc => ?_) (learns p _ hs.semNe hs.depth) hrec
      have hz : (0 < rs.sem.loopDepth) = False := by rw [hs.depth]; simp
      rw [← hz] at hacc
      rw [ha.verdict.2 hacc] at her
      simp at her
    · rw [he] at h hsess
      have ha := analyzed_stmts p rs.sem hs.semNe
      have hacc := ha.verdict.1 hok
      rw [hs.depth] at hacc
      have hacc : AcceptedL (defined rs.sem.vars) False p := by simpa using hacc
      have hl := learns p _ hs.semNe hs.depth
      have hk := accepted_kind cfg p _ hacc rs.ev
      have hd : (evalStmts cfg p rs.ev).2 ≠ .fail .diverge := by
        intro hd
        simp only [evalProgram, hd, IRes.toEvalResult, Prod.mk.injEq] at h
        exact hf _ h.2.symm
      have hrule := stmts_rule cfg p rs.ev hd
      simp only [evalProgram] at h hsess
      generalize hr : evalStmts cfg p rs.ev = r at h hsess hrule hk
      obtain ⟨σ₁, r⟩ := r
      simp only at h hsess hrule hk
      cases r with
      | ok => exact .runs hp hacc hl hrule (.inl rfl) (talks cfg es _ hsess rs' st h hf)
      | quit =>
        simp only [IRes.toEvalResult, Prod.mk.injEq] at h
        obtain ⟨rfl, rfl⟩ := h
        exact .quits hp hacc hl hrule
      | brk => simp [kind] at hk
      | cont => simp [kind] at hk
      | fail f =>
        cases f with
        | err e => exact .runs hp hacc hl hrule (.inr rfl) (talks cfg es _ hsess rs' st h hf)
        | panic =>
          simp only [IRes.toEvalResult, Prod.mk.injEq] at h
          exact absurd h.2.symm (hf _)
        | diverge =>
          simp only [IRes.toEvalResult, Prod.mk.injEq] at h
          exact absurd h.2.symm (hf _)

theorem talks_unique {cfg : Cfg} {program : Str → Option (List Stmt)} {D : Names} {σ : State} {es : List ReplEvent}
    {D₁ D₂ : Names} {σ₁ σ₂ : State} {r₁ r₂ : ReplStatus} (h₁ : Talks (world cfg) program D σ es D₁ σ₁ r₁)
    (h₂ : Talks (world cfg) program D σ es D₂ σ₂ r₂) : D₁ = D₂ ∧ σ₁ = σ₂ ∧ r₁ = r₂ := by
  induction h₁ with
  | waits => cases h₂; exact ⟨rfl, rfl, rfl⟩
  | noise he _ ih =>
    cases h₂ with
    | noise _ h => exact ih h
    | eof => simp at he
    | unreadable _ _ => simp at he
    | refused _ _ _ _ => simp at he
    | runs _ _ _ _ _ _ => simp at he
    | quits _ _ _ _ => simp at he
  | eof =>
    cases h₂ with
    | noise he _ => simp at he
    | eof => exact ⟨rfl, rfl, rfl⟩
  | unreadable hp _ ih =>
    cases h₂ with
    | noise he _ => simp at he
    | unreadable _ h => exact ih h
    | refused hp' _ _ _ => rw [hp] at hp'; cases hp'
    | runs hp' _ _ _ _ _ => rw [hp] at hp'; cases hp'
    | quits hp' _ _ _ => rw [hp] at hp'; cases hp'
  | refused hp ha hl _ ih =>
    cases h₂ with
    | noise he _ => simp at he
    | unreadable hp' _ => rw [hp] at hp'; cases hp'
    | refused hp' _ hl' h =>
      rw [hp] at hp'; cases hp'
      cases learns_unique hl hl'
      exact ih h
    | runs hp' ha' _ _ _ _ => rw [hp] at hp'; cases hp'; exact absurd ha' ha
    | quits hp' ha' _ _ => rw [hp] at hp'; cases hp'; exact absurd ha' ha
  | runs hp ha hl hr ho _ ih =>
    cases h₂ with
    | noise he _ => simp at he
    | unreadable hp' _ => rw [hp] at hp'; cases hp'
    | refused hp' ha' _ _ => rw [hp] at hp'; cases hp'; exact absurd ha ha'
    | runs hp' _ hl' hr' _ h =>
      rw [hp] at hp'; cases hp'
      cases learns_unique hl hl'
      obtain ⟨rfl, rfl⟩ := runsAll_unique hr hr'
      exact ih h
    | quits hp' _ _ hr' =>
      rw [hp] at hp'; cases hp'
      obtain ⟨-, rfl⟩ := runsAll_unique hr hr'
      simp at ho
  | quits hp ha hl hr =>
    cases h₂ with
    | noise he _ => simp at he
    | unreadable hp' _ => rw [hp] at hp'; cases hp'
    | refused hp' ha' _ _ => rw [hp] at hp'; cases hp'; exact absurd ha ha'
    | runs hp' _ _ hr' ho _ =>
      rw [hp] at hp'; cases hp'
      obtain ⟨-, rfl⟩ := runsAll_unique hr hr'
      simp at ho
    | quits hp' _ hl' hr' =>
      rw [hp] at hp'; cases hp'
      cases learns_unique hl hl'
      obtain ⟨rfl, -⟩ := runsAll_unique hr hr'
      exact ⟨rfl, rfl, rfl⟩

theorem crash_kind (cfg : Cfg) : ∀ (events : List ReplEvent) (rs : RState) (e : Err), (replRun cfg rs events).2 ≠ .crashed (.err e)
  | [], rs, e => by simp [replRun]
  | ev :: es, rs, e => by
    rw [replRun]
    have h : (replStep cfg rs ev).2 ≠ .crashed (.err e) := by
      cases ev with
      | line s =>
        rw [replStep_line]
        simp only
        cases (runtimeEval cfg rs (fixupInput (stripComments s))).2 with
        | ok => simp
        | quit => simp
        | fail f => cases f <;> simp
      | interrupted => simp [replStep]
      | eof => simp [replStep]
      | otherError => simp [replStep]
    generalize replStep cfg rs ev = r at h
    obtain ⟨rs', r⟩ := r
    cases r with
    | running => exact crash_kind cfg es rs' e
    | exited => simp
    | crashed f => exact h

/-- the names known when btrd starts -/
def builtinNames : Names := fun x => x ∈ constants.map (·.1) ∨ x ∈ functions.map Function.display

theorem builtinNames_eq : builtinNames = defined AState.new.vars := by
  funext x
  exact propext (builtins_defined x).symm

/-- **C81** Every session from the start of the program that the process survives follows the rules. -/
theorem C81_session (cfg : Cfg) (room : Option Nat) (events : List ReplEvent) (rs : RState) (r : ReplStatus)
    (h : replRun cfg (RState.new cfg room) events = (rs, r)) (hr : ∀ f, r ≠ .crashed f) :
    Talks (world cfg) entryProgram builtinNames (State.new cfg room) events (fun x => rs.sem.vars.get x ≠ none) rs.ev r := by
  rw [builtinNames_eq]
  exact talks cfg events _ (sess_initial cfg room) rs r h hr

/-- **C81** And the rules leave no choice, so what they say happens is what happens, or the process does not
survive: it needs more steps, or it panics (never in release builds). -/
theorem C81_session_rules (cfg : Cfg) (room : Option Nat) (events : List ReplEvent) (D : Names) (σ : State) (r : ReplStatus)
    (h : Talks (world cfg) entryProgram builtinNames (State.new cfg room) events D σ r) :
    ((replRun cfg (RState.new cfg room) events).2 = r ∧ (replRun cfg (RState.new cfg room) events).1.ev = σ ∧
      ∀ x, (replRun cfg (RState.new cfg room) events).1.sem.vars.get x ≠ none ↔ D x) ∨
    (replRun cfg (RState.new cfg room) events).2 = .crashed .diverge ∨
    ((replRun cfg (RState.new cfg room) events).2 = .crashed .panic ∧ cfg.build.ovfChecks = true) := by
  by_cases hf : ∃ f, (replRun cfg (RState.new cfg room) events).2 = .crashed f
  · obtain ⟨f, hf⟩ := hf
    right
    cases f with
    | diverge => exact .inl hf
    | panic =>
      right
      refine ⟨hf, ?_⟩
      cases hb : cfg.build.ovfChecks with
      | true => rfl
      | false => exact absurd hf (C65_release_never_dies cfg hb room events)
    | err e => exact absurd hf (crash_kind cfg events _ e)
  · left
    have h' := C81_session cfg room events _ _ rfl (fun f hx => hf ⟨f, hx⟩)
    obtain ⟨rfl, rfl, rfl⟩ := talks_unique h h'
    exact ⟨rfl, rfl, fun x => Iff.rfl⟩

/-! ### the calculator -/

theorem ns_cons {t : Str} {ts : List Str} (h : t ≠ [';']) (hs : [';'] ∉ ts) : [';'] ∉ t :: ts := by
  simp only [List.mem_cons, not_or]; exact ⟨Ne.symm h, hs⟩

theorem ns_append {ts us : List Str} (h : [';'] ∉ ts) (h' : [';'] ∉ us) : [';'] ∉ ts ++ us := by
  simp only [List.mem_append, not_or]; exact ⟨h, h'⟩

theorem ns_nil : [';'] ∉ ([] : List Str) := by simp

theorem ns_one {t : Str} (h : t ≠ [';']) : [';'] ∉ [t] := ns_cons h ns_nil

theorem ns_name {x : Str} (h : Name x) : x ≠ [';'] := by
  rintro rfl
  obtain ⟨c, cs, h1, h2, -⟩ := h
  cases h1
  exact absurd h2 (by decide)

theorem ns_op (op : BinOp) : opText op ≠ [';'] := by cases op <;> decide

theorem ns_un (op : UnOp) : unText op ≠ [';'] := by cases op <;> decide

mutual
theorem expr_no_semi : ∀ {e : Expr} {ts : List Str}, ExprText e ts → [';'] ∉ ts
  | _, _, .ident x h => ns_one (ns_name h)
  | _, _, .int ds h _ => ns_one (by rintro rfl; exact absurd (h.2.1 ';' (by simp)) (by decide))
  | _, _, .bool b => ns_one (by cases b <;> decide)
  | _, _, .str s t h => ns_one (by obtain ⟨b, _, rfl⟩ := h; simp)
  | _, _, .paren e ts h => ns_cons (by decide) (ns_append (expr_no_semi h) (ns_one (by decide)))
  | _, _, .field e ts x h hx => ns_append (expr_no_semi h) (ns_one (by simp))
  | _, _, .index e i ts us h h' => ns_append (expr_no_semi h) (ns_cons (by decide) (ns_append (expr_no_semi h') (ns_one (by decide))))
  | _, _, .call f args ts us h h' => ns_append (expr_no_semi h) (ns_cons (by decide) (ns_append (args_no_semi h') (ns_one (by decide))))
  | _, _, .bin op l r ts us h h' => ns_append (expr_no_semi h) (ns_cons (ns_op op) (expr_no_semi h'))
  | _, _, .un op e ts h => ns_cons (ns_un op) (expr_no_semi h)
  | _, _, .cast x e ts hx h => ns_cons (by decide) (ns_cons (by decide) (ns_cons (ns_name hx) (ns_cons (by decide) (expr_no_semi h))))
theorem args_no_semi : ∀ {es : List Expr} {ts : List Str}, ArgsText es ts → [';'] ∉ ts
  | _, _, .nil => ns_nil
  | _, _, .one e ts h => expr_no_semi h
  | _, _, .cons e e' es ts us h h' => ns_append (expr_no_semi h) (ns_cons (by decide) (args_no_semi h'))
end

/-- what is typed for an expression: its tokens -/
theorem entry_expr {e : Expr} {ts : List Str} (h : Written e ts) (hfree : Free (ts ++ [s!' ";"])) : Entry [.expr e] ts := by
  have hf : ProgFormV Bare Free [.expr e] (ts ++ [s!' ";"]) := by
    have := ProgFormV.cons (v := Bare) (.expr e) [] _ [] (.expr e ts h hfree) .nil
    simpa using this
  right
  refine ⟨fun hl => ?_, hf⟩
  exact expr_no_semi h.1 (List.mem_of_getLast? hl)

/-- **C81** At any point of any session: typing an expression, however laid out, whose variables are known
shows its value, if it has one, and does nothing else; if it fails, the session goes on as if nothing had
been typed. -/
theorem C81_calculator (cfg : Cfg) (hi : cfg.interactive = true) (room : Option Nat) (events : List ReplEvent)
    (rs : RState) (hrun : replRun cfg (RState.new cfg room) events = (rs, .running))
    (e : Expr) (ts : List Str) (s : Str) (he : Written e ts) (hfree : Free (ts ++ [s!' ";"])) (hq : QuietLiterals ts) (hs : LaidOut ts s)
    (hknown : Spec.Reads (fun x => rs.sem.vars.get x ≠ none) e) :
    (∀ v t, evalExpr cfg rs.ev e = .ok v → v.display = .ok t → rs.ev.sink.room = none →
      replRun cfg (RState.new cfg room) (events ++ [.line s]) =
        (⟨rs.sem, { rs.ev with sink := ⟨rs.ev.sink.out ++ t ++ ['\n'], none⟩ }⟩, .running)) ∧
    (∀ x, evalExpr cfg rs.ev e = .error (.err x) →
      replRun cfg (RState.new cfg room) (events ++ [.line s]) = (rs, .running)) := by
  have hsess := session cfg room events
  rw [hrun] at hsess
  have hsess : Sess rs := hsess
  have hp : parse (fixupInput (stripComments s)) = some [.expr e] :=
    C80_entry_source (entry_expr he hfree) (text_ne he.1) hq hs
  have ha : analyzeStmts [.expr e] rs.sem = (rs.sem, .ok ()) := by
    simp only [analyzeStmts, analyzeStmt, andThenA, (analyzeExpr_iff rs.sem.vars e).2 hknown]
  have key : ∀ σ r, evalExprStmt cfg rs.ev e = (σ, r) → (∀ f, r = .fail f → ∃ x, f = .err x) → r = .ok ∨ (∃ f, r = .fail f) →
      replRun cfg (RState.new cfg room) (events ++ [.line s]) = (⟨rs.sem, σ⟩, .running) := by
    intro σ r h1 h2 h3
    have hrt : runtimeEval cfg rs (fixupInput (stripComments s)) = (⟨rs.sem, σ⟩, r.toEvalResult) := by
      rcases h3 with rfl | ⟨f, rfl⟩ <;> simp only [runtimeEval, hp, ha, evalProgram, evalStmts, evalStmt, h1]
    rw [C65_append, hrun]
    simp only [replRun, replStep_line, hrt]
    rcases h3 with rfl | ⟨f, rfl⟩
    · rfl
    · obtain ⟨x, rfl⟩ := h2 f rfl
      rfl
  constructor
  · intro v t hv ht hr
    refine key _ .ok ?_ (by simp) (.inl rfl)
    simp only [evalExprStmt, hv, hi, if_true, ht]
    obtain ⟨sem, ⟨⟨out, room'⟩, vars, fs⟩⟩ := rs
    simp only at hr
    subst hr
    simp [State.write, Sink.write]
  · intro x hx
    have := key rs.ev (.fail (.err x)) (by simp only [evalExprStmt, hx]) (by rintro f h; cases h; exact ⟨x, rfl⟩) (.inr ⟨_, rfl⟩)
    exact this

/-- after `x = 5`, typing `x * 2 # twice` shows `10` -/
example : (replRun demo (RState.new demo none) [.line s!' "x = 5", .line s!' "x * 2 # twice"]).1.ev.sink.out = s!' "10\n" := by
  decide +kernel

example : Written (.bin .mul (.ident s!' "x") (.int 2)) [s!' "x", s!' "*", s!' "2"] ∧
    Free [s!' "x", s!' "*", s!' "2", s!' ";"] ∧ QuietLiterals [s!' "x", s!' "*", s!' "2"] ∧
    LaidOut [s!' "x", s!' "*", s!' "2"] s!' "x * 2 # twice" ∧
    Spec.Reads (fun x => (replRun demo (RState.new demo none) [.line s!' "x = 5"]).1.sem.vars.get x ≠ none)
      (.bin .mul (.ident s!' "x") (.int 2)) := by
  refine ⟨written_tokens (e := .bin .mul (.ident s!' "x") (.int 2)) ?_, ?_, ?_, ?_, ?_⟩
  · exact ⟨by decide, by decide, ⟨⟨'x', [], rfl, by decide, by simp⟩, by decide, by decide⟩, by simp [Ladder]⟩
  · refine plain_free ?_
    rintro ⟨k, hk, hp⟩
    revert hk hp; revert k; decide
  · intro t ht h
    simp only [List.mem_cons, List.not_mem_nil, or_false] at ht
    rcases ht with rfl | rfl | rfl <;> simp at h
  · refine .token [] _ _ s!' " * 2 # twice" .nil (by intro c d hc hd; cases hc; cases hd; decide) ?_
    refine .token [' '] _ _ s!' " 2 # twice" (.blank ' ' [] (by simp [Blank]) .nil) (by intro c d hc hd; cases hc; cases hd; decide) ?_
    refine .token [' '] _ _ s!' " # twice" (.blank ' ' [] (by simp [Blank]) .nil) (by intro c d hc hd; cases hc; cases hd; decide) ?_
    exact .trailing [' '] s!' " twice" (.blank ' ' [] (by simp [Blank]) .nil) (by decide)
  · refine ⟨by simp [Expr.Sound], fun x hx => ?_⟩
    simp [Expr.uses] at hx
    subst hx
    decide +kernel

end Btrd
