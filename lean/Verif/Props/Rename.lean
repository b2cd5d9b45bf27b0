/-
C94: the names of variables do not matter.
-/
import Verif.Lemmas.Rename
import Verif.Props.Pieces
import Verif.Props.Moments

namespace Btrd
open Spec

section
variable {X : Names} {ρ : Str → Str} (hρ : Distinguishes X ρ)

theorem toEvalResult_rename (r : IRes) : (renameIRes ρ r).toEvalResult = renameResult ρ r.toEvalResult := by
  cases r <;> rfl

/-- states and results of entries -/
def SameEntry (X : Names) (ρ : Str → Str) (a b : RState × EvalResult) : Prop :=
  SameBut X ρ a.1 b.1 ∧ b.2 = renameResult ρ a.2

include hρ in
theorem entry_rename (cfg : Cfg) {rs rs' : RState} (h : SameBut X ρ rs rs') {t t' : Str} {p : List Stmt}
    (ht : Spells t p) (ht' : Spells t' (renameP ρ p)) (hx : ∀ x ∈ mentionsP p, X x) :
    Sim (SameEntry X ρ) (runtimeEvalT cfg rs t) (runtimeEvalT cfg rs' t') := by
  unfold runtimeEvalT
  rw [spells_iff.1 ht, spells_iff.1 ht']
  dsimp only
  have ha := analyzeStmts_rename hρ p rs.sem rs'.sem hx ⟨h.known, h.depth⟩
  generalize analyzeStmts p rs.sem = a at ha
  generalize analyzeStmts (renameP ρ p) rs'.sem = b at ha
  obtain ⟨a, r⟩ := a
  obtain ⟨b, r'⟩ := b
  obtain ⟨h1, h2⟩ := ha
  cases r <;> cases r' <;> first | exact h2.elim | skip
  · refine .ret ⟨⟨h1.vars, h1.depth, h.vars, h.fs, h.sink⟩, ?_⟩
    rw [show _ = renameFail ρ _ from h2]
    rfl
  · refine Sim.bind (fun x y hxy => .ret ⟨⟨h1.vars, h1.depth, hxy.1.vars, hxy.1.fs, hxy.1.sink⟩, ?_⟩)
      (stmts_rename hρ cfg p rs.ev rs'.ev hx ⟨h.vars, h.fs, h.sink⟩)
    rw [hxy.2, toEvalResult_rename]

include hρ in
/-- **C94** The names of variables do not matter: a program, and the same program with other names for its variables,
different ones for different variables. Starting with the same filesystem, output and values, whatever the world does
meanwhile, the same requests are made at the same moments with the same warnings, and in the end filesystem, output and
values are the same again, and the results too: only an error about an unknown variable has its other name. -/
theorem C94_entry (cfg : Cfg) (rs rs' : RState) (h : SameBut X ρ rs rs') (t t' : Str) (p : List Stmt)
    (ht : Spells t p) (ht' : Spells t' (renameP ρ p)) (hx : ∀ x ∈ mentionsP p, X x) (fuel : Nat) (ω : Live) (n : Nat) :
    let l := (runtimeEvalT cfg rs t).live fuel ω n
    let l' := (runtimeEvalT cfg rs' t').live fuel ω n
    l'.clock = l.clock ∧ l'.log = l.log ∧ SameBut X ρ l.result.1 l'.result.1 ∧ l'.result.2 = renameResult ρ l.result.2 :=
  let ⟨h1, h2, h3⟩ := (entry_rename hρ cfg h ht ht' hx).live fuel ω n
  ⟨h1, h2, h3.1, h3.2⟩

end

/-! ### variables that are not mentioned -/

mutual
theorem expr_rename_id : ∀ e : Expr, e.rename id = e
  | .ident _ => by rw [Expr.rename]; rfl
  | .int _ => by rw [Expr.rename]
  | .bool _ => by rw [Expr.rename]
  | .str _ => by rw [Expr.rename]
  | .paren e => by rw [Expr.rename, expr_rename_id e]
  | .field e f => by rw [Expr.rename, expr_rename_id e]
  | .index e i => by rw [Expr.rename, expr_rename_id e, expr_rename_id i]
  | .call f args => by rw [Expr.rename, expr_rename_id f, args_rename_id args]
  | .bin op l r => by rw [Expr.rename, expr_rename_id l, expr_rename_id r]
  | .un op e => by rw [Expr.rename, expr_rename_id e]
  | .cast ty e => by rw [Expr.rename, expr_rename_id e]
theorem args_rename_id : ∀ es : List Expr, renameL id es = es
  | [] => by rw [renameL]
  | e :: es => by rw [renameL, expr_rename_id e, args_rename_id es]
end

mutual
theorem stmt_rename_id : ∀ s : Stmt, s.rename id = s
  | .assign l r => by rw [Stmt.rename, expr_rename_id, expr_rename_id]
  | .ite c t f => by rw [Stmt.rename, expr_rename_id, prog_rename_id t, prog_rename_id f]
  | .while c b => by rw [Stmt.rename, expr_rename_id, prog_rename_id b]
  | .for x r b => by rw [Stmt.rename, expr_rename_id, expr_rename_id, prog_rename_id b]
  | .brk => by rw [Stmt.rename]
  | .cont => by rw [Stmt.rename]
  | .help => by rw [Stmt.rename]
  | .quit => by rw [Stmt.rename]
  | .filesystem e => by rw [Stmt.rename, expr_rename_id]
  | .print e => by rw [Stmt.rename, expr_rename_id]
  | .expr e => by rw [Stmt.rename, expr_rename_id]
theorem prog_rename_id : ∀ p : List Stmt, renameP id p = p
  | [] => by rw [renameP]
  | s :: p => by rw [renameP, stmt_rename_id s, prog_rename_id p]
end

theorem renameFail_id (f : Fail) : renameFail id f = f := by
  cases f with
  | err e => cases e <;> rfl
  | _ => rfl

theorem renameResult_id (r : EvalResult) : renameResult id r = r := by
  cases r with
  | fail f => rw [renameResult, renameFail_id]
  | _ => rfl

/-- **C94** What an entry does depends only on the variables that it mentions: two interpreters with the same filesystem
and output that agree on these (and know the same of them) do the same, and still agree on them in the end. -/
theorem C94_mentioned (cfg : Cfg) (rs rs' : RState) (t : Str) (p : List Stmt) (ht : Spells t p)
    (h : SameBut (· ∈ mentionsP p) id rs rs') (fuel : Nat) (ω : Live) (n : Nat) :
    let l := (runtimeEvalT cfg rs t).live fuel ω n
    let l' := (runtimeEvalT cfg rs' t).live fuel ω n
    l'.clock = l.clock ∧ l'.log = l.log ∧ SameBut (· ∈ mentionsP p) id l.result.1 l'.result.1 ∧ l'.result.2 = l.result.2 := by
  obtain ⟨h1, h2, h3, h4⟩ := C94_entry (ρ := id) (X := (· ∈ mentionsP p)) (fun _ _ _ _ h => h) cfg rs rs' h t t p ht
    (by rwa [prog_rename_id]) (fun x hx => hx) fuel ω n
  rw [renameResult_id] at h4
  exact ⟨h1, h2, h3, h4⟩

/-! ### sessions and scripts -/

section
variable {X : Names} {ρ : Str → Str} (hρ : Distinguishes X ρ)

/-- two processes -/
structure SameProc (X : Names) (ρ : Str → Str) (p p' : Proc) : Prop where
  rs : SameBut X ρ p.rs p'.rs
  err : List.Forall₂ (SameLine ρ) p.err p'.err

theorem forall₂_append {α β : Type} {Q : α → β → Prop} : ∀ {xs : List α} {ys : List β} {us : List α} {vs : List β},
    List.Forall₂ Q xs ys → List.Forall₂ Q us vs → List.Forall₂ Q (xs ++ us) (ys ++ vs)
  | _, _, _, _, .nil, h => h
  | _, _, _, _, .cons h hs, h' => .cons h (forall₂_append hs h')

theorem lines_same (l : List ErrLine) : List.Forall₂ (SameLine ρ) l l := by
  induction l with
  | nil => exact .nil
  | cons a l ih => exact .cons (.inl rfl) ih

theorem line_rename (e : Err) : ∃ e', renameFail ρ (.err e) = .err e' ∧ SameLine ρ (.error e.text) (.error e'.text) := by
  by_cases h : ∃ x, e = .unknownVar x
  · obtain ⟨x, rfl⟩ := h
    exact ⟨_, rfl, .inr ⟨x, rfl, rfl⟩⟩
  · exact ⟨e, renameFail_nameless (fun x hx => h ⟨x, by injection hx⟩), .inl rfl⟩

/-- processes, and where they are -/
def SameStep (X : Names) (ρ : Str → Str) (a b : (Proc × ProcStatus) × List Event) : Prop :=
  SameProc X ρ a.1.1 b.1.1 ∧ b.1.2 = a.1.2 ∧ b.2 = a.2

theorem procLine_rename {err err' : List ErrLine} (he : List.Forall₂ (SameLine ρ) err err')
    {l l' : Lived (RState × EvalResult)} (hlog : l'.log = l.log) (h : SameEntry X ρ l.result l'.result) :
    SameStep X ρ (procLine err l) (procLine err' l') := by
  obtain ⟨c, lg, rs, r⟩ := l
  obtain ⟨c', lg', rs', r'⟩ := l'
  obtain ⟨h1, h2⟩ := h
  dsimp only at hlog h1 h2
  subst hlog h2
  have hw := forall₂_append he (lines_same (ρ := ρ) (warningLines lg'))
  cases r with
  | ok => exact ⟨⟨h1, hw⟩, rfl, rfl⟩
  | quit => exact ⟨⟨h1, hw⟩, rfl, rfl⟩
  | fail f =>
    cases f with
    | err e =>
      obtain ⟨e', h3, h4⟩ := line_rename (ρ := ρ) e
      rw [renameResult, h3]
      exact ⟨⟨h1, forall₂_append hw (.cons h4 .nil)⟩, rfl, rfl⟩
    | panic => exact ⟨⟨h1, forall₂_append hw (lines_same _)⟩, rfl, rfl⟩
    | diverge => exact ⟨⟨h1, hw⟩, rfl, rfl⟩

theorem write_same {st st' : State} (h : st'.sink = st.sink) (s : Str) :
    (st'.write s).2 = (st.write s).2 ∧ (st'.write s).1.sink = (st.write s).1.sink ∧
      (st.write s).1.vars = st.vars ∧ (st'.write s).1.vars = st'.vars ∧ (st.write s).1.fs = st.fs ∧
      (st'.write s).1.fs = st'.fs := by
  unfold State.write
  rw [h]
  generalize st.sink.write s = w
  obtain ⟨k, r⟩ := w
  cases r <;> exact ⟨rfl, rfl, rfl, rfl, rfl, rfl⟩

theorem println_rename {p p' : Proc} (h : SameProc X ρ p p') (s : Str) (x : ProcStatus) :
    SameProc X ρ (p.println s x).1 (p'.println s x).1 ∧ (p'.println s x).2 = (p.println s x).2 := by
  obtain ⟨w1, w2, w3, w4, w5, w6⟩ := write_same h.rs.sink (s ++ ['\n'])
  unfold Proc.println State.println
  generalize p.rs.ev.write (s ++ ['\n']) = w at *
  generalize p'.rs.ev.write (s ++ ['\n']) = w' at *
  obtain ⟨st, r⟩ := w
  obtain ⟨st', r'⟩ := w'
  dsimp only at w1 w2 w3 w4 w5 w6
  subst w1
  have hs : SameBut X ρ { p.rs with ev := st } { p'.rs with ev := st' } :=
    ⟨h.rs.known, h.rs.depth, by dsimp only; rw [w3, w4]; exact h.rs.vars, by dsimp only; rw [w5, w6]; exact h.rs.fs, w2⟩
  cases r'
  · exact ⟨⟨hs, h.err⟩, rfl⟩
  all_goals exact ⟨⟨hs, forall₂_append h.err (lines_same _)⟩, rfl⟩

include hρ in
theorem step_rename (cfg : Cfg) (ω : Live) {p p' : Proc} (h : SameProc X ρ p p') {e e' : ReplEvent}
    (he : RenamedEvent entryText X ρ e e') : SameStep X ρ (procStepL cfg ω p e) (procStepL cfg ω p' e') := by
  cases he with
  | @noEntry e hno =>
    cases e with
    | line s => exact absurd rfl (hno s)
    | interrupted => exact ⟨⟨h.rs, forall₂_append h.err (lines_same _)⟩, rfl, rfl⟩
    | eof =>
      obtain ⟨h1, h2⟩ := println_rename h s!' "quit" .over
      exact ⟨h1, h2, rfl⟩
    | otherError =>
      obtain ⟨h1, h2⟩ := println_rename (p := ⟨p.rs, p.err ++ [.logged]⟩) (p' := ⟨p'.rs, p'.err ++ [.logged]⟩)
        ⟨h.rs, forall₂_append h.err (lines_same _)⟩ s!' "quit" .running
      exact ⟨h1, h2, rfl⟩
  | @noProgram s hno =>
    have hp : parse (entryText s) = none := by
      cases hp : parse (entryText s) with
      | none => rfl
      | some q => exact absurd (spells_iff.2 hp) (hno q)
    have : ∀ rs, runtimeEvalT cfg rs (entryText s) = .ret (rs, .fail (.err (parseError (entryText s)))) := by
      intro rs
      unfold runtimeEvalT
      rw [hp]
    refine procLine_rename h.err ?_ ?_
    · show ((runtimeEvalT cfg p'.rs (entryText s)).live _ _ _).log = ((runtimeEvalT cfg p.rs (entryText s)).live _ _ _).log
      rw [this, this]; rfl
    · show SameEntry X ρ ((runtimeEvalT cfg p.rs (entryText s)).live _ _ _).result ((runtimeEvalT cfg p'.rs (entryText s)).live _ _ _).result
      rw [this, this]
      refine ⟨h.rs, ?_⟩
      show EvalResult.fail _ = .fail (renameFail ρ _)
      rw [renameFail_nameless]
      intro x hx
      unfold parseError at hx
      injection hx with hx
      split at hx <;> cases hx
  | program hs hs' hx =>
    obtain ⟨h1, h2, h3⟩ := (entry_rename hρ cfg h.rs hs hs' hx).live cfg.fuel ω 0
    exact procLine_rename h.err h2 h3

theorem meets_rename {p p' : Proc} (h : SameProc X ρ p p') (d : Fs → Fs) : SameProc X ρ (p.meets d) (p'.meets d) :=
  ⟨⟨h.rs.known, h.rs.depth, h.rs.vars, by dsimp only [Proc.meets]; rw [h.rs.fs], h.rs.sink⟩, h.err⟩

include hρ in
theorem run_rename (cfg : Cfg) : ∀ {ts ts' : List LiveTick}, List.Forall₂ (RenamedTick entryText X ρ) ts ts' →
    ∀ {p p' : Proc}, SameProc X ρ p p' → SameStep X ρ (procRunL cfg p ts) (procRunL cfg p' ts')
  | _, _, .nil, p, p', h => ⟨h, rfl, rfl⟩
  | t :: ts, t' :: ts', .cons ht hts, p, p', h => by
    have hs := step_rename hρ cfg t.world (meets_rename h t.drift) ht.event
    rw [procRunL, procRunL, ht.drift, ht.world]
    generalize procStepL cfg t.world (p.meets t.drift) t.event = a at hs
    generalize procStepL cfg t.world (p'.meets t.drift) t'.event = b at hs
    obtain ⟨⟨a, x⟩, la⟩ := a
    obtain ⟨⟨b, y⟩, lb⟩ := b
    obtain ⟨h1, h2, h3⟩ := hs
    dsimp only at h1 h2 h3
    subst h2 h3
    cases y
    · obtain ⟨h4, h5, h6⟩ := run_rename cfg hts h1
      exact ⟨h4, h5, by dsimp only; rw [h6]⟩
    all_goals exact ⟨h1, rfl, rfl⟩

theorem initial_rename {T : Type} (f : Int → T) (g : Function → T) (hb : KeepsBuiltin builtinNames X ρ) (x : Str) (hx : X x) :
    initialScope f g (ρ x) = initialScope f g x := by
  by_cases h : builtinNames x ∨ builtinNames (ρ x)
  · rw [hb x hx h]
  · have hn : ∀ y, ¬ builtinNames y → initialScope f g y = none := by
      intro y hy
      rw [builtinNames_eq] at hy
      have : ¬ initialScope (fun _ => ()) (fun _ => ()) y ≠ none := by rwa [← defined_single]
      rw [initialScope_defined _ _ f g] at this
      simpa using this
    rw [hn x fun hh => h (.inl hh), hn _ fun hh => h (.inr hh)]

theorem new_rename (cfg : Cfg) (room : Option Nat) (hb : KeepsBuiltin builtinNames X ρ) :
    SameBut X ρ (RState.new cfg room) (RState.new cfg room) :=
  ⟨.cons (initial_rename _ _ hb) .nil, rfl, .cons (initial_rename _ _ hb) .nil, rfl, rfl⟩

theorem println_keeps (st : State) (s : Str) : (st.println s).1.vars = st.vars := by
  have := (write_same (st := st) (st' := st) rfl (s ++ ['\n'])).2.2.1
  unfold State.println
  generalize st.write (s ++ ['\n']) = w at this
  obtain ⟨w, r⟩ := w
  cases r <;> exact this

theorem printlns_vars : ∀ (ss : List Str) (st : State), (st.printlns ss).1.vars = st.vars
  | [], st => rfl
  | s :: ss, st => by
    have := println_keeps st s
    rw [State.printlns]
    generalize st.println s = w at this
    obtain ⟨w, b⟩ := w
    cases b
    · exact this
    · exact (printlns_vars ss w).trans this

theorem start_rename (cfg : Cfg) (room : Option Nat) (hb : KeepsBuiltin builtinNames X ρ) :
    SameProc X ρ (procStart cfg room).1 (procStart cfg room).1 := by
  have hv := printlns_vars welcomeLines (State.new cfg room)
  unfold procStart
  generalize (State.new cfg room).printlns welcomeLines = w at hv
  obtain ⟨ev, b⟩ := w
  dsimp only at hv
  have : SameBut X ρ ⟨AState.new, ev⟩ ⟨AState.new, ev⟩ :=
    ⟨(new_rename cfg room hb).known, rfl, by rw [hv]; exact (new_rename cfg room hb).vars, rfl, rfl⟩
  cases b
  · exact ⟨this, lines_same _⟩
  · exact ⟨this, .nil⟩

theorem end_rename (saved : Bool) {a b : Proc × ProcStatus} (h : SameProc X ρ a.1 b.1) (hs : b.2 = a.2) :
    (procEnd saved b).out = (procEnd saved a).out ∧ (procEnd saved b).exit = (procEnd saved a).exit ∧
      List.Forall₂ (SameLine ρ) (procEnd saved a).err (procEnd saved b).err := by
  obtain ⟨a, x⟩ := a
  obtain ⟨b, y⟩ := b
  dsimp only at h hs
  subst hs
  have ho : b.rs.ev.sink.out = a.rs.ev.sink.out := by rw [h.rs.sink]
  cases y
  case over =>
    cases saved
    · exact ⟨ho, rfl, forall₂_append h.err (lines_same _)⟩
    · exact ⟨ho, rfl, h.err⟩
  all_goals exact ⟨ho, rfl, h.err⟩

include hρ in
/-- **C94** Two sessions, event by event with the same entries up to the names of variables, in the same changing world:
the same output, the same exit, the same requests and warnings at the same moments; and the same lines on standard
error, up to the name of an unknown variable. Built-in names are kept. -/
theorem C94_session (hb : KeepsBuiltin builtinNames X ρ) (cfg : Cfg) (room : Option Nat) (editor saved : Bool)
    (ts ts' : List LiveTick) (h : List.Forall₂ (RenamedTick entryText X ρ) ts ts') :
    let s := replMainL cfg room editor saved ts
    let s' := replMainL cfg room editor saved ts'
    s'.1.out = s.1.out ∧ s'.1.exit = s.1.exit ∧ s'.2 = s.2 ∧ List.Forall₂ (SameLine ρ) s.1.err s'.1.err := by
  cases editor
  · exact ⟨rfl, rfl, rfl, lines_same _⟩
  · have hst := start_rename cfg room hb
    simp only [replMainL, if_true]
    generalize procStart cfg room = st at hst
    obtain ⟨p, x⟩ := st
    cases x
    · obtain ⟨h1, h2, h3⟩ := run_rename hρ { cfg with interactive := true } h hst
      obtain ⟨h4, h5, h6⟩ := end_rename saved h1 h2
      exact ⟨h4, h5, h3, h6⟩
    all_goals
      exact ⟨rfl, rfl, rfl, lines_same _⟩

theorem scriptExit_rename (r : EvalResult) : (scriptExit (renameResult ρ r)).2 = (scriptExit r).2 ∧
    List.Forall₂ (SameLine ρ) (scriptExit r).1 (scriptExit (renameResult ρ r)).1 := by
  cases r with
  | fail f =>
    cases f with
    | err e =>
      obtain ⟨e', h3, h4⟩ := line_rename (ρ := ρ) e
      rw [renameResult, h3]
      exact ⟨rfl, .cons h4 (lines_same _)⟩
    | _ => exact ⟨rfl, lines_same _⟩
  | _ => exact ⟨rfl, lines_same _⟩

include hρ in
/-- **C94** The same for scripts. -/
theorem C94_script (hb : KeepsBuiltin builtinNames X ρ) (cfg : Cfg) (room : Option Nat) (ω : Live) (s s' : Str) (p : List Stmt)
    (hs : Spells (stripComments s) p) (hs' : Spells (stripComments s') (renameP ρ p)) (hx : ∀ x ∈ mentionsP p, X x) :
    let r := scriptMainL cfg room ω (some (encoded s))
    let r' := scriptMainL cfg room ω (some (encoded s'))
    r'.1.out = r.1.out ∧ r'.1.exit = r.1.exit ∧ r'.2 = r.2 ∧ List.Forall₂ (SameLine ρ) r.1.err r'.1.err := by
  have hd : ∀ s, decodeUtf8 (encoded s) = some s := fun s => (C82_utf8 _ s).2 rfl
  obtain ⟨h1, h2, h3⟩ := (entry_rename hρ { cfg with interactive := false }
    (new_rename { cfg with interactive := false } room hb) hs hs' hx).live cfg.fuel ω 0
  simp only [scriptMainL, hd]
  generalize (runtimeEvalT { cfg with interactive := false } (RState.new { cfg with interactive := false } room)
    (stripComments s)).live cfg.fuel ω 0 = l at *
  generalize (runtimeEvalT { cfg with interactive := false } (RState.new { cfg with interactive := false } room)
    (stripComments s')).live cfg.fuel ω 0 = l' at *
  obtain ⟨h4, h5⟩ := h3
  obtain ⟨h6, h7⟩ := scriptExit_rename (ρ := ρ) l.result.2
  refine ⟨by rw [h4.sink], by rw [h5, h6], h2, ?_⟩
  rw [h2, h5]
  exact forall₂_append (lines_same _) h7

end

/-! ### the hypotheses can be met -/

/-- `x` becomes `total` -/
def toTotal (x : Str) : Str := if x = s!' "x" then s!' "total" else x

set_option maxRecDepth 100000 in
/-- a program and the same with another name for the variable `x`: the field name, the text and the built-in function
stay -/
theorem total_spelled : ∃ p, Spells s!' "x = key(1, 2, 3, 4); print x.min_type; print \"x\"; print y;" p ∧
    Spells s!' "total = key(1, 2, 3, 4); print total.min_type; print \"x\"; print y;" (renameP toTotal p) ∧
    (∀ z ∈ mentionsP p, z ∈ [s!' "x", s!' "y", s!' "key"]) := by
  refine ⟨[.assign (.ident s!' "x") (.call (.ident s!' "key") [.int 1, .int 2, .int 3, .int 4]),
      .print (.field (.ident s!' "x") (.ident s!' "min_type")), .print (.str s!' "x"), .print (.ident s!' "y")],
    spells_iff.2 (by with_unfolding_all rfl), spells_iff.2 (by with_unfolding_all rfl), ?_⟩
  simp [mentionsP, Stmt.mentions, Expr.uses, usesL]

theorem total_distinguishes : Distinguishes (· ∈ [s!' "x", s!' "y", s!' "key"]) toTotal := by
  intro x y hx hy h
  simp only [List.mem_cons, List.not_mem_nil, or_false] at hx hy
  rcases hx with rfl | rfl | rfl <;> rcases hy with rfl | rfl | rfl <;> first | rfl | (revert h; decide)

theorem total_builtin : KeepsBuiltin builtinNames (· ∈ [s!' "x", s!' "y", s!' "key"]) toTotal := by
  intro x hx h
  simp only [List.mem_cons, List.not_mem_nil, or_false] at hx
  rcases hx with rfl | rfl | rfl
  · exfalso; revert h; unfold builtinNames; decide +kernel
  · decide
  · decide

example (cfg : Cfg) (ω : Live) :
    (scriptMainL cfg none ω (some (encoded s!' "total = key(1, 2, 3, 4); print total.min_type; print \"x\"; print y;"))).1.out =
      (scriptMainL cfg none ω (some (encoded s!' "x = key(1, 2, 3, 4); print x.min_type; print \"x\"; print y;"))).1.out := by
  obtain ⟨p, h1, h2, h3⟩ := total_spelled
  have e1 : stripComments s!' "x = key(1, 2, 3, 4); print x.min_type; print \"x\"; print y;" =
      s!' "x = key(1, 2, 3, 4); print x.min_type; print \"x\"; print y;" := by decide +kernel
  have e2 : stripComments s!' "total = key(1, 2, 3, 4); print total.min_type; print \"x\"; print y;" =
      s!' "total = key(1, 2, 3, 4); print total.min_type; print \"x\"; print y;" := by decide +kernel
  exact (C94_script total_distinguishes total_builtin cfg none ω _ _ p (by rw [e1]; exact h1) (by rw [e2]; exact h2) h3).1

/-- **C94** A name that is built in cannot be given to a variable: `print x` fails, `print key` does not. -/
theorem C94_builtin_differs :
    (scriptMain demo none (some (encoded s!' "print x;"))).exit = .failure ∧
    (scriptMain demo none (some (encoded s!' "print key;"))).exit = .success := by
  constructor <;> (rw [C82_readable]; decide +kernel)

end Btrd
