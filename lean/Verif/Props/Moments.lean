/-
C88: a world that changes at any time, also while an entry is evaluated. The evaluator of `Model/Live` turns to the
operating system operation by operation; what it does is exactly what the rules of `Spec/Moments` and `Spec/LiveSession`
say: which operands are evaluated, in which order, and by the world of which moment each question is answered.
-/
import Verif.Lemmas.LiveSession

namespace Btrd
open Spec

/-! ### expressions and programs -/

/-- **C88** An expression has the value, at the moment, that the rules say, and every value the rules say is found,
given enough steps. -/
theorem C88_value (cfg : Cfg) (ω : Live) {σ : State} (hσ : GoodVars σ.vars) {e : Expr} (hl : Lits e) (t : Nat) (v : Value)
    (t' : Nat) :
    LiveEv ω (cfg.build.ovfChecks = false) (cfg.interactive = true) σ e t v t' ↔
      ∃ n, (evalExprT (cfg.steps n) σ e).ends n ω t = (.ok v, t') := by
  constructor
  · intro h
    obtain ⟨n, hn⟩ := ev_comes cfg ω hσ h hl
    exact ⟨n, hn n (Nat.le_refl n)⟩
  · rintro ⟨n, hn⟩
    exact (sound (cfg.steps n) ω hσ e hl t t').1 v hn

/-- **C88** An expression fails with the message that the rules say, and every message the rules say is given. -/
theorem C88_complaint (cfg : Cfg) (ω : Live) {σ : State} (hσ : GoodVars σ.vars) {e : Expr} (hl : Lits e) (t : Nat)
    (m : Option Str) :
    LiveFails ω (cfg.build.ovfChecks = false) (cfg.interactive = true) σ e t m ↔
      ∃ n er t', (evalExprT (cfg.steps n) σ e).ends n ω t = (.error (.err er), t') ∧ er.text = m := by
  constructor
  · intro h
    obtain ⟨n, hn⟩ := fails_comes cfg ω hσ h hl
    exact ⟨n, hn n (Nat.le_refl n)⟩
  · rintro ⟨n, er, t', hn, rfl⟩
    exact (sound (cfg.steps n) ω hσ e hl t t').2 er hn

/-- **C88** A program ends, in the state, at the moment and in the way that the rules say, and it does everything the
rules say, given enough steps. -/
theorem C88_program (cfg : Cfg) (ω : Live) {p : List Stmt} (hl : allE Lits p) {σ : State} (hσ : GoodVars σ.vars) (t : Nat)
    (σ' : State) (h : How) :
    GoesAll ω (cfg.build.ovfChecks = false) (cfg.interactive = true) p σ t σ' h ↔
      ∃ n, Comes ((evalStmtsT (cfg.steps n) p σ).ends n ω t) σ' h := by
  constructor
  · intro hg
    obtain ⟨n, hn⟩ := goesAll_comes cfg ω hg hσ hl
    exact ⟨n, hn n (Nat.le_refl n)⟩
  · rintro ⟨n, hn⟩
    have hg := stmts_goes (cfg.steps n) ω p hl σ hσ t
    rcases hg with hg | ⟨h', h1, h2⟩
    · exact absurd hg (comes_not_lost hn)
    · obtain ⟨h3, h4⟩ := comes_unique h2 hn
      rw [← h3, ← h4]
      exact h1

/-- **C88** The rules leave no choice: the moments at which the world answers determine what a program does. -/
theorem C88_unique (cfg : Cfg) (ω : Live) {p : List Stmt} (hl : allE Lits p) {σ : State} (hσ : GoodVars σ.vars) {t : Nat}
    {σ₁ σ₂ : State} {h₁ h₂ : How}
    (g₁ : GoesAll ω (cfg.build.ovfChecks = false) (cfg.interactive = true) p σ t σ₁ h₁)
    (g₂ : GoesAll ω (cfg.build.ovfChecks = false) (cfg.interactive = true) p σ t σ₂ h₂) : σ₁ = σ₂ ∧ h₁ = h₂ := by
  obtain ⟨n, hn⟩ := goesAll_comes cfg ω g₁ hσ hl
  obtain ⟨m, hm⟩ := goesAll_comes cfg ω g₂ hσ hl
  exact comes_unique (hn (max n m) (by omega)) (hm (max n m) (by omega))

/-- **C88** Whatever the world answers, and whenever it changes, an accepted program of a release build does not
panic, and it leaves as many scopes as there were. -/
theorem C88_no_panic (cfg : Cfg) (hb : cfg.build.ovfChecks = false) (ω : Live) {p : List Stmt} (hl : allE Lits p)
    {D : Names} (ha : AcceptedL D False p) {σ : State} (hσ : GoodVars σ.vars) (hne : σ.vars ≠ []) (t : Nat) :
    ((evalStmtsT cfg p σ).ends cfg.fuel ω t).1.2 ≠ .fail .panic ∧
      ((evalStmtsT cfg p σ).ends cfg.fuel ω t).1.1.vars.length = σ.vars.length :=
  stmts_kept cfg hb ω p hl (acceptedL_sound _ _ p ha) σ hσ hne t

/-! ### sessions -/

/-- what is seen of a process, without the warnings -/
def Ended.unwarned (e : Ended) : Ended := ⟨e.out, besides e.err, e.exit⟩

theorem session_seen (cfg : Cfg) (hb : cfg.build.ovfChecks = false) (room : Option Nat) (saved : Bool)
    (ts : List LiveTick) (hne : (replMainL cfg room true saved ts).1.exit ≠ .busy) :
    LiveSeen True entryText builtinNames (State.new cfg room) saved ts (replMainL cfg room true saved ts).1.unwarned := by
  unfold replMainL at hne ⊢
  simp only [if_true] at hne ⊢
  rcases welcome_rule cfg room with ⟨σ, ho, hst⟩ | ⟨σ, ho, hst⟩
  · have hr := run_live { cfg with interactive := true } hb rfl ts ⟨⟨AState.new, σ⟩, []⟩ (sess_start cfg room ho).able
    rw [hst] at hne ⊢
    dsimp only at hne ⊢
    rw [← builtinNames_eq] at hr
    generalize procRunL { cfg with interactive := true } ⟨⟨AState.new, σ⟩, []⟩ ts = r at hne hr
    obtain ⟨⟨p, x⟩, log⟩ := r
    cases x with
    | running =>
      obtain ⟨l, h1, h2⟩ := hr (by simp)
      dsimp only at h1 h2
      have h1 : besides p.err = l := h1
      dsimp only [procEnd, Ended.unwarned]
      rw [h1]
      exact .waits ho h2
    | over =>
      obtain ⟨l, h1, h2⟩ := hr (by simp)
      dsimp only at h1 h2
      have h1 : besides p.err = l := h1
      cases saved with
      | true =>
        dsimp only [procEnd, Ended.unwarned]
        simp only [if_true]
        rw [h1]
        exact .over ho h2 rfl
      | false =>
        dsimp only [procEnd, Ended.unwarned]
        simp only [Bool.false_eq_true, if_false]
        rw [besides_append, h1]
        exact .unsaved ho h2 rfl
    | panicked =>
      obtain ⟨l, h1, h2⟩ := hr (by simp)
      dsimp only at h1 h2
      have h1 : besides p.err = l := h1
      dsimp only [procEnd, Ended.unwarned]
      rw [h1]
      exact .panics ho h2
    | hung => exact absurd rfl hne
  · rw [hst]
    exact .mute ho

theorem seen_comes (cfg : Cfg) (hb : cfg.build.ovfChecks = false) (room : Option Nat) (saved : Bool) (ts : List LiveTick)
    {e : Ended} (h : LiveSeen True entryText builtinNames (State.new cfg room) saved ts e) :
    e.exit ≠ .busy ∧ ∃ n, ∀ k, n ≤ k → (replMainL (cfg.steps k) room true saved ts).1.unwarned = e := by
  have key : ∀ {σ D' σ' l r}, Outputs banner (State.new cfg room) σ .done →
      LiveConverses True entryText builtinNames σ ts D' σ' l r →
      ∃ n, ∀ k, n ≤ k → ∃ p log, replMainL (cfg.steps k) room true saved ts = (procEnd saved (p, r), log) ∧
        p.out = σ'.sink.out ∧ besides p.err = l := by
    intro σ D' σ' l r ho hc
    rcases welcome_rule cfg room with ⟨σ₁, ho', hst⟩ | ⟨σ₁, ho', hst⟩
    · obtain ⟨rfl, -⟩ := outputs_unique ho ho'
      have hs := (sess_start cfg room ho).able
      obtain ⟨n, rs', h1, h2⟩ := converses_comes { cfg with interactive := true } hb rfl hc ⟨AState.new, σ⟩ hs
        builtinNames_eq.symm rfl
      refine ⟨n, fun k hk => ?_⟩
      obtain ⟨err', h3, h4⟩ := h2 k hk []
      refine ⟨⟨rs', err'⟩, (procRunL (Cfg.steps { cfg with interactive := true } k) ⟨⟨AState.new, σ⟩, []⟩ ts).2, ?_, ?_, h4⟩
      · simp only [replMainL, if_true, start_steps, hst]
        rw [← h3]
        rfl
      · rw [← h1]
    · exact absurd (outputs_unique ho ho').2 (by simp)
  cases h with
  | mute ho =>
    refine ⟨by simp, 0, fun k _ => ?_⟩
    rcases welcome_rule cfg room with ⟨σ₁, ho', hst⟩ | ⟨σ₁, ho', hst⟩
    · exact absurd (outputs_unique ho ho').2 (by simp)
    · obtain ⟨rfl, -⟩ := outputs_unique ho ho'
      simp only [replMainL, if_true, start_steps, hst, procEnd, Ended.unwarned]
      rfl
  | waits ho hc =>
    obtain ⟨n, hn⟩ := key ho hc
    refine ⟨by simp, n, fun k hk => ?_⟩
    obtain ⟨p, log, h1, h2, h3⟩ := hn k hk
    simp only [h1, procEnd, Ended.unwarned]
    rw [← h2, h3]
  | over ho hc hsv =>
    subst hsv
    obtain ⟨n, hn⟩ := key ho hc
    refine ⟨by simp, n, fun k hk => ?_⟩
    obtain ⟨p, log, h1, h2, h3⟩ := hn k hk
    simp only [h1, procEnd, Ended.unwarned, if_true]
    rw [← h2, h3]
  | unsaved ho hc hsv =>
    subst hsv
    obtain ⟨n, hn⟩ := key ho hc
    refine ⟨by simp, n, fun k hk => ?_⟩
    obtain ⟨p, log, h1, h2, h3⟩ := hn k hk
    simp only [h1, procEnd, Ended.unwarned, Bool.false_eq_true, if_false]
    rw [← h2, besides_append, h3]
    rfl
  | panics ho hc =>
    obtain ⟨n, hn⟩ := key ho hc
    refine ⟨by simp, n, fun k hk => ?_⟩
    obtain ⟨p, log, h1, h2, h3⟩ := hn k hk
    simp only [h1, procEnd, Ended.unwarned]
    rw [← h2, h3]

/-- **C88** What is seen of a session of a release build, besides the warnings, is what the rules say, and everything
the rules say is seen, given enough steps, whatever becomes of the world at whatever moment and whatever standard
output takes. -/
theorem C88_session (cfg : Cfg) (hb : cfg.build.ovfChecks = false) (room : Option Nat) (saved : Bool) (ts : List LiveTick)
    (e : Ended) :
    (e.exit ≠ .busy ∧ ∃ n, (replMainL (cfg.steps n) room true saved ts).1.unwarned = e) ↔
      LiveSeen True entryText builtinNames (State.new cfg room) saved ts e := by
  constructor
  · rintro ⟨hne, n, rfl⟩
    exact session_seen (cfg.steps n) hb room saved ts hne
  · intro h
    obtain ⟨h1, n, h2⟩ := seen_comes cfg hb room saved ts h
    exact ⟨h1, n, h2 n (Nat.le_refl n)⟩

/-- **C88** What is seen does not depend on the number of steps, once it is enough: no two numbers of steps that are
enough show different things, and all larger numbers than one that is enough are enough from some number on. -/
theorem C88_settled (cfg : Cfg) (hb : cfg.build.ovfChecks = false) (room : Option Nat) (saved : Bool) (ts : List LiveTick)
    (n : Nat) (hn : (replMainL (cfg.steps n) room true saved ts).1.exit ≠ .busy) :
    (∀ m, (replMainL (cfg.steps m) room true saved ts).1.exit ≠ .busy →
      (replMainL (cfg.steps m) room true saved ts).1.unwarned = (replMainL (cfg.steps n) room true saved ts).1.unwarned) ∧
    ∃ n', ∀ m, n' ≤ m →
      (replMainL (cfg.steps m) room true saved ts).1.unwarned = (replMainL (cfg.steps n) room true saved ts).1.unwarned := by
  obtain ⟨-, n', h⟩ := seen_comes cfg hb room saved ts (session_seen (cfg.steps n) hb room saved ts hn)
  refine ⟨fun m hm => ?_, n', h⟩
  obtain ⟨-, m', h'⟩ := seen_comes cfg hb room saved ts (session_seen (cfg.steps m) hb room saved ts hm)
  rw [← h (max n' m') (by omega), ← h' (max n' m') (by omega)]

/-- **C88** In a world that is steady while an entry is evaluated the rules are those of C86. -/
theorem C88_steady (cfg : Cfg) (hb : cfg.build.ovfChecks = false) (room : Option Nat) (saved : Bool) (ts : List Tick)
    (e : Ended) :
    LiveSeen True entryText builtinNames (State.new cfg room) saved (ts.map Tick.steady) e ↔
      Seen True entryText builtinNames (State.new cfg room) saved ts e := by
  rw [← C88_session cfg hb, ← C86_session cfg hb]
  have h : ∀ n, (replMainL (cfg.steps n) room true saved (ts.map Tick.steady)).1.unwarned =
      replMain (cfg.steps n) room true saved ts := fun n => C87_besides (cfg.steps n) room true saved ts
  simp only [h]

/-! ### scripts -/

theorem besides_exit (r : EvalResult) : besides (scriptExit r).1 = (scriptExit r).1 := by
  cases r with
  | fail f => cases f <;> rfl
  | _ => rfl

theorem scriptL_readable (cfg : Cfg) (room : Option Nat) (ω : Live) (s : Str) :
    (scriptMainL cfg room ω (some (encoded s))).1.unwarned =
      ⟨((runtimeEvalT { cfg with interactive := false } (RState.new cfg room) (stripComments s)).live cfg.fuel ω 0).result.1.ev.sink.out,
       (scriptExit ((runtimeEvalT { cfg with interactive := false } (RState.new cfg room) (stripComments s)).live cfg.fuel ω 0).result.2).1,
       (scriptExit ((runtimeEvalT { cfg with interactive := false } (RState.new cfg room) (stripComments s)).live cfg.fuel ω 0).result.2).2⟩ := by
  simp only [scriptMainL, (C82_utf8 _ s).2 rfl, Ended.unwarned, besides_append, besides_lines, List.nil_append, besides_exit]
  rfl

theorem scriptL_unreadable (cfg : Cfg) (room : Option Nat) (ω : Live) (file : Option Bytes) (h : ∀ s, file ≠ some (encoded s)) :
    (scriptMainL cfg room ω file).1.unwarned = ⟨[], [.error none], .failure⟩ := by
  cases file with
  | none => rfl
  | some b =>
    simp only [scriptMainL]
    cases hd : decodeUtf8 b with
    | none => rfl
    | some s => exact absurd (by rw [(C82_utf8 b s).1 hd]) (h s)

theorem script_ran (cfg : Cfg) (hb : cfg.build.ovfChecks = false) (room : Option Nat) (ω : Live) (file : Option Bytes)
    (hne : (scriptMainL cfg room ω file).1.exit ≠ .busy) :
    LiveRan True stripComments ω builtinNames (State.new cfg room) file
      (scriptMainL cfg room ω file).1.unwarned := by
  have hw : (cfg.build.ovfChecks = false) = True := by simp [hb]
  have hf : (false = true) = False := by simp
  have hd : defined (RState.new cfg room).sem.vars = builtinNames := builtinNames_eq.symm
  have hs := (sess_initial cfg room).able
  by_cases hfile : ∃ s, file = some (encoded s)
  · obtain ⟨s, rfl⟩ := hfile
    have hx : (scriptMainL cfg room ω (some (encoded s))).1.unwarned.exit ≠ .busy := hne
    rw [scriptL_readable] at hx ⊢
    rcases runtimeT_cases { cfg with interactive := false } ω (RState.new cfg room) (stripComments s) with
      ⟨hp, he⟩ | ⟨p, er, hp, her, he⟩ | ⟨p, hp, hok, he⟩
    · dsimp only at he
      rw [he]
      obtain ⟨m, hu, hm⟩ := unread_text hp
      dsimp only [scriptExit]
      rw [hm]
      exact .noProgram hu
    · dsimp only at he
      rw [he]
      have ha := analyzed_stmts p (RState.new cfg room).sem hs.sess.semNe
      obtain ⟨x, rfl, -⟩ := ha.err er her
      rcases C83_accepted_or_refused (defined (RState.new cfg room).sem.vars) p with hacc | ⟨m, hm⟩
      · rw [(accepted_session hs.sess p).2 hacc] at her
        simp at her
      · obtain ⟨y, h1, h2⟩ := (refused_session hs.sess p m).1 hm
        dsimp only at h1
        rw [her] at h1
        simp only [Except.error.injEq, Fail.err.injEq] at h1
        subst h1
        dsimp only [scriptExit]
        rw [h2]
        rw [hd] at hm
        exact .refused (spells_iff.2 hp) hm
    · dsimp only at he
      rw [he] at hx ⊢
      have hacc := (accepted_session hs.sess p).1 hok
      have hgo := entry_goes { cfg with interactive := false } hb ω hs hp hacc rfl
      rw [hd] at hacc
      dsimp only at hgo
      generalize (evalStmtsT { cfg with interactive := false } p (RState.new cfg room).ev).ends cfg.fuel ω 0 = r at hx hgo
      obtain ⟨⟨σ₁, x⟩, t⟩ := r
      dsimp only at hx hgo ⊢
      rcases hgo with rfl | ⟨h, h1, h2, h3, -, -⟩
      · exact absurd rfl hx
      · unfold LGoesAll Cfg.wraps at h1
        dsimp only at h1
        rw [hw, hf] at h1
        cases h with
        | done t =>
          simp only [Comes, Prod.mk.injEq] at h2
          obtain ⟨⟨-, rfl⟩, rfl⟩ := h2
          exact .ends (spells_iff.2 hp) hacc h1 (.inl ⟨_, rfl⟩)
        | brk t => exact absurd rfl (h3.1 t)
        | cont t => exact absurd rfl (h3.2 t)
        | quit =>
          simp only [Comes, Prod.mk.injEq] at h2
          obtain ⟨-, rfl⟩ := h2
          exact .ends (spells_iff.2 hp) hacc h1 (.inr rfl)
        | failed m =>
          obtain ⟨er, h2, rfl⟩ := h2
          simp only [Prod.mk.injEq] at h2
          obtain ⟨-, rfl⟩ := h2
          exact .fails (spells_iff.2 hp) hacc h1
  · rw [scriptL_unreadable _ _ _ _ (fun s hs => hfile ⟨s, hs⟩)]
    exact .unreadable fun s hs => hfile ⟨s, hs⟩

theorem ran_comes (cfg : Cfg) (hb : cfg.build.ovfChecks = false) (room : Option Nat) (ω : Live) (file : Option Bytes)
    {e : Ended} (h : LiveRan True stripComments ω builtinNames (State.new cfg room) file e) :
    e.exit ≠ .busy ∧ ∃ n, ∀ k, n ≤ k → (scriptMainL (cfg.steps k) room ω file).1.unwarned = e := by
  have hw : (cfg.build.ovfChecks = false) = True := by simp [hb]
  have hf : (false = true) = False := by simp
  have hd : defined (RState.new cfg room).sem.vars = builtinNames := builtinNames_eq.symm
  have hs := (sess_initial cfg room).able
  have run : ∀ {s p σ h}, parse (stripComments s) = some p → AcceptedL builtinNames False p →
      GoesAll ω True False p (State.new cfg room) 0 σ h → ∃ n, ∀ k, n ≤ k → ∃ x t, Comes ((σ, x), t) σ h ∧
        (scriptMainL (cfg.steps k) room ω (some (encoded s))).1.unwarned =
          ⟨σ.sink.out, (scriptExit x.toEvalResult).1, (scriptExit x.toEvalResult).2⟩ := by
    intro s p σ h hp ha hg
    have hg' : LGoesAll { cfg with interactive := false } ω p (State.new cfg room) 0 σ h := by
      unfold LGoesAll Cfg.wraps
      dsimp only
      rw [hw, hf]
      exact hg
    obtain ⟨n, hn⟩ := goesAll_comes { cfg with interactive := false } ω hg' initial_good (parse_literals hp)
    refine ⟨n, fun k hk => ?_⟩
    have hc := hn k hk
    dsimp only at hc
    rw [scriptL_readable]
    have hst : RState.new (cfg.steps k) room = RState.new cfg room := rfl
    rw [hst]
    rcases runtimeT_cases { cfg.steps k with interactive := false } ω (RState.new cfg room) (stripComments s) with
      ⟨h0, _⟩ | ⟨q', e', h0, her, _⟩ | ⟨q', h0, hok, he⟩
    · rw [hp] at h0; cases h0
    · rw [hp] at h0; cases h0
      rw [← hd] at ha
      rw [(accepted_session hs.sess p).2 ha] at her
      simp at her
    · rw [hp] at h0; cases h0
      dsimp only at he
      rw [he]
      dsimp only
      have hc : Comes ((evalStmtsT { cfg.steps k with interactive := false } p (RState.new cfg room).ev).ends
        (cfg.steps k).fuel ω 0) σ h := hc
      generalize (evalStmtsT { cfg.steps k with interactive := false } p (RState.new cfg room).ev).ends
        (cfg.steps k).fuel ω 0 = r at hc
      obtain ⟨⟨σ₁, x⟩, t⟩ := r
      have hσ : σ₁ = σ := by
        cases h with
        | done t => simp only [Comes, Prod.mk.injEq] at hc; exact hc.1.1
        | brk t => simp only [Comes, Prod.mk.injEq] at hc; exact hc.1.1
        | cont t => simp only [Comes, Prod.mk.injEq] at hc; exact hc.1.1
        | quit => simp only [Comes, Prod.mk.injEq] at hc; exact hc.1
        | failed m => obtain ⟨er, h2, -⟩ := hc; simp only [Prod.mk.injEq] at h2; exact h2.1
      subst hσ
      exact ⟨x, t, hc, rfl⟩
  cases h with
  | unreadable hun => exact ⟨by simp, 0, fun k _ => scriptL_unreadable _ _ _ _ hun⟩
  | noProgram hp =>
    refine ⟨by simp, 0, fun k _ => ?_⟩
    obtain ⟨m', hu, hm⟩ := unread_text (unread_iff.2 ⟨_, hp⟩)
    cases unread_unique hp hu
    rw [scriptL_readable]
    unfold runtimeEvalT
    rw [unread_iff.2 ⟨_, hp⟩]
    dsimp only [scriptExit, T.live]
    rw [hm]
    rfl
  | refused hp hm =>
    rename_i s p m
    refine ⟨by simp, 0, fun k _ => ?_⟩
    rw [← hd] at hm
    obtain ⟨y, h1, h2⟩ := (refused_session hs.sess p _).1 hm
    dsimp only at h1
    rw [scriptL_readable]
    unfold runtimeEvalT
    rw [spells_iff.1 hp]
    dsimp only
    have h1' : (analyzeStmts p (RState.new (cfg.steps k) room).sem).2 = .error (.err y) := h1
    generalize analyzeStmts p (RState.new (cfg.steps k) room).sem = z at h1'
    obtain ⟨sem, z⟩ := z
    simp only at h1'
    subst h1'
    dsimp only [scriptExit, T.live]
    rw [h2]
    rfl
  | ends hp ha hr ho =>
    refine ⟨by simp, ?_⟩
    obtain ⟨n, hn⟩ := run (spells_iff.1 hp) ha hr
    refine ⟨n, fun k hk => ?_⟩
    obtain ⟨x, t, hc, hk⟩ := hn k hk
    rw [hk]
    rcases ho with ⟨t', rfl⟩ | rfl
    · simp only [Comes, Prod.mk.injEq] at hc
      rw [hc.1.2]
      rfl
    · simp only [Comes, Prod.mk.injEq] at hc
      rw [hc.2]
      rfl
  | fails hp ha hr =>
    refine ⟨by simp, ?_⟩
    obtain ⟨n, hn⟩ := run (spells_iff.1 hp) ha hr
    refine ⟨n, fun k hk => ?_⟩
    obtain ⟨x, t, hc, hk⟩ := hn k hk
    rw [hk]
    obtain ⟨er, h2, rfl⟩ := hc
    simp only [Prod.mk.injEq] at h2
    rw [h2.2]
    rfl

/-- **C88** What is seen of a script run of a release build, besides the warnings, is what the rules say, and everything
the rules say is seen, given enough steps, whatever becomes of the world while the script runs. -/
theorem C88_script (cfg : Cfg) (hb : cfg.build.ovfChecks = false) (room : Option Nat) (ω : Live) (file : Option Bytes)
    (e : Ended) :
    (e.exit ≠ .busy ∧ ∃ n, (scriptMainL (cfg.steps n) room ω file).1.unwarned = e) ↔
      LiveRan True stripComments ω builtinNames (State.new cfg room) file e := by
  constructor
  · rintro ⟨hne, n, rfl⟩
    exact script_ran (cfg.steps n) hb room ω file hne
  · intro h
    obtain ⟨h1, n, h2⟩ := ran_comes cfg hb room ω file h
    exact ⟨h1, n, h2 n (Nat.le_refl n)⟩

/-- **C88** In a world that is steady while the script runs the rules are those of C86. -/
theorem C88_script_steady (cfg : Cfg) (hb : cfg.build.ovfChecks = false) (room : Option Nat) (file : Option Bytes)
    (e : Ended) :
    LiveRan True stripComments (.steady cfg.host) builtinNames (State.new cfg room) file e ↔
      Ran True stripComments cfg.host builtinNames (State.new cfg room) file e := by
  rw [← C88_script cfg hb, ← C86_script cfg hb]
  have h : ∀ n, (scriptMainL (cfg.steps n) room (.steady cfg.host) file).1.unwarned =
      scriptMain (cfg.steps n) room file := fun n => C87_script_besides (cfg.steps n) room file
  simp only [h]

/-! ### witnesses -/

/-- the session of `oddTicks`, in which the filesystem changes between two searches of one entry, is one of the rules -/
example : LiveSeen True entryText builtinNames (State.new odd none) true oddTicks
    ⟨banner ++ s!' "20\n2\nquit\n",
     [.error (some s!' "Unknown variable: nothing"), .error (some s!' "Divide by zero")], .success⟩ := by
  refine (C88_session odd rfl none true oddTicks _).1 ⟨by simp, 10, ?_⟩
  have h : odd.steps 10 = odd := rfl
  rw [h, odd_session]
  rfl

/-- a world in which every other search of a mounted filesystem finds nothing -/
def flicker : Live :=
  ⟨fun _ => odd.host, fun t fs => if t % 2 = 0 then .mounted (batchKernel (fun _ => []) fun _ => 9) else fs⟩

/-- the same search does not give the same twice: `search(…) == search(…)` need not hold, also not with itself -/
def sameTwice : Str :=
  s!' "filesystem \"/m\"; x = len(search(11, key(0, 0, 0, 0))); y = len(search(11, key(0, 0, 0, 0))); print x; print y; print len(search(11, key(0, 0, 0, 0))) == len(search(11, key(0, 0, 0, 0)));"

theorem same_twice : (scriptMainL odd none flicker (some (encoded sameTwice))).1.unwarned =
    ⟨s!' "2\n0\nfalse\n", [], .success⟩ := by decide +kernel

example : LiveRan True stripComments flicker builtinNames (State.new odd none) (some (encoded sameTwice))
    ⟨s!' "2\n0\nfalse\n", [], .success⟩ :=
  (C88_script odd rfl none flicker _ _).1 ⟨by simp, 10, same_twice⟩

end Btrd
