/-
C86: the process seen from outside: standard output, standard error and exit status, of scripts and of sessions, in
a world that may change between the entries, with a standard output that may stop taking anything.
-/
import Verif.Lemmas.Streams
import Verif.Props.Main

namespace Btrd
open Spec

/-! ### sessions -/

theorem start_steps (cfg : Cfg) (n : Nat) (room : Option Nat) : procStart (cfg.steps n) room = procStart cfg room := by
  have h : State.new (cfg.steps n) room = State.new cfg room := rfl
  unfold procStart
  rw [h]

theorem start_checks (cfg : Cfg) (b : Bool) (room : Option Nat) : procStart (cfg.checks b) room = procStart cfg room := by
  have h : State.new (cfg.checks b) room = State.new cfg room := rfl
  unfold procStart
  rw [h]

theorem welcome_rule (cfg : Cfg) (room : Option Nat) :
    (∃ σ, Outputs banner (State.new cfg room) σ .done ∧ procStart cfg room = (⟨⟨AState.new, σ⟩, []⟩, .running)) ∨
    (∃ σ, Outputs banner (State.new cfg room) σ .failed ∧ procStart cfg room = (⟨⟨AState.new, σ⟩, [.panicked]⟩, .panicked)) := by
  have hbn : welcomeLines.flatMap (· ++ ['\n']) = banner := by decide
  cases room with
  | none =>
    left
    refine ⟨(State.new cfg none).after banner, ?_, start_none cfg⟩
    exact Outputs.free (out := [])
  | some n =>
    have h1 := printlns_cut (n := n) welcomeLines (State.new cfg none) rfl (Nat.zero_le n)
    have hs : (State.new cfg none).limit n = State.new cfg (some n) := rfl
    rw [hs, hbn] at h1
    unfold procStart
    have ho : (State.new cfg none).sink.out = [] := rfl
    rw [ho, List.nil_append] at h1
    by_cases hle : banner.length ≤ n
    · rw [if_pos hle] at h1
      left
      refine ⟨_, ?_, by rw [h1]⟩
      have := Outputs.room (t := banner) (out := []) (n := n - banner.length) (vars := (State.new cfg none).vars)
        (fs := (State.new cfg none).fs)
      rw [show banner.length + (n - banner.length) = n by omega] at this
      exact this
    · rw [if_neg hle] at h1
      right
      refine ⟨_, ?_, by rw [h1]⟩
      exact Outputs.full (t := banner) (out := []) (n := n) (vars := (State.new cfg none).vars)
        (fs := (State.new cfg none).fs) (by omega)

theorem sess_start (cfg : Cfg) (room : Option Nat) {σ : State} {o : Outcome} (h : Outputs banner (State.new cfg room) σ o) :
    Sess ⟨AState.new, σ⟩ := sess_ev (sess_initial cfg room) (outputs_vars h)

/-- **C86** What is seen of a session of a release build is what the rules say, and everything the rules say is
seen: given enough steps, standard output, standard error and the exit status are exactly those of the rules,
whatever becomes of the world between the entries and whatever standard output takes. -/
theorem C86_session (cfg : Cfg) (hb : cfg.build.ovfChecks = false) (room : Option Nat) (saved : Bool) (ts : List Tick)
    (e : Ended) :
    (e.exit ≠ .busy ∧ ∃ n, replMain (cfg.steps n) room true saved ts = e) ↔
      Seen True entryText builtinNames (State.new cfg room) saved ts e := by
  constructor
  · rintro ⟨hne, n, rfl⟩
    simp only [replMain, if_true] at hne ⊢
    rcases welcome_rule cfg room with ⟨σ, ho, hst⟩ | ⟨σ, ho, hst⟩
    · have hs := sess_start cfg room ho
      have hr := run_converses { cfg.steps n with interactive := true } hb rfl ts ⟨⟨AState.new, σ⟩, []⟩ hs
      unfold procSession at hne ⊢
      rw [start_steps, hst] at hne ⊢
      dsimp only at hne ⊢
      rw [← builtinNames_eq] at hr
      generalize procRun { cfg.steps n with interactive := true } ⟨⟨AState.new, σ⟩, []⟩ ts = r at hne hr
      obtain ⟨p, x⟩ := r
      cases x with
      | running =>
        obtain ⟨l, h1, h2⟩ := hr (by simp)
        rw [List.nil_append] at h1
        dsimp only [procEnd]
        dsimp only at h1 h2
        rw [h1]
        exact .waits ho h2
      | over =>
        obtain ⟨l, h1, h2⟩ := hr (by simp)
        rw [List.nil_append] at h1
        dsimp only [procEnd]
        dsimp only at h1 h2
        rw [h1]
        cases saved with
        | true => exact .over ho h2 rfl
        | false => exact .unsaved ho h2 rfl
      | panicked =>
        obtain ⟨l, h1, h2⟩ := hr (by simp)
        rw [List.nil_append] at h1
        dsimp only [procEnd]
        dsimp only at h1 h2
        rw [h1]
        exact .panics ho h2
      | hung => exact absurd rfl hne
    · unfold procSession
      rw [start_steps, hst]
      exact .mute ho
  · intro h
    have key : ∀ {σ D' σ' l r}, Outputs banner (State.new cfg room) σ .done →
        Converses True entryText builtinNames σ ts D' σ' l r →
        ∃ n p, procSession (cfg.steps n) room ts = (p, r) ∧ p.out = σ'.sink.out ∧ p.err = l ∧ r ≠ .hung := by
      intro σ D' σ' l r ho hc
      rcases welcome_rule cfg room with ⟨σ₁, ho', hst⟩ | ⟨σ₁, ho', hst⟩
      · obtain ⟨rfl, -⟩ := outputs_unique ho ho'
        have hs := sess_start cfg room ho
        obtain ⟨n, hn⟩ := converses_ends { cfg with interactive := true } hb rfl hc ⟨⟨AState.new, σ⟩, []⟩ hs
          builtinNames_eq.symm rfl
        obtain ⟨l', h1, h2⟩ := run_converses (Cfg.steps { cfg with interactive := true } n) hb rfl ts ⟨⟨AState.new, σ⟩, []⟩ hs hn
        rw [← builtinNames_eq] at h2
        obtain ⟨-, e2, e3, e4⟩ := converses_unique entry_lits hc hs.good h2
        have hps : procSession (cfg.steps n) room ts =
            procRun (Cfg.steps { cfg with interactive := true } n) ⟨⟨AState.new, σ⟩, []⟩ ts := by
          unfold procSession
          rw [start_steps, hst]
          rfl
        refine ⟨n, (procRun (Cfg.steps { cfg with interactive := true } n) ⟨⟨AState.new, σ⟩, []⟩ ts).1, ?_, ?_, ?_, ?_⟩
        · rw [hps, e4]
        · rw [e2]
        · rw [h1, e3]; rfl
        · rw [e4]; exact hn
      · exact absurd (outputs_unique ho ho').2 (by simp)
    cases h with
    | mute ho =>
      refine ⟨by simp, 0, ?_⟩
      rcases welcome_rule cfg room with ⟨σ₁, ho', hst⟩ | ⟨σ₁, ho', hst⟩
      · exact absurd (outputs_unique ho ho').2 (by simp)
      · obtain ⟨rfl, -⟩ := outputs_unique ho ho'
        simp only [replMain, if_true, procSession, start_steps, hst, procEnd]
    | waits ho hc =>
      obtain ⟨n, p, h1, h2, h3, -⟩ := key ho hc
      refine ⟨by simp, n, ?_⟩
      simp only [replMain, if_true, h1, procEnd]
      rw [← h2, h3]
    | over ho hc hsv =>
      obtain ⟨n, p, h1, h2, h3, -⟩ := key ho hc
      refine ⟨by simp, n, ?_⟩
      simp only [replMain, if_true, h1, procEnd, hsv]
      rw [← h2, h3]
    | unsaved ho hc hsv =>
      obtain ⟨n, p, h1, h2, h3, -⟩ := key ho hc
      refine ⟨by simp, n, ?_⟩
      simp only [replMain, if_true, h1, procEnd, hsv]
      rw [← h2, h3]
      rfl
    | panics ho hc =>
      obtain ⟨n, p, h1, h2, h3, -⟩ := key ho hc
      refine ⟨by simp, n, ?_⟩
      simp only [replMain, if_true, h1, procEnd]
      rw [← h2, h3]

/-- **C86** What is seen does not depend on the number of steps, once it is enough. -/
theorem C86_settled (cfg : Cfg) (room : Option Nat) (editor saved : Bool) (ts : List Tick) (n n' : Nat) (h : n ≤ n')
    (hd : (replMain (cfg.steps n) room editor saved ts).exit ≠ .busy) :
    replMain (cfg.steps n') room editor saved ts = replMain (cfg.steps n) room editor saved ts := by
  cases editor with
  | false => simp [replMain]
  | true =>
    have hm := run_more { cfg with interactive := true } n n' h
    have hs : ∀ k, procSession (cfg.steps k) room ts = match procStart cfg room with
        | (p, .running) => procRun (Cfg.steps { cfg with interactive := true } k) p ts
        | r => r := by
      intro k
      rw [procSession, start_steps]
      rfl
    simp only [replMain, if_true, hs] at hd ⊢
    generalize procStart cfg room = r at hd
    obtain ⟨p, x⟩ := r
    cases x with
    | running =>
      dsimp only at hd ⊢
      rw [hm p ts]
      intro hh
      generalize procRun (Cfg.steps { cfg with interactive := true } n) p ts = z at hd hh
      obtain ⟨q, y⟩ := z
      simp only at hh
      subst hh
      exact hd rfl
    | over => simp
    | panicked => simp
    | hung => simp

/-- **C86** Without a line editor nothing is printed: exit status 1 and a message. -/
theorem C86_no_editor (cfg : Cfg) (room : Option Nat) (saved : Bool) (ts : List Tick) :
    replMain cfg room false saved ts = ⟨[], [.error none], .failure⟩ := by simp [replMain]

/-! ### scripts -/

/-- **C86** What is seen of a script run of a release build is what the rules say, and everything the rules say is
seen, given enough steps. -/
theorem C86_script (cfg : Cfg) (hb : cfg.build.ovfChecks = false) (room : Option Nat) (file : Option Bytes) (e : Ended) :
    (e.exit ≠ .busy ∧ ∃ n, scriptMain (cfg.steps n) room file = e) ↔
      Ran True stripComments cfg.host builtinNames (State.new cfg room) file e := by
  have hw : (cfg.build.ovfChecks = false) = True := by simp [hb]
  have hf : (false = true) = False := by simp
  have hd : defined (RState.new cfg room).sem.vars = builtinNames := builtinNames_eq.symm
  have hs := sess_initial cfg room
  have fwd : ∀ {p σ o}, allE Lits p → RunsAll (world { cfg with interactive := false }) p (State.new cfg room) σ o →
      RunsAll (theWorld cfg.host True False) p (State.new cfg room) σ o := by
    intro p σ o hl h
    have := runsAll_alike (alike { cfg with interactive := false }) h initial_good hl
    rwa [manual, Cfg.wraps, hw, hf] at this
  have bwd : ∀ {p σ o}, allE Lits p → RunsAll (theWorld cfg.host True False) p (State.new cfg room) σ o →
      RunsAll (world { cfg with interactive := false }) p (State.new cfg room) σ o := by
    intro p σ o hl h
    refine runsAll_alike (alike { cfg with interactive := false }).symm ?_ initial_good hl
    rw [manual, Cfg.wraps, hw, hf]
    exact h
  constructor
  · rintro ⟨hne, n, rfl⟩
    by_cases hfile : ∃ s, file = some (encoded s)
    · obtain ⟨s, rfl⟩ := hfile
      rw [C82_readable] at hne ⊢
      unfold scriptRun at hne ⊢
      rcases runtimeEval_cases { cfg.steps n with interactive := false } (RState.new (cfg.steps n) room) (stripComments s) with
        ⟨hp, he⟩ | ⟨p, er, hp, her, he⟩ | ⟨p, hp, hok, he⟩
      · rw [he]
        obtain ⟨m, h1, h2⟩ := unread_text hp
        dsimp only [scriptExit]
        rw [h2]
        exact .noProgram h1
      · rw [he] at hne ⊢
        have ha := analyzed_stmts p (RState.new cfg room).sem hs.semNe
        obtain ⟨x, rfl, -⟩ := ha.err er her
        rcases C83_accepted_or_refused (defined (RState.new cfg room).sem.vars) p with hacc | ⟨m, hm⟩
        · have her' : (analyzeStmts p (RState.new cfg room).sem).2 = .error (.err x) := her
          rw [(accepted_session hs p).2 hacc] at her'
          simp at her'
        · obtain ⟨y, h1, h2⟩ := (refused_session hs p m).1 hm
          have her' : (analyzeStmts p (RState.new cfg room).sem).2 = .error (.err x) := her
          rw [her'] at h1
          simp only [Except.error.injEq, Fail.err.injEq] at h1
          subst h1
          dsimp only [scriptExit]
          rw [h2]
          rw [hd] at hm
          exact .refused (spells_iff.2 hp) hm
      · rw [he] at hne ⊢
        have hacc := (accepted_session hs p).1 hok
        have hk := accepted_kind { cfg.steps n with interactive := false } p _ hacc (State.new cfg room)
        have hlit := parse_literals hp
        have hnp := runtimeEval_no_panic { cfg.steps n with interactive := false } hb (RState.new cfg room) hs (stripComments s)
        have he' : runtimeEval { cfg.steps n with interactive := false } (RState.new cfg room) (stripComments s) = _ := he
        rw [he'] at hnp
        have htold := stmts_told (cfg := { cfg.steps n with interactive := false }) p (State.new cfg room)
        have hrule := stmts_rule { cfg.steps n with interactive := false } p (State.new cfg room)
        rw [hd] at hacc
        dsimp only [evalProgram] at hne hnp ⊢
        have hst : (RState.new (cfg.steps n) room).ev = State.new cfg room := rfl
        rw [hst] at hne hnp ⊢
        generalize evalStmts { cfg.steps n with interactive := false } p (State.new cfg room) = r at hne hnp hk htold hrule
        obtain ⟨σ, r⟩ := r
        cases r with
        | ok => exact .ends (spells_iff.2 hp) hacc (fwd hlit (hrule (by simp))) (.inl rfl)
        | quit => exact .ends (spells_iff.2 hp) hacc (fwd hlit (hrule (by simp))) (.inr rfl)
        | brk => simp [kind] at hk
        | cont => simp [kind] at hk
        | fail f =>
          cases f with
          | err er =>
            have := failsAll_alike (alike { cfg with interactive := false }) (alikeC { cfg with interactive := false })
              (htold er.text ⟨er, rfl, rfl⟩) initial_good hlit
            rw [manual, manualC, Cfg.wraps, hw, hf] at this
            exact .fails (spells_iff.2 hp) hacc (fwd hlit (hrule (by simp))) this
          | panic => simp [IRes.toEvalResult] at hnp
          | diverge => simp [IRes.toEvalResult, scriptExit] at hne
    · rw [C82_unreadable _ _ _ (fun s hs => hfile ⟨s, hs⟩)]
      exact .unreadable fun s hs => hfile ⟨s, hs⟩
  · intro h
    have run : ∀ {s p n σ x}, parse (stripComments s) = some p → AcceptedL builtinNames False p →
        evalStmts { cfg.steps n with interactive := false } p (State.new cfg room) = (σ, x) →
        scriptMain (cfg.steps n) room (some (encoded s)) =
          ⟨σ.sink.out, (scriptExit x.toEvalResult).1, (scriptExit x.toEvalResult).2⟩ := by
      intro s p n σ x hp ha hx
      rw [C82_readable]
      unfold scriptRun
      rcases runtimeEval_cases { cfg.steps n with interactive := false } (RState.new (cfg.steps n) room) (stripComments s) with
        ⟨h0, _⟩ | ⟨q', e', h0, her, _⟩ | ⟨q', h0, hok, he⟩
      · rw [hp] at h0; cases h0
      · rw [hp] at h0; cases h0
        rw [← hd] at ha
        have her' : (analyzeStmts p (RState.new cfg room).sem).2 = .error e' := her
        rw [(accepted_session hs p).2 ha] at her'
        simp at her'
      · rw [hp] at h0; cases h0
        rw [he]
        dsimp only [evalProgram]
        have hst : (RState.new (cfg.steps n) room).ev = State.new cfg room := rfl
        rw [hst, hx]
    cases h with
    | unreadable hun => exact ⟨by simp, 0, C82_unreadable _ _ _ hun⟩
    | noProgram hp =>
      refine ⟨by simp, 0, ?_⟩
      rw [C82_readable]
      obtain ⟨m', h1, h2⟩ := unread_text (unread_iff.2 ⟨_, hp⟩)
      cases unread_unique hp h1
      unfold scriptRun runtimeEval
      rw [unread_iff.2 ⟨_, hp⟩]
      dsimp only [scriptExit]
      rw [h2]
      rfl
    | refused hp hm =>
      rename_i s p m
      have hp := spells_iff.1 hp
      refine ⟨by simp, 0, ?_⟩
      rw [← hd] at hm
      obtain ⟨y, h1, h2⟩ := (refused_session hs p _).1 hm
      rw [C82_readable]
      unfold scriptRun runtimeEval
      rw [hp]
      dsimp only
      have h1' : (analyzeStmts p (RState.new (cfg.steps 0) room).sem).2 = .error (.err y) := h1
      generalize analyzeStmts p (RState.new (cfg.steps 0) room).sem = z at h1'
      obtain ⟨sem, z⟩ := z
      simp only at h1'
      subst h1'
      dsimp only [scriptExit]
      rw [h2]
      rfl
    | ends hp ha hr ho =>
      have hp := spells_iff.1 hp
      refine ⟨by simp, ?_⟩
      obtain ⟨n, hn⟩ := (meets_stmts (bwd (parse_literals hp) hr)).2 (by rcases ho with rfl | rfl <;> simp)
      refine ⟨n, ?_⟩
      obtain ⟨h1, h2⟩ := hn n (Nat.le_refl n)
      dsimp only at h1 h2
      have hx := run (x := (evalStmts (Cfg.steps { cfg with interactive := false } n) _ (State.new cfg room)).2) hp ha
        (Prod.ext h1 rfl)
      rw [hx]
      rcases ho with rfl | rfl
      · rw [kind_done h2]; rfl
      · rw [kind_quit h2]; rfl
    | fails hp ha hr hfa =>
      rename_i s p σ m
      have hp := spells_iff.1 hp
      refine ⟨by simp, ?_⟩
      have hlit := parse_literals hp
      have hfa' : FailsAll (world { cfg with interactive := false }) (complaints { cfg with interactive := false }) p
          (State.new cfg room) m := by
        refine failsAll_alike (alike { cfg with interactive := false }).symm (alikeC { cfg with interactive := false }).symm ?_
          initial_good hlit
        rw [manual, manualC, Cfg.wraps, hw, hf]
        exact hfa
      obtain ⟨n, hn⟩ := told_stmts hfa'
      obtain ⟨er, h1, h2⟩ := hn n (Nat.le_refl n)
      dsimp only at h1
      refine ⟨n, ?_⟩
      have h3 := stmts_rule (Cfg.steps { cfg with interactive := false } n) p (State.new cfg room) (by rw [h1]; simp)
      have h4 := (runsAll_unique h3 (bwd hlit hr)).1
      have hx := run (x := (evalStmts (Cfg.steps { cfg with interactive := false } n) p (State.new cfg room)).2) hp ha
        (Prod.ext h4 rfl)
      rw [hx, h1]
      simp only [IRes.toEvalResult, scriptExit, h2]
      rfl

/-! ### a standard output that stops taking anything -/

theorem procEnd_out (saved : Bool) (r : Proc × ProcStatus) : (procEnd saved r).out = r.1.out := by
  obtain ⟨p, x⟩ := r
  cases x <;> cases saved <;> rfl

/-- **C86** What a session prints to a standard output that takes `n` characters is the first `n` characters of what
it would have printed: whatever build, world and events. -/
theorem C86_session_cut (cfg : Cfg) (n : Nat) (editor saved : Bool) (ts : List Tick) :
    (replMain cfg (some n) editor saved ts).out = (replMain cfg none editor saved ts).out.take n := by
  cases editor with
  | false => simp [replMain]
  | true =>
    simp only [replMain, if_true, procEnd_out]
    exact (session_cut cfg ts).take

/-- **C86** If that is all it would have printed, nothing else is different either. -/
theorem C86_session_room (cfg : Cfg) (n : Nat) (editor saved : Bool) (ts : List Tick)
    (h : (replMain cfg none editor saved ts).out.length ≤ n) :
    replMain cfg (some n) editor saved ts = replMain cfg none editor saved ts := by
  cases editor with
  | false => simp [replMain]
  | true =>
    simp only [replMain, if_true, procEnd_out] at h ⊢
    rw [(session_cut (n := n) cfg ts).fits h]
    generalize procSession cfg none ts = r
    obtain ⟨p, x⟩ := r
    cases x <;> rfl

theorem script_cut (cfg : Cfg) (n : Nat) (s : Str) :
    ((scriptRun cfg none s).1.ev.sink.out.length ≤ n →
      (scriptRun cfg (some n) s).1.ev.sink.out = (scriptRun cfg none s).1.ev.sink.out ∧
      (scriptRun cfg (some n) s).2 = (scriptRun cfg none s).2) ∧
    (¬ (scriptRun cfg none s).1.ev.sink.out.length ≤ n → (∃ f, (scriptRun cfg (some n) s).2 = .fail f) ∧
      (scriptRun cfg (some n) s).1.ev.sink.out = (scriptRun cfg none s).1.ev.sink.out.take n) := by
  have hs : (State.new cfg none).limit n = State.new cfg (some n) := rfl
  unfold scriptRun
  have e1 : (RState.new cfg none) = ⟨AState.new, State.new cfg none⟩ := rfl
  have e2 : (RState.new cfg (some n)) = ⟨AState.new, State.new cfg (some n)⟩ := rfl
  have ho : (State.new cfg none).sink.out = [] := rfl
  have ho' : (State.new cfg (some n)).sink.out = [] := rfl
  rw [e1, e2]
  rcases runtimeEval_cases { cfg with interactive := false } ⟨AState.new, State.new cfg none⟩ (stripComments s) with
    ⟨hp, he⟩ | ⟨p, er, hp, her, he⟩ | ⟨p, hp, hok, he⟩ <;>
  rcases runtimeEval_cases { cfg with interactive := false } ⟨AState.new, State.new cfg (some n)⟩ (stripComments s) with
    ⟨hp', he'⟩ | ⟨p', er', hp', her', he'⟩ | ⟨p', hp', hok', he'⟩ <;>
  rw [hp] at hp' <;> simp only [reduceCtorEq, Option.some.injEq] at hp'
  · rw [he, he']
    dsimp only
    rw [ho, ho']
    exact ⟨fun _ => ⟨rfl, rfl⟩, fun h => absurd (Nat.zero_le n) h⟩
  · subst hp'
    dsimp only at her her'
    rw [her] at her'
    cases her'
    rw [he, he']
    dsimp only
    rw [ho, ho']
    exact ⟨fun _ => ⟨rfl, rfl⟩, fun h => absurd (Nat.zero_le n) h⟩
  · subst hp'
    dsimp only at her hok'
    rw [her] at hok'
    cases hok'
  · subst hp'
    dsimp only at her' hok
    rw [her'] at hok
    cases hok
  · subst hp'
    rw [he, he']
    have h := cut_stmts (n := n) { cfg with interactive := false } p (State.new cfg none) rfl (Nat.zero_le n)
    rw [hs] at h
    dsimp only [evalProgram]
    generalize evalStmts { cfg with interactive := false } p (State.new cfg none) = r at h
    generalize evalStmts { cfg with interactive := false } p (State.new cfg (some n)) = r' at h
    refine ⟨fun hle => ?_, fun hle => ?_⟩
    · rw [h.fits hle]; exact ⟨rfl, rfl⟩
    · obtain ⟨⟨f, h1⟩, h2⟩ := h.full hle
      rw [h1, h2]
      exact ⟨⟨f, rfl⟩, rfl⟩

/-- **C86** The same for scripts; and a script that cannot print all it would does not succeed. -/
theorem C86_script_cut (cfg : Cfg) (n : Nat) (file : Option Bytes) :
    (scriptMain cfg (some n) file).out = (scriptMain cfg none file).out.take n ∧
    ((scriptMain cfg none file).out.length ≤ n → scriptMain cfg (some n) file = scriptMain cfg none file) ∧
    (¬ (scriptMain cfg none file).out.length ≤ n → (scriptMain cfg (some n) file).exit ≠ .success) := by
  by_cases hfile : ∃ s, file = some (encoded s)
  · obtain ⟨s, rfl⟩ := hfile
    simp only [C82_readable]
    obtain ⟨hfit, hfull⟩ := script_cut cfg n s
    by_cases hle : (scriptRun cfg none s).1.ev.sink.out.length ≤ n
    · have h := hfit hle
      rw [h.1, h.2]
      exact ⟨(List.take_of_length_le hle).symm, fun _ => rfl, fun hn => absurd hle hn⟩
    · obtain ⟨⟨f, h1⟩, h2⟩ := hfull hle
      refine ⟨h2, fun hl => absurd hl hle, fun _ => ?_⟩
      rw [h1]
      cases f <;> simp [scriptExit]
  · have hun := fun s hs => hfile ⟨s, hs⟩
    rw [C82_unreadable _ _ _ hun, C82_unreadable _ _ _ hun]
    exact ⟨by simp, fun _ => rfl, fun h => absurd (Nat.zero_le n) h⟩

/-! ### panics -/

/-- the only panics of a release build: `quit` cannot be printed -/
theorem happens_panics {wraps : Prop} {cleaned : Str → Str} {h : Host} {D D' : Names} {σ σ' : State}
    {e : ReplEvent} {l : List ErrLine} (hh : Happens wraps cleaned h D σ e D' σ' l .panicked) :
    Outputs quitLine σ σ' .failed := by
  cases hh with
  | eofFull ho => exact ho
  | readErrorFull ho => exact ho

theorem run_calm (cfg : Cfg) (hb : cfg.build.ovfChecks = false) (hi : cfg.interactive = true) : ∀ (ts : List Tick) (p : Proc),
    Sess p.rs → p.rs.ev.sink.room = none → (procRun cfg p ts).2 ≠ .panicked
  | [], p, _, _ => by simp [procRun]
  | t :: ts, p, hs, hr => by
    have hs' : Sess (p.meets t.drift).rs := sess_ev hs rfl
    have hr' : (p.meets t.drift).rs.ev.sink.room = none := hr
    have h := step_happens { cfg with host := t.host } hb hi (p.meets t.drift) hs' t.event
    have h2 := step_inv { cfg with host := t.host } (fun st => st.sink.room = none) (none_closed _) (p.meets t.drift) t.event hr
    rw [procRun]
    generalize procStep { cfg with host := t.host } (p.meets t.drift) t.event = r at h h2
    obtain ⟨q, x⟩ := r
    cases x with
    | running => exact run_calm cfg hb hi ts q (h (by simp)).1 h2
    | over => simp
    | hung => simp
    | panicked =>
      exfalso
      obtain ⟨-, l, -, h3⟩ := h (by simp)
      have hno : ∀ {t : Str} {σ σ' : State}, σ.sink.room = none → ¬ Outputs t σ σ' .failed := by
        intro t σ σ' hn ho
        cases ho
        simp at hn
      exact hno hr' (happens_panics h3)

/-- **C86** A release build does not panic at the prompt, as long as standard output takes everything. -/
theorem C86_no_panic (cfg : Cfg) (hb : cfg.build.ovfChecks = false) (editor saved : Bool) (ts : List Tick) :
    (replMain cfg none editor saved ts).exit ≠ .panicked := by
  cases editor with
  | false => simp [replMain]
  | true =>
    simp only [replMain, if_true]
    rcases welcome_rule cfg none with ⟨σ, ho, hst⟩ | ⟨σ, ho, hst⟩
    · have h := run_calm { cfg with interactive := true } hb rfl ts ⟨⟨AState.new, σ⟩, []⟩ (sess_start cfg none ho) (by cases ho; rfl)
      unfold procSession
      rw [hst]
      dsimp only
      generalize procRun { cfg with interactive := true } ⟨⟨AState.new, σ⟩, []⟩ ts = r at h
      obtain ⟨p, x⟩ := r
      cases x with
      | running => simp [procEnd]
      | over => cases saved <;> simp [procEnd]
      | panicked => exact absurd rfl h
      | hung => simp [procEnd]
    · exact absurd ho (by intro h; cases h)

theorem println_panic_line (p : Proc) (s : Str) (x : ProcStatus) (hx : x ≠ .panicked) (h : (p.println s x).2 = .panicked) :
    .panicked ∈ (p.println s x).1.err := by
  unfold Proc.println at h ⊢
  generalize p.rs.ev.println s = r at h
  obtain ⟨ev, b⟩ := r
  cases b
  · simp
  · exact absurd h hx

theorem run_panic_line (cfg : Cfg) : ∀ (ts : List Tick) (p : Proc), (procRun cfg p ts).2 = .panicked →
    .panicked ∈ (procRun cfg p ts).1.err
  | [], p, h => by simp [procRun] at h
  | t :: ts, p, h => by
    rw [procRun] at h ⊢
    have hl : (procStep { cfg with host := t.host } (p.meets t.drift) t.event).2 = .panicked →
        .panicked ∈ (procStep { cfg with host := t.host } (p.meets t.drift) t.event).1.err := by
      intro hp
      generalize t.event = e at hp
      cases e with
      | line s =>
        rw [procStep_line] at hp ⊢
        generalize runtimeEval _ _ _ = r at hp
        obtain ⟨rs, r⟩ := r
        cases r with
        | ok => simp [afterLine] at hp
        | quit => simp [afterLine] at hp
        | fail f => cases f <;> simp_all [afterLine]
      | interrupted => simp [procStep] at hp
      | eof => exact println_panic_line _ _ _ (by simp) hp
      | otherError => exact println_panic_line _ _ _ (by simp) hp
    generalize procStep { cfg with host := t.host } (p.meets t.drift) t.event = r at h hl
    obtain ⟨q, x⟩ := r
    cases x with
    | running => exact run_panic_line cfg ts q h
    | over => simp at h
    | panicked => exact hl rfl
    | hung => simp at h

/-- **C86** A build with overflow checks is seen to do what one without them does, or to panic. -/
theorem C86_checks (cfg : Cfg) (room : Option Nat) (editor saved : Bool) (ts : List Tick) :
    replMain (cfg.checks true) room editor saved ts = replMain (cfg.checks false) room editor saved ts ∨
    ((replMain (cfg.checks true) room editor saved ts).exit = .panicked ∧
      .panicked ∈ (replMain (cfg.checks true) room editor saved ts).err) := by
  cases editor with
  | false => left; simp [replMain]
  | true =>
    simp only [replMain, if_true]
    unfold procSession
    rw [start_checks, start_checks]
    generalize procStart cfg room = r
    obtain ⟨p, x⟩ := r
    cases x with
    | running =>
      dsimp only
      have hfin : Finer (· = .panic) { cfg.checks true with interactive := true } { cfg.checks false with interactive := true } :=
        finer_checks { cfg with interactive := true }
      rcases apx_run hfin (fun f hf => .inl hf) ts p with h | ⟨f, rfl, h⟩
      · left; rw [h]
      · right
        have hmem := run_panic_line { cfg.checks true with interactive := true } ts p h
        generalize procRun { cfg.checks true with interactive := true } p ts = z at h hmem
        obtain ⟨q, y⟩ := z
        simp only at h
        subst h
        exact ⟨rfl, hmem⟩
    | over => exact .inl rfl
    | panicked => exact .inl rfl
    | hung => exact .inl rfl

/-- **C86** The same for scripts. -/
theorem C86_script_checks (cfg : Cfg) (room : Option Nat) (file : Option Bytes) :
    scriptMain (cfg.checks true) room file = scriptMain (cfg.checks false) room file ∨
    ((scriptMain (cfg.checks true) room file).exit = .panicked ∧ (scriptMain (cfg.checks true) room file).err = [.panicked]) := by
  by_cases hfile : ∃ s, file = some (encoded s)
  · obtain ⟨s, rfl⟩ := hfile
    simp only [C82_readable]
    unfold scriptRun
    have hfin : Finer (· = .panic) { cfg.checks true with interactive := false } { cfg.checks false with interactive := false } :=
      finer_checks { cfg with interactive := false }
    have : RState.new (cfg.checks true) room = RState.new (cfg.checks false) room := rfl
    rw [this]
    rcases apx_runtime hfin (RState.new (cfg.checks false) room) (stripComments s) with h | ⟨f, rfl, h⟩
    · left; rw [h]
    · right; rw [h]; exact ⟨rfl, rfl⟩
  · have hun := fun s hs => hfile ⟨s, hs⟩
    rw [C82_unreadable _ _ _ hun, C82_unreadable _ _ _ hun]
    exact .inl rfl

/-! ### witnesses -/

/-- a session in a world that changes: nothing is mounted at `/m`, then something is; after Ctrl-C, a failing entry and
a read error it ends at the end of input -/
def mounting : List Tick :=
  [⟨demo.host, id, .line s!' "filesystem \"/m\""⟩,
   ⟨oneGroup.host, id, .line s!' "filesystem \"/m\""⟩,
   ⟨oneGroup.host, id, .line s!' "print len(search(11, key(0, 0, 0, 0)));"⟩,
   ⟨oneGroup.host, fun _ => .unmounted [], .line s!' "print len(search(11, key(0, 0, 0, 0)));"⟩,
   ⟨demo.host, id, .interrupted⟩,
   ⟨demo.host, id, .otherError⟩,
   ⟨demo.host, id, .eof⟩,
   ⟨demo.host, id, .line s!' "never read"⟩]

theorem mounting_seen : replMain demo none true true mounting =
    ⟨banner ++ s!' "1\nquit\nquit\n",
      [.error (some s!' "/m is neither a mounted nor unmounted btrfs filesystem"),
       .error (some s!' "Cannot search() an unmounted filesystem"), .hint, .logged], .success⟩ := by decide +kernel

/-- it is one the rules allow -/
example : Seen True entryText builtinNames (State.new demo none) true mounting
    ⟨banner ++ s!' "1\nquit\nquit\n",
      [.error (some s!' "/m is neither a mounted nor unmounted btrfs filesystem"),
       .error (some s!' "Cannot search() an unmounted filesystem"), .hint, .logged], .success⟩ :=
  (C86_session demo rfl none true mounting _).1 ⟨by simp, 10, mounting_seen⟩

/-- with less room: at the first `quit`, and in the banner -/
example : replMain demo (some 60) true true mounting =
    ⟨banner ++ s!' "1\nqui",
      [.error (some s!' "/m is neither a mounted nor unmounted btrfs filesystem"),
       .error (some s!' "Cannot search() an unmounted filesystem"), .hint, .logged, .panicked], .panicked⟩ := by decide +kernel
example : replMain demo (some 20) true true mounting = ⟨s!' "btrd (the btrfs debu", [.panicked], .panicked⟩ := by
  decide +kernel

/-- scripts: a failing one, one with too little room, and one that panics in a build with overflow checks -/
example : scriptMain demo none (some (encoded s!' "print 2; print 1 / 0; print 3;")) =
    ⟨s!' "2\n", [.error (some s!' "Divide by zero"), inScript], .failure⟩ := by decide +kernel
example : (scriptMain demo (some 3) (some (encoded s!' "print 2; print 3;"))).out = s!' "2\n3" ∧
    (scriptMain demo (some 3) (some (encoded s!' "print 2; print 3;"))).exit = .failure := by decide +kernel
example : scriptMain (demo.checks true) none (some (encoded s!' "print 2; print -(1 << 127); print 3;")) =
    ⟨s!' "2\n", [.panicked], .panicked⟩ := by decide +kernel

end Btrd
