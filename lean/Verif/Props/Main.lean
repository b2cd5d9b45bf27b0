/-
C82: the btrd process: exit status and standard output of a script run and of a session.
-/
import Verif.Model.Main
import Verif.Props.Session
import Verif.Props.Control
import Verif.Lemmas.Process

namespace Btrd
open Spec

/-! ### scripts -/

/-- **C82** The contents of a script file are a text exactly if they are its UTF-8 encoding. -/
theorem C82_utf8 (b : Bytes) (s : Str) : decodeUtf8 b = some s ↔ b = encoded s := by
  have he : ∀ l : Str, l.utf8Encode = ⟨(encoded l).toArray⟩ := by
    intro l
    rw [List.utf8Encode, encoded]
    generalize l.flatMap String.utf8EncodeChar = x
    have h := (List.toByteArray (List.flatMap String.utf8EncodeChar l))
    apply ByteArray.ext
    simp
  constructor
  · intro h
    simp only [decodeUtf8, Option.map_eq_some_iff] at h
    obtain ⟨a, h1, rfl⟩ := h
    have h2 := ByteArray.utf8Encode_get_utf8Decode? (b := ⟨b.toArray⟩) (h := by rw [h1]; rfl)
    simp only [h1, Option.get_some] at h2
    rw [he] at h2
    simpa using h2.symm
  · rintro rfl
    simp only [decodeUtf8, ← he, List.utf8Decode?_utf8Encode, Option.map_some]

/-- **C82** A script that cannot be read, or is not UTF-8, runs not at all: no output, a message on standard error, exit status 1. -/
theorem C82_unreadable (cfg : Cfg) (room : Option Nat) (file : Option Bytes) (h : ∀ s, file ≠ some (encoded s)) :
    scriptMain cfg room file = ⟨[], [.error none], .failure⟩ := by
  cases file with
  | none => rfl
  | some b =>
    simp only [scriptMain]
    cases hd : decodeUtf8 b with
    | none => rfl
    | some s => exact absurd (by rw [(C82_utf8 b s).1 hd]) (h s)

/-- **C82** Any other is the program in it: its output and its result. -/
theorem C82_readable (cfg : Cfg) (room : Option Nat) (s : Str) :
    scriptMain cfg room (some (encoded s)) =
      ⟨(scriptRun cfg room s).1.ev.sink.out, (scriptExit (scriptRun cfg room s).2).1, (scriptExit (scriptRun cfg room s).2).2⟩ := by
  simp only [scriptMain, (C82_utf8 _ s).2 rfl]

theorem scriptExit_success (r : EvalResult) : (scriptExit r).2 = .success ↔ scriptSucceeded r = true := by
  cases r with
  | ok => simp [scriptExit, scriptSucceeded]
  | quit => simp [scriptExit, scriptSucceeded]
  | fail f => cases f <;> simp [scriptExit, scriptSucceeded]

/-- **C82** The exit status is 0, given enough steps, exactly if the file can be read and is the UTF-8 encoding of
a text that is a program, which the static rules accept and the rules of the language run to its end or to
`quit`. -/
theorem C82_exit_success (cfg : Cfg) (room : Option Nat) (file : Option Bytes) :
    (∃ n, (scriptMain (cfg.steps n) room file).exit = .success) ↔
      ∃ s p, file = some (encoded s) ∧ parse (stripComments s) = some p ∧ AcceptedL builtinNames False p ∧
        ∃ σ' o, RunsAll (world { cfg with interactive := false }) p (State.new cfg room) σ' o ∧ (o = .done ∨ o = .quit) := by
  constructor
  · rintro ⟨n, h⟩
    by_cases hf : ∃ s, file = some (encoded s)
    · obtain ⟨s, rfl⟩ := hf
      rw [C82_readable] at h
      obtain ⟨p, h1, h2, h3⟩ := (C78_script cfg room s).1 ⟨n, (scriptExit_success _).1 h⟩
      exact ⟨s, p, rfl, h1, h2, h3⟩
    · rw [C82_unreadable _ _ _ (fun s hs => hf ⟨s, hs⟩)] at h
      simp at h
  · rintro ⟨s, p, rfl, h1, h2, h3⟩
    obtain ⟨n, hn⟩ := (C78_script cfg room s).2 ⟨p, h1, h2, h3⟩
    refine ⟨n, ?_⟩
    rw [C82_readable]
    exact (scriptExit_success _).2 hn

/-- **C82** A program that is refused, by the grammar or the static rules, prints nothing and has exit status 1. -/
theorem C82_refused (cfg : Cfg) (room : Option Nat) (s : Str)
    (h : ∀ p, parse (stripComments s) = some p → ¬ AcceptedL builtinNames False p) :
    (scriptMain cfg room (some (encoded s))).out = [] ∧ (scriptMain cfg room (some (encoded s))).exit = .failure := by
  rw [C82_readable, scriptRun]
  rcases runtimeEval_cases { cfg with interactive := false } (RState.new cfg room) (stripComments s) with
    ⟨-, he⟩ | ⟨p, e, hp, her, he⟩ | ⟨p, hp, hok, he⟩
  · rw [he]; exact ⟨rfl, rfl⟩
  · rw [he]
    obtain ⟨x, rfl, -⟩ := (analyzed_stmts p (RState.new cfg room).sem (sess_initial cfg room).semNe).err e her
    exact ⟨rfl, rfl⟩
  · exfalso
    apply h p hp
    have hacc := (analyzed_stmts p (RState.new cfg room).sem (sess_initial cfg room).semNe).verdict.1 hok
    rw [builtinNames_eq]
    simpa [RState.new, AState.new] using hacc

/-- **C82** A release build never panics on a script, whatever the file. -/
theorem C82_script_no_panic (cfg : Cfg) (hb : cfg.build.ovfChecks = false) (room : Option Nat) (file : Option Bytes) :
    (scriptMain cfg room file).exit ≠ .panicked := by
  by_cases hf : ∃ s, file = some (encoded s)
  · obtain ⟨s, rfl⟩ := hf
    rw [C82_readable]
    have h := C70_script_no_panic cfg hb room s
    simp only
    generalize (scriptRun cfg room s).2 = r at h
    cases r with
    | ok => simp [scriptExit]
    | quit => simp [scriptExit]
    | fail f => cases f <;> simp_all [scriptExit]
  · rw [C82_unreadable _ _ _ (fun s hs => hf ⟨s, hs⟩)]; simp

/-- a text that is not ASCII, bytes that are no text, and an overlong encoding -/
example : encoded s!' "é" = [0xC3, 0xA9] ∧ (∀ s, encoded s ≠ [0xFF]) ∧ (∀ s, encoded s ≠ [0xC0, 0x80]) := by
  refine ⟨by decide, fun s h => ?_, fun s h => ?_⟩
  · have := (C82_utf8 _ s).2 h.symm
    have h0 : decodeUtf8 [0xFF] = none := by decide +kernel
    rw [h0] at this; simp at this
  · have := (C82_utf8 _ s).2 h.symm
    have h0 : decodeUtf8 [0xC0, 0x80] = none := by decide +kernel
    rw [h0] at this; simp at this

/-! ### sessions -/

/-- the events in a world that does not change -/
def steady (cfg : Cfg) (events : List ReplEvent) : List Tick := events.map fun e => ⟨cfg.host, id, e⟩

/-- how the process stands, for how the loop of the REPL stands -/
def procStatus : ReplStatus → ProcStatus
  | .running => .running
  | .exited => .over
  | .crashed .panic => .panicked
  | .crashed _ => .hung

theorem runtimeEval_after (pre : Str) (cfg : Cfg) (rs : RState) (c : Str) :
    runtimeEval cfg ⟨rs.sem, rs.ev.after pre⟩ c =
      (⟨(runtimeEval cfg rs c).1.sem, (runtimeEval cfg rs c).1.ev.after pre⟩, (runtimeEval cfg rs c).2) := by
  unfold runtimeEval
  cases parse c with
  | none => rfl
  | some q =>
    dsimp only
    cases analyzeStmts q rs.sem with
    | mk sem x =>
      cases x with
      | error e => rfl
      | ok u =>
        dsimp only [evalProgram]
        rw [stmts_after]

theorem runtimeEval_none (cfg : Cfg) (rs : RState) (c : Str) (h : rs.ev.sink.room = none) :
    (runtimeEval cfg rs c).1.ev.sink.room = none := by
  rcases runtimeEval_cases cfg rs c with ⟨_, h'⟩ | ⟨q, e, _, _, h'⟩ | ⟨q, _, _, h'⟩
  · rw [h']; exact h
  · rw [h']; exact h
  · rw [h']; exact stmts_none cfg q rs.ev h

theorem meets_id (p : Proc) : p.meets id = p := by
  obtain ⟨⟨sem, ⟨k, v, fs⟩⟩, err⟩ := p
  cases fs <;> rfl

/-- What the process prints, without read errors: everything the session writes, and `quit` at the end of input. -/
theorem run_text (pre : Str) (cfg : Cfg) : ∀ (events : List ReplEvent) (rs : RState) (err : List ErrLine),
    .otherError ∉ events → rs.ev.sink.room = none →
    ∃ t, (t = [] ∨ t = s!' "quit\n") ∧
      (t = s!' "quit\n" ↔ ∃ es post, events = es ++ .eof :: post ∧ (replRun cfg rs es).2 = .running) ∧
      (procRun cfg ⟨⟨rs.sem, rs.ev.after pre⟩, err⟩ (steady cfg events)).1.out =
        pre ++ (replRun cfg rs events).1.ev.sink.out ++ t ∧
      (procRun cfg ⟨⟨rs.sem, rs.ev.after pre⟩, err⟩ (steady cfg events)).2 = procStatus (replRun cfg rs events).2
  | [], rs, err, _, _ => ⟨[], .inl rfl, by simp, by simp [steady, procRun, replRun, State.after], rfl⟩
  | e :: es, rs, err, hno, hr => by
    simp only [List.mem_cons, not_or] at hno
    have hcons : steady cfg (e :: es) = ⟨cfg.host, id, e⟩ :: steady cfg es := rfl
    have hrun : ∀ l, replRun cfg rs (e :: l) = match replStep cfg rs e with
      | (rs', .running) => replRun cfg rs' l
      | (rs', s) => (rs', s) := fun l => rfl
    have hfirst : ∀ {rs'} {st : ReplStatus}, replStep cfg rs e = (rs', st) → st ≠ .running →
        ((∃ pre post, e :: es = pre ++ .eof :: post ∧ (replRun cfg rs pre).2 = .running) ↔ e = .eof) := by
      intro rs' st hst hne
      constructor
      · rintro ⟨l, post, h1, h2⟩
        cases l with
        | nil => simp at h1; exact h1.1
        | cons e' l =>
          simp only [List.cons_append, List.cons.injEq] at h1
          rw [← h1.1, hrun, hst] at h2
          cases st with
          | running => exact absurd rfl hne
          | exited => simp at h2
          | crashed f => simp at h2
      · rintro rfl
        exact ⟨[], es, rfl, rfl⟩
    have hnext : ∀ {rs'} (err' : List ErrLine), e ≠ .eof → replStep cfg rs e = (rs', .running) → rs'.ev.sink.room = none →
        procStep cfg ⟨⟨rs.sem, rs.ev.after pre⟩, err⟩ e = (⟨⟨rs'.sem, rs'.ev.after pre⟩, err'⟩, .running) →
        ∃ t, (t = [] ∨ t = s!' "quit\n") ∧
          (t = s!' "quit\n" ↔ ∃ l post, e :: es = l ++ .eof :: post ∧ (replRun cfg rs l).2 = .running) ∧
          (procRun cfg ⟨⟨rs.sem, rs.ev.after pre⟩, err⟩ (steady cfg (e :: es))).1.out =
            pre ++ (replRun cfg rs (e :: es)).1.ev.sink.out ++ t ∧
          (procRun cfg ⟨⟨rs.sem, rs.ev.after pre⟩, err⟩ (steady cfg (e :: es))).2 = procStatus (replRun cfg rs (e :: es)).2 := by
      intro rs' err' hne h1 h2 h3
      obtain ⟨t, a1, a2, a3, a4⟩ := run_text pre cfg es rs' err' hno.2 h2
      refine ⟨t, a1, a2.trans ?_, ?_, ?_⟩
      · constructor
        · rintro ⟨l, post, rfl, h⟩
          exact ⟨e :: l, post, rfl, by rw [hrun, h1]; exact h⟩
        · rintro ⟨l, post, h, h'⟩
          cases l with
          | nil => simp at h; exact absurd h.1 hne
          | cons e' l =>
            simp only [List.cons_append, List.cons.injEq] at h
            rw [← h.1, hrun, h1] at h'
            exact ⟨l, post, h.2, h'⟩
      · rw [hcons, procRun, meets_id, h3, hrun, h1]
        exact a3
      · rw [hcons, procRun, meets_id, h3, hrun, h1]
        exact a4
    have hlast : ∀ {rs'} {st : ReplStatus} (err' : List ErrLine), e ≠ .eof → replStep cfg rs e = (rs', st) → st ≠ .running →
        procStep cfg ⟨⟨rs.sem, rs.ev.after pre⟩, err⟩ e = (⟨⟨rs'.sem, rs'.ev.after pre⟩, err'⟩, procStatus st) →
        procStatus st ≠ .running →
        ∃ t, (t = [] ∨ t = s!' "quit\n") ∧
          (t = s!' "quit\n" ↔ ∃ l post, e :: es = l ++ .eof :: post ∧ (replRun cfg rs l).2 = .running) ∧
          (procRun cfg ⟨⟨rs.sem, rs.ev.after pre⟩, err⟩ (steady cfg (e :: es))).1.out =
            pre ++ (replRun cfg rs (e :: es)).1.ev.sink.out ++ t ∧
          (procRun cfg ⟨⟨rs.sem, rs.ev.after pre⟩, err⟩ (steady cfg (e :: es))).2 = procStatus (replRun cfg rs (e :: es)).2 := by
      intro rs' st err' hne h1 h2 h3 h4
      have hr1 : replRun cfg rs (e :: es) = (rs', st) := by
        rw [hrun, h1]
        cases st with
        | running => exact absurd rfl h2
        | exited => rfl
        | crashed f => rfl
      have hr2 : procRun cfg ⟨⟨rs.sem, rs.ev.after pre⟩, err⟩ (steady cfg (e :: es)) =
          (⟨⟨rs'.sem, rs'.ev.after pre⟩, err'⟩, procStatus st) := by
        rw [hcons, procRun, meets_id, h3]
        generalize procStatus st = x at h4
        cases x <;> first | rfl | exact absurd rfl h4
      refine ⟨[], .inl rfl, ?_, ?_, ?_⟩
      · rw [hfirst h1 h2]; simp [hne]
      · rw [hr2, hr1]; simp [State.after]
      · rw [hr2, hr1]
    cases e with
    | interrupted => exact hnext _ (by simp) rfl hr rfl
    | otherError => exact absurd rfl hno.1
    | eof =>
      have hp := println_none (rs.ev.after pre) s!' "quit" hr
      refine ⟨s!' "quit\n", .inr rfl, ?_, ?_, ?_⟩
      · rw [hfirst (rs' := rs) (st := .exited) rfl (by simp)]; simp
      · rw [hcons, procRun, meets_id]
        simp only [procStep, Proc.println, hp]
        simp [replRun, replStep, State.after]
      · rw [hcons, procRun, meets_id]
        simp only [procStep, Proc.println, hp]
        simp [replRun, replStep, procStatus]
    | line s =>
      have h1 := runtimeEval_after pre cfg rs (fixupInput (stripComments s))
      have h2 := runtimeEval_none cfg rs (fixupInput (stripComments s)) hr
      have h3 : replStep cfg rs (.line s) = match runtimeEval cfg rs (fixupInput (stripComments s)) with
        | (rs', .ok) => (rs', .running)
        | (rs', .quit) => (rs', .exited)
        | (rs', .fail (.err _)) => (rs', .running)
        | (rs', .fail f) => (rs', .crashed f) := rfl
      have h4 := procStep_line cfg ⟨⟨rs.sem, rs.ev.after pre⟩, err⟩ s
      dsimp only at h4
      rw [h1] at h4
      generalize runtimeEval cfg rs (fixupInput (stripComments s)) = r at h2 h3 h4
      obtain ⟨rs', r⟩ := r
      dsimp only at h2 h4
      cases r with
      | ok => exact hnext _ (by simp) h3 h2 h4
      | quit => exact hlast _ (by simp) h3 (by simp) h4 (by simp [procStatus])
      | fail f =>
        cases f with
        | err er => exact hnext _ (by simp) h3 h2 h4
        | panic => exact hlast _ (by simp) h3 (by simp) h4 (by simp [procStatus])
        | diverge => exact hlast _ (by simp) h3 (by simp) h4 (by simp [procStatus])

theorem start_none (cfg : Cfg) : procStart cfg none =
    (⟨⟨AState.new, (State.new cfg none).after s!' "btrd (the btrfs debugger) v0.5.3\nType 'help' for help\n\n"⟩, []⟩, .running) := by
  unfold procStart
  rw [printlns_none welcomeLines (State.new cfg none) rfl]
  rfl

/-- **C82** What a session prints, in a world that does not change: the banner, then what its entries print, in
order, then `quit` if it ended at the end of input. -/
theorem C82_session_output (cfg : Cfg) (saved : Bool) (events : List ReplEvent) (hno : .otherError ∉ events)
    (hi : cfg.interactive = true) :
    ∃ t, (t = [] ∨ t = s!' "quit\n") ∧
      (t = s!' "quit\n" ↔ ∃ pre post, events = pre ++ .eof :: post ∧ (replRun cfg (RState.new cfg none) pre).2 = .running) ∧
      (replMain cfg none true saved (steady cfg events)).out =
        s!' "btrd (the btrfs debugger) v0.5.3\nType 'help' for help\n\n" ++ (replRun cfg (RState.new cfg none) events).1.ev.sink.out ++ t := by
  have hc : { cfg with interactive := true } = cfg := by cases cfg; simp only at hi; rw [hi]
  obtain ⟨t, h1, h2, h3, -⟩ := run_text s!' "btrd (the btrfs debugger) v0.5.3\nType 'help' for help\n\n" cfg events
    (RState.new cfg none) [] hno rfl
  refine ⟨t, h1, h2, ?_⟩
  rw [← h3]
  simp only [replMain, if_true, procSession, start_none, hc]
  have he : ∀ r : Proc × ProcStatus, (procEnd saved r).out = r.1.out := by
    rintro ⟨p, x⟩
    cases x <;> cases saved <;> rfl
  exact he _

/-- **C82** A session ends with exit status 0 exactly if it reaches `quit` or the end of input and the history can be
saved then (standard output taking everything, and without read errors). -/
theorem C82_session_exit (cfg : Cfg) (editor saved : Bool) (events : List ReplEvent) (hno : .otherError ∉ events)
    (hi : cfg.interactive = true) :
    (replMain cfg none editor saved (steady cfg events)).exit = .success ↔
      editor = true ∧ saved = true ∧
      ∃ pre e post, events = pre ++ e :: post ∧ (replRun cfg (RState.new cfg none) pre).2 = .running ∧
        (e = .eof ∨ ∃ s, e = .line s ∧
          (runtimeEval cfg (replRun cfg (RState.new cfg none) pre).1 (fixupInput (stripComments s))).2 = .quit) := by
  have hc : { cfg with interactive := true } = cfg := by cases cfg; simp only at hi; rw [hi]
  rw [← C65_exits_iff]
  obtain ⟨t, -, -, -, h⟩ := run_text s!' "btrd (the btrfs debugger) v0.5.3\nType 'help' for help\n\n" cfg events
    (RState.new cfg none) [] hno rfl
  simp only [replMain, procSession, start_none, hc]
  simp only [RState.new] at h ⊢
  cases editor with
  | false => simp
  | true =>
    simp only [if_true, true_and]
    generalize procRun cfg _ _ = r at h
    generalize (replRun cfg _ events).2 = st at h
    obtain ⟨p, x⟩ := r
    simp only at h
    subst h
    cases st with
    | running => simp [procStatus, procEnd]
    | exited => cases saved <;> simp [procStatus, procEnd]
    | crashed f => cases f <;> simp [procStatus, procEnd]

/-- a session: what is seen, and exit status 0 -/
example : replMain demo none true true (steady demo [.line s!' "1 + 1", .line s!' "nonsense(", .line s!' "nope", .eof]) =
    ⟨s!' "btrd (the btrfs debugger) v0.5.3\nType 'help' for help\n\n2\nquit\n",
      [.error (some s!' "Mismatch at 0: expect end of input, found: n"), .error (some s!' "Unknown variable: nope")], .success⟩ := by decide +kernel

end Btrd
