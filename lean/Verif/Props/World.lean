/-
C85: the closed world. The rules of the language (C78), of sessions (C81) and of messages (C83) with nothing left
open: opening a filesystem, reading structs, type casts, `search()`, diagrams and the text of values are those of
the manual in `Spec/World`.
-/
import Verif.Spec.World
import Verif.Lemmas.WorldTransfer
import Verif.Props.Session
import Verif.Props.Messages
import Verif.Props.Search

namespace Btrd
open Spec

/-! ### what the rules left open -/

/-- **C85** `filesystem` opens what the manual says the path names, -/
theorem C85_opens (h : Host) (path : Str) (fs : Fs) : Fs.new h path = .ok fs ↔ OpensAs h path fs := opens_iff h path fs

/-- **C85** and fails with the message of the manual. -/
theorem C85_open_fails (h : Host) (path : Str) (m : Option Str) :
    (∃ e, Fs.new h path = .error (.err e) ∧ e.text = m) ↔ OpenFails h path m := open_fails_iff h path m

/-- **C85** A path names a filesystem, or there is one message. -/
theorem C85_opens_or_fails (h : Host) (path : Str) :
    (∃ fs, ∀ x, OpensAs h path x ↔ x = fs) ∧ (∀ m, ¬ OpenFails h path m) ∨
    (∃ m, ∀ x, OpenFails h path x ↔ x = m) ∧ ∀ fs, ¬ OpensAs h path fs := by
  simp only [← C85_opens, ← C85_open_fails]
  cases hn : Fs.new h path with
  | ok fs => exact .inl ⟨⟨fs, fun x => by simp [eq_comm]⟩, by simp⟩
  | error f =>
    obtain ⟨e, rfl⟩ : ∃ e, f = .err e := by
      unfold Fs.new at hn
      split at hn
      · unfold Fs.newMounted at hn
        split at hn
        · exact ⟨_, by cases hn; rfl⟩
        · split at hn
          · cases hn
          · exact ⟨_, by cases hn; rfl⟩
      · split at hn
        · unfold Fs.newUnmounted at hn
          split at hn
          · exact ⟨_, by cases hn; rfl⟩
          · split at hn
            · cases hn
            · exact ⟨_, by cases hn; rfl⟩
        · exact ⟨_, by cases hn; rfl⟩
    refine .inr ⟨⟨e.text, fun x => ?_⟩, by simp⟩
    simp [eq_comm]

/-- **C85** Bytes are read as a struct the way the manual says, -/
theorem C85_read (b : Build) (s : StructDef) (hs : s ∈ structs) (key : Option (Int × Int × Int)) (bytes : Bytes)
    (hb : bytes.length < 2 ^ 64) (sv : StructVal) :
    structFromBytes b s key bytes = .ok sv ↔ sv.name = s.name ∧ sv.key = key ∧ ReadAs bytes s sv.fields :=
  read_iff b s hs key bytes hb sv

/-- **C85** and when they cannot be, the message is that of the manual. -/
theorem C85_unreadable (b : Build) (s : StructDef) (hs : s ∈ structs) (key : Option (Int × Int × Int)) (bytes : Bytes)
    (hb : bytes.length < 2 ^ 63) (m : Option Str) :
    (∃ e, structFromBytes b s key bytes = .error (.err e) ∧ e.text = m) ↔ ∃ t, m = some t ∧ Unreadable bytes s t := by
  constructor
  · rintro ⟨e, h, rfl⟩
    obtain ⟨t, h1, h2⟩ := read_fails b s hs key bytes hb e h
    exact ⟨t, h1, h2⟩
  · rintro ⟨t, rfl, h⟩
    exact fails_read b s hs key bytes hb t h

/-- **C85** A type cast gives what the manual says, -/
theorem C85_cast (b : Build) (fs : Option Fs) (name : Str) (p : Int) (v : Value) :
    castOp b fs (.ident name) (.ok (.int p)) = .ok v ↔ CastGives fs name p v := cast_iff b fs name p v

/-- **C85** and fails with the message of the manual. -/
theorem C85_cast_fails (b : Build) (fs : Fs) (name : Str) (p : Nat) (m : Option Str) :
    (∃ e, castOp b (some fs) (.ident name) (.ok (.int p)) = .error (.err e) ∧ e.text = m) ↔
      CastFails (b.ovfChecks = false) fs name p m := cast_fails_iff b fs name p m

/-- **C85** `search()` gives, in enough steps, what the manual says, -/
theorem C85_search (cfg : Cfg) (fs : Option Fs) (tree : Int) (key v : Value) :
    (∃ n, searchFn (cfg.steps n) fs [.ok (.int tree), .ok key] = .ok v) ↔ SearchGives fs tree key v :=
  search_iff cfg fs tree key v

/-- **C85** and fails with the message of the manual. -/
theorem C85_search_fails (cfg : Cfg) (fs : Fs) (tree : Int) (own : Option (Int × Int × Int)) (fl : List (Str × Value))
    (m : Option Str) :
    (∃ n e, searchFn (cfg.steps n) (some fs)
      [.ok (.int tree), .ok (.struct s!' "_btrfs_ioctl_search_key" own fl)] = .error (.err e) ∧ e.text = m) ↔
      SearchFails fs tree (.struct s!' "_btrfs_ioctl_search_key" own fl) m :=
  search_fails_iff cfg fs tree own fl m

/-- **C85** The diagram of a histogram is, in enough steps, the one of the manual. -/
theorem C85_diagram (b : Build) (xs : List Value) (hx : ∀ i, Value.int i ∈ xs → Spec.Fits i) (t : Str) :
    (∃ n, asHist b n xs = .ok t) ↔ Diagram (b.ovfChecks = false) xs t := drawn_iff b xs hx t

/-! ### expressions, programs, sessions, scripts -/

/-- **C85** In the states of a session, an expression of a program has the value the rules and the manual say. -/
theorem C85_expression (cfg : Cfg) (σ : State) (hσ : GoodVars σ.vars) (e : Expr) (he : ∀ i ∈ e.literals, Spec.Fits i) (v : Value) :
    (∃ n, evalExpr (cfg.steps n) σ e = .ok v) ↔
      Ev (theWorld cfg.host (cfg.build.ovfChecks = false) (cfg.interactive = true)) σ e v :=
  (C78_expression cfg σ e v).trans (ev_alike_iff (alike cfg) hσ he)

/-- **C85** It fails with the message the rules and the manual say. -/
theorem C85_complains (cfg : Cfg) (σ : State) (hσ : GoodVars σ.vars) (e : Expr) (he : ∀ i ∈ e.literals, Spec.Fits i)
    (m : Option Str) :
    (∃ n er, evalExpr (cfg.steps n) σ e = .error (.err er) ∧ er.text = m) ↔
      Complains (theWorld cfg.host (cfg.build.ovfChecks = false) (cfg.interactive = true))
        (theComplaints cfg.host (cfg.build.ovfChecks = false)) σ e m := by
  constructor
  · rintro ⟨n, er, h, rfl⟩
    exact complains_alike (alike cfg) (alikeC cfg) hσ (C83_expression (cfg.steps n) σ e er h) he
  · intro h
    obtain ⟨-, -, n, hn⟩ := C83_expression_unique cfg σ e m (complains_alike (alike cfg).symm (alikeC cfg).symm hσ h he)
    exact ⟨n, hn n (Nat.le_refl n)⟩

/-- **C85** A whole session, from the first entry to the last, is one of the rules and the manual: its output, its
variables, its filesystem, and whether it is over. (Not so when the process crashes or never gets to the end of an
entry, which is the subject of C65, C70, C79.) -/
theorem C85_session (cfg : Cfg) (room : Option Nat) (events : List ReplEvent) (rs : RState) (r : ReplStatus)
    (h : replRun cfg (RState.new cfg room) events = (rs, r)) (hr : ∀ f, r ≠ .crashed f) :
    Talks (theWorld cfg.host (cfg.build.ovfChecks = false) (cfg.interactive = true)) entryProgram builtinNames
      (State.new cfg room) events (fun x => rs.sem.vars.get x ≠ none) rs.ev r :=
  talks_alike (alike cfg) (fun _ _ hp => parse_literals hp) (C81_session cfg room events rs r h hr) initial_good

/-- **C85** And what the rules and the manual say happens is what happens, or the process does not survive: it needs
more steps, or it panics (never in release builds). -/
theorem C85_session_rules (cfg : Cfg) (room : Option Nat) (events : List ReplEvent) (D : Names) (σ : State) (r : ReplStatus)
    (h : Talks (theWorld cfg.host (cfg.build.ovfChecks = false) (cfg.interactive = true)) entryProgram builtinNames
      (State.new cfg room) events D σ r) :
    ((replRun cfg (RState.new cfg room) events).2 = r ∧ (replRun cfg (RState.new cfg room) events).1.ev = σ ∧
      ∀ x, (replRun cfg (RState.new cfg room) events).1.sem.vars.get x ≠ none ↔ D x) ∨
    (replRun cfg (RState.new cfg room) events).2 = .crashed .diverge ∨
    ((replRun cfg (RState.new cfg room) events).2 = .crashed .panic ∧ cfg.build.ovfChecks = true) :=
  C81_session_rules cfg room events D σ r
    (talks_alike (alike cfg).symm (fun _ _ hp => parse_literals hp) h initial_good)

/-- **C85** The message of an entry, at any point of a session, is that of the rules and the manual: the entry is no
program (and the message is the parser's), or it is refused, or it fails. -/
theorem C85_message (cfg : Cfg) (room : Option Nat) (events : List ReplEvent) (cmd : Str) (er : Err)
    (h : (runtimeEval cfg (replRun cfg (RState.new cfg room) events).1 cmd).2 = .fail (.err er)) :
    (∃ m, Unread cmd m ∧ er.text = some m) ∨
    ∃ p, parse cmd = some p ∧
      ((∃ m, RefusedAll (defined (replRun cfg (RState.new cfg room) events).1.sem.vars) False p m ∧ er.text = some m) ∨
       AcceptedL (defined (replRun cfg (RState.new cfg room) events).1.sem.vars) False p ∧
       FailsAll (theWorld cfg.host (cfg.build.ovfChecks = false) (cfg.interactive = true))
        (theComplaints cfg.host (cfg.build.ovfChecks = false)) p (replRun cfg (RState.new cfg room) events).1.ev er.text) := by
  rcases C83_entry cfg room events cmd er h with h | ⟨p, hp, h | ⟨h1, h2⟩⟩
  · exact .inl h
  · exact .inr ⟨p, hp, .inl h⟩
  · exact .inr ⟨p, hp, .inr ⟨h1, failsAll_alike (alike cfg) (alikeC cfg) h2 (session_good cfg room events) (parse_literals hp)⟩⟩

/-- **C85** Conversely, an entry that fails by the rules and the manual fails with that message, in enough steps. -/
theorem C85_message_rules (cfg : Cfg) (room : Option Nat) (events : List ReplEvent) (cmd : Str) (p : List Stmt)
    (m : Option Str) (hp : parse cmd = some p)
    (ha : AcceptedL (defined (replRun cfg (RState.new cfg room) events).1.sem.vars) False p)
    (h : FailsAll (theWorld cfg.host (cfg.build.ovfChecks = false) (cfg.interactive = true))
      (theComplaints cfg.host (cfg.build.ovfChecks = false)) p (replRun cfg (RState.new cfg room) events).1.ev m) :
    ∃ n, ∀ k, n ≤ k → ∃ er,
      (runtimeEval (cfg.steps k) (replRun cfg (RState.new cfg room) events).1 cmd).2 = .fail (.err er) ∧ er.text = m :=
  C83_fails cfg _ (session cfg room events) cmd p m hp ha
    (failsAll_alike (alike cfg).symm (alikeC cfg).symm h (session_good cfg room events) (parse_literals hp))

/-- **C85** A script succeeds, in enough steps, exactly if it is a program, is accepted, and the rules and the manual
run it to its end or to `quit`. -/
theorem C85_script (cfg : Cfg) (room : Option Nat) (contents : Str) :
    (∃ n, scriptSucceeded (scriptRun (cfg.steps n) room contents).2 = true) ↔
      ∃ p, parse (stripComments contents) = some p ∧
        AcceptedL (fun x => x ∈ constants.map (·.1) ∨ x ∈ functions.map Function.display) False p ∧
        ∃ σ' o, RunsAll (theWorld cfg.host (cfg.build.ovfChecks = false) False) p (State.new cfg room) σ' o ∧
          (o = .done ∨ o = .quit) := by
  have hf : (false = true) = False := by simp
  rw [C78_script]
  constructor
  · rintro ⟨p, hp, ha, σ', o, h, ho⟩
    have := runsAll_alike (alike { cfg with interactive := false }) h initial_good (parse_literals hp)
    rw [manual, hf] at this
    exact ⟨p, hp, ha, σ', o, this, ho⟩
  · rintro ⟨p, hp, ha, σ', o, h, ho⟩
    refine ⟨p, hp, ha, σ', o, runsAll_alike (alike { cfg with interactive := false }).symm ?_ initial_good (parse_literals hp), ho⟩
    rw [manual, hf]
    exact h

/-- **C85** When it ends otherwise with a message, the message is that of the rules and the manual. -/
theorem C85_script_message (cfg : Cfg) (room : Option Nat) (contents : Str) (er : Err)
    (h : (scriptRun cfg room contents).2 = .fail (.err er)) :
    (∃ m, Unread (stripComments contents) m ∧ er.text = some m) ∨
    ∃ p, parse (stripComments contents) = some p ∧
      ((∃ m, RefusedAll (fun x => x ∈ constants.map (·.1) ∨ x ∈ functions.map Function.display) False p m ∧
        er.text = some m) ∨
       AcceptedL (fun x => x ∈ constants.map (·.1) ∨ x ∈ functions.map Function.display) False p ∧
       FailsAll (theWorld cfg.host (cfg.build.ovfChecks = false) False)
        (theComplaints cfg.host (cfg.build.ovfChecks = false)) p (State.new cfg room) er.text) := by
  have hf : (false = true) = False := by simp
  have hd : defined (RState.new { cfg with interactive := false } room).sem.vars =
      fun x => x ∈ constants.map (·.1) ∨ x ∈ functions.map Function.display := by
    funext x
    exact propext (builtins_defined x)
  rcases message_of_error { cfg with interactive := false } (RState.new { cfg with interactive := false } room)
    (sess_initial _ room) (stripComments contents) er h with h | ⟨p, hp, h | ⟨h1, h2⟩⟩
  · exact .inl h
  · rw [hd] at h
    exact .inr ⟨p, hp, .inl h⟩
  · rw [hd] at h1
    have := failsAll_alike (alike { cfg with interactive := false }) (alikeC { cfg with interactive := false }) h2
      initial_good (parse_literals hp)
    rw [manual, hf] at this
    exact .inr ⟨p, hp, .inr ⟨h1, this⟩⟩

/-! ### witnesses -/

/-- a machine with a mounted filesystem at `/m`: one block group (8 KiB used) in tree 11 -/
def oneGroup : Cfg where
  build := ⟨false⟩
  host := ⟨fun p => if p = s!' "/m" then
      some ⟨some 0x9123683e, batchKernel (fun t => if t = 11 then
        [(⟨7, 4096, 8192, 192, 24⟩, [0, 32, 0, 0, 0, 0, 0, 0] ++ List.replicate 16 1)] else []) fun _ => 9⟩ else none,
    fun _ => none, none⟩
  interactive := true
  fuel := 10

theorem pair_eq {α β : Type} {p : α × β} {b : β} (h : p.2 = b) : p = (p.1, b) := by
  cases p
  cases h
  rfl

/-- a session on it -/
def groupSession : List ReplEvent :=
  [.line s!' "filesystem \"/m\"", .line s!' "for g in search(11, key(0, 0, 0, 0)) { print g.used; }",
   .line s!' "(struct btrfs_key) 5", .line s!' "len(search(11, key(0, 0, 0, 0)))"]

/-- it runs to its end, and prints something: `C85_session` is not about nothing -/
theorem group_session : (replRun oneGroup (RState.new oneGroup none) groupSession).2 = .running ∧
    (replRun oneGroup (RState.new oneGroup none) groupSession).1.ev.sink.out = s!' "8192\n1\n" := by
  decide +kernel

/-- so the rules and the manual have a session with this output -/
example : ∃ D σ, Talks (theWorld oneGroup.host True True) entryProgram builtinNames (State.new oneGroup none)
    groupSession D σ .running ∧ σ.sink.out = s!' "8192\n1\n" := by
  have h := C85_session oneGroup none groupSession (replRun oneGroup (RState.new oneGroup none) groupSession).1 .running
    (pair_eq group_session.1) (by simp)
  have ht : (oneGroup.build.ovfChecks = false) = True := by simp [oneGroup]
  have hi : (oneGroup.interactive = true) = True := by simp [oneGroup]
  rw [ht, hi] at h
  exact ⟨_, _, h, group_session.2⟩

/-- and its third entry fails with a message of the manual -/
example : CastFails True (.mounted fun _ _ => .errno) s!' "btrfs_key" 5
    (some s!' "Cannot reinterpret bytes from mounted image") := by
  obtain ⟨s, hs, hn⟩ : ∃ s ∈ structs, s.name = s!' "btrfs_key" := by decide +kernel
  rw [← hn]
  exact .mounted hs rfl (.inr trivial)

end Btrd
