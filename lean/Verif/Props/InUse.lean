/-
C95: the requests of a program go to the filesystem in use, the one that was opened last.
-/
import Verif.Lemmas.InUse
import Verif.Props.Live

namespace Btrd
open Spec

/-- **C95** Whatever entry is evaluated in whatever world: every search and every read is of the filesystem in use, which
is the one the evaluation started with until another one is opened; and the one in use at the end is that of the state
afterwards. -/
theorem C95_entry (cfg : Cfg) (ω : Live) (rs : RState) (text : Str) (t : Nat) :
    InUse cfg.fuel ω t rs.ev.fs ((runtimeEvalT cfg rs text).live cfg.fuel ω t).log
      ((runtimeEvalT cfg rs text).live cfg.fuel ω t).clock ((runtimeEvalT cfg rs text).live cfg.fuel ω t).result.1.ev.fs := by
  obtain ⟨c, h, hc⟩ := (uses_runtime cfg rs text).log cfg.fuel ω t
  rw [hc]
  exact h

/-- what happens first and what happens then -/
theorem inUse_split {fuel : Nat} {ω : Live} {l l' : List Event} : ∀ {t t' : Nat} {cur cur' : Option Fs},
    InUse fuel ω t cur (l ++ l') t' cur' → ∃ n c, InUse fuel ω t cur l n c ∧ InUse fuel ω n c l' t' cur' := by
  induction l with
  | nil => exact fun h => ⟨_, _, .nil, h⟩
  | cons e l ih =>
    intro t t' cur cur' h
    cases h with
    | warned h => obtain ⟨n, c, h1, h2⟩ := ih h; exact ⟨n, c, .warned h1, h2⟩
    | searched h => obtain ⟨n, c, h1, h2⟩ := ih h; exact ⟨n, c, .searched h1, h2⟩
    | read h => obtain ⟨n, c, h1, h2⟩ := ih h; exact ⟨n, c, .read h1, h2⟩
    | opened hf h => obtain ⟨n, c, h1, h2⟩ := ih h; exact ⟨n, c, .opened hf h1, h2⟩
    | refused hf h => obtain ⟨n, c, h1, h2⟩ := ih h; exact ⟨n, c, .refused hf h1, h2⟩

/-- **C95** Without opening anything the filesystem in use stays the same, also if the entry fails. -/
theorem C95_keeps {fuel : Nat} {ω : Live} {t t' : Nat} {cur cur' : Option Fs} {log : List Event}
    (h : InUse fuel ω t cur log t' cur') (hn : ∀ e ∈ log, ¬ OpensFs e) : cur' = cur := by
  induction h with
  | nil => rfl
  | opened _ _ _ => exact absurd ⟨_, _, rfl⟩ (hn _ (List.mem_cons_self ..))
  | warned _ ih => exact ih fun e he => hn e (by simp [he])
  | searched _ ih => exact ih fun e he => hn e (by simp [he])
  | read _ ih => exact ih fun e he => hn e (by simp [he])
  | refused _ _ ih => exact ih fun e he => hn e (by simp [he])

theorem inUse_asks {fuel : Nat} {ω : Live} {t t' : Nat} {cur cur' : Option Fs} {e : Event} {log : List Event} {g : Fs}
    (h : InUse fuel ω t cur (e :: log) t' cur') (ha : AsksFs g e) : ∃ fs, cur = some fs ∧ g = ω.drift t fs := by
  rcases ha with ⟨a, r, rfl⟩ | ⟨i, j, r, rfl⟩ <;> cases h <;> exact ⟨_, rfl, rfl⟩

/-- **C95** Until something is opened, the requests go to the filesystem that was in use at first (as it is then); -/
theorem C95_first {fuel : Nat} {ω : Live} {t t' : Nat} {cur cur' : Option Fs} {pre post : List Event} {e : Event} {g : Fs}
    (h : InUse fuel ω t cur (pre ++ e :: post) t' cur') (hn : ∀ o ∈ pre, ¬ OpensFs o) (ha : AsksFs g e) :
    ∃ fs n, cur = some fs ∧ g = ω.drift n fs := by
  obtain ⟨n, c, h1, h2⟩ := inUse_split h
  obtain ⟨fs, hc, hg⟩ := inUse_asks h2 ha
  rw [C95_keeps h1 hn] at hc
  exact ⟨fs, n, hc, hg⟩

/-- if there was none, nothing is asked before something is opened; -/
theorem C95_nothing {fuel : Nat} {ω : Live} {t t' : Nat} {cur' : Option Fs} {pre post : List Event} {e : Event} {g : Fs}
    (h : InUse fuel ω t none (pre ++ e :: post) t' cur') (ha : AsksFs g e) : ∃ o ∈ pre, OpensFs o := by
  refine Classical.byContradiction fun hn => ?_
  obtain ⟨_, _, hc, _⟩ := C95_first h (fun o ho h => hn ⟨o, ho, h⟩) ha
  cases hc

/-- and a request after something was opened, and nothing after that, goes to what was opened (as it is then). -/
theorem C95_last {fuel : Nat} {ω : Live} {t t' : Nat} {cur cur' : Option Fs} {pre mid post : List Event} {path : Str}
    {fs g : Fs} {e : Event} (h : InUse fuel ω t cur (pre ++ .opened path (.ok fs) :: (mid ++ e :: post)) t' cur')
    (hn : ∀ o ∈ mid, ¬ OpensFs o) (ha : AsksFs g e) : ∃ n, g = ω.drift n fs := by
  obtain ⟨n, c, -, h2⟩ := inUse_split h
  cases h2 with
  | opened _ h2 =>
    obtain ⟨fs', m, hc, hg⟩ := C95_first h2 hn ha
    cases hc
    exact ⟨m, hg⟩

theorem println_fs (st : State) (s : Str) : (st.println s).1.fs = st.fs := by
  have := write_uses st (s ++ ['\n'])
  unfold State.println
  split <;> rename_i h <;> rw [h] at this <;> exact this

theorem printlns_fs : ∀ (ss : List Str) (st : State), (st.printlns ss).1.fs = st.fs
  | [], st => rfl
  | s :: ss, st => by
    have := println_fs st s
    rw [State.printlns]
    generalize st.println s = r at this
    obtain ⟨st', b⟩ := r
    cases b
    · exact this
    · exact (printlns_fs ss st').trans this

/-- **C95** At first the filesystem of the working directory is in use, if it is one. -/
theorem C95_start (cfg : Cfg) (room : Option Nat) : StartsWith cfg.host (State.new cfg room).fs := by
  simp only [State.new]
  cases hc : cfg.host.cwd with
  | none => exact .nowhere fun _ _ h => by rw [hc] at h; cases h
  | some dir =>
    dsimp only
    cases hf : Fs.new cfg.host dir with
    | ok fs => exact .here hc hf
    | error e => exact .nowhere fun _ _ h h' => by rw [hc] at h; cases h; rw [hf] at h'; cases h'

theorem start_fs (cfg : Cfg) (room : Option Nat) : (procStart cfg room).1.rs.ev.fs = (State.new cfg room).fs := by
  have := printlns_fs welcomeLines (State.new cfg room)
  unfold procStart
  generalize (State.new cfg room).printlns welcomeLines = r at this
  obtain ⟨st', b⟩ := r
  cases b <;> exact this

theorem proc_println_fs (p : Proc) (s : Str) (x : ProcStatus) : (p.println s x).1.rs.ev.fs = p.rs.ev.fs := by
  unfold Proc.println
  have := println_fs p.rs.ev s
  generalize p.rs.ev.println s = r at this
  obtain ⟨ev, b⟩ := r
  cases b <;> exact this

theorem step_inUse (cfg : Cfg) (ω : Live) (p : Proc) (ev : ReplEvent) : ∃ n,
    InUse cfg.fuel ω 0 p.rs.ev.fs (procStepL cfg ω p ev).2 n (procStepL cfg ω p ev).1.1.rs.ev.fs := by
  cases ev with
  | line s =>
    refine ⟨((runtimeEvalT cfg p.rs (fixupInput (stripComments s))).live cfg.fuel ω 0).clock, ?_⟩
    · have h := C95_entry cfg ω p.rs (fixupInput (stripComments s)) 0
      show InUse cfg.fuel ω 0 p.rs.ev.fs (procLine p.err _).2 _ (procLine p.err _).1.1.rs.ev.fs
      generalize (runtimeEvalT cfg p.rs (fixupInput (stripComments s))).live cfg.fuel ω 0 = l at h ⊢
      have e : (procLine p.err l).2 = l.log ∧ (procLine p.err l).1.1.rs.ev.fs = l.result.1.ev.fs := by
        obtain ⟨t, log, rs, r⟩ := l
        cases r with
        | fail f => cases f <;> exact ⟨rfl, rfl⟩
        | _ => exact ⟨rfl, rfl⟩
      rw [e.1, e.2]
      exact h
  | interrupted => exact ⟨_, .nil⟩
  | eof =>
    refine ⟨0, ?_⟩
    show InUse cfg.fuel ω 0 p.rs.ev.fs [] 0 (p.println s!' "quit" .over).1.rs.ev.fs
    rw [proc_println_fs]
    exact .nil
  | otherError =>
    refine ⟨0, ?_⟩
    show InUse cfg.fuel ω 0 p.rs.ev.fs [] 0 (Proc.println ⟨p.rs, p.err ++ [.logged]⟩ s!' "quit" .running).1.rs.ev.fs
    rw [proc_println_fs]
    exact .nil

theorem run_inUse (cfg : Cfg) : ∀ (ts : List LiveTick) (p : Proc),
    InUseAll cfg.fuel p.rs.ev.fs ts (procRunL cfg p ts).2 (procRunL cfg p ts).1.1.rs.ev.fs
  | [], p => .ends
  | t :: ts, p => by
    obtain ⟨n, h⟩ := step_inUse cfg t.world (p.meets t.drift) t.event
    rw [procRunL]
    generalize procStepL cfg t.world (p.meets t.drift) t.event = r at h
    obtain ⟨⟨p', x⟩, log⟩ := r
    cases x with
    | running => exact .next h (run_inUse cfg ts p')
    | _ => have := InUseAll.next h (.ends (ts := ts)); rw [List.append_nil] at this; exact this

/-- **C95** A session starts with the filesystem of the working directory or none, and whatever is entered and whatever the world does, every request
goes to the filesystem in use. -/
theorem C95_session (cfg : Cfg) (room : Option Nat) (editor saved : Bool) (ts : List LiveTick) :
    ∃ first cur, StartsWith cfg.host first ∧ InUseAll cfg.fuel first ts (replMainL cfg room editor saved ts).2 cur := by
  have hstart := C95_start cfg room
  suffices ∃ cur, InUseAll cfg.fuel (State.new cfg room).fs ts (replMainL cfg room editor saved ts).2 cur from
    let ⟨cur, h⟩ := this; ⟨_, cur, hstart, h⟩
  unfold replMainL
  cases editor with
  | false => exact ⟨_, .ends⟩
  | true =>
    simp only [if_true]
    have hfs := start_fs cfg room
    generalize procStart cfg room = r at hfs
    obtain ⟨p, x⟩ := r
    have hfs : p.rs.ev.fs = (State.new cfg room).fs := hfs
    cases x with
    | running =>
      have := run_inUse { cfg with interactive := true } ts p
      rw [hfs] at this
      exact ⟨_, this⟩
    | _ => exact ⟨_, .ends⟩

/-- **C95** So it is for a script. -/
theorem C95_script (cfg : Cfg) (room : Option Nat) (ω : Live) (file : Option Bytes) :
    ∃ first t cur, StartsWith cfg.host first ∧ InUse cfg.fuel ω 0 first (scriptMainL cfg room ω file).2 t cur := by
  refine ⟨(State.new cfg room).fs, ?_⟩
  have hstart := C95_start cfg room
  unfold scriptMainL
  cases file with
  | none => exact ⟨_, _, hstart, .nil⟩
  | some b =>
    dsimp only
    cases decodeUtf8 b with
    | none => exact ⟨_, _, hstart, .nil⟩
    | some s =>
      have := C95_entry { cfg with interactive := false } ω (RState.new { cfg with interactive := false } room) (stripComments s) 0
      exact ⟨_, _, hstart, this⟩

/-! ### witnesses -/

/-- two filesystems: the one of the working directory, and an empty one at `/e` -/
def moving : Cfg :=
  { odd with
    host :=
      { odd.host with
        openDir := fun p =>
          if p = s!' "/e" then some ⟨some 0x9123683e, batchKernel (fun _ => []) fun _ => 9⟩ else odd.host.openDir p
        cwd := some s!' "/m" } }

/-- what was done, without the answers -/
def Event.deed : Event → Str
  | .searched .. => s!' "search"
  | .read .. => s!' "read"
  | .opened p (.ok _) => s!' "open " ++ p
  | .opened p (.error _) => s!' "no " ++ p
  | .warned _ => s!' "warn"

/-- the working directory is searched until `/e` takes its place, which a path that cannot be opened does not -/
def movingScript : Str :=
  s!' "print len(search(11, key(0, 0, 0, 0))); filesystem \"/e\"; print len(search(11, key(0, 0, 0, 0))); filesystem \"/x\";"

example : ((scriptMainL moving none (.steady moving.host) (some (encoded movingScript))).2.map Event.deed) =
    [s!' "search", s!' "warn", s!' "open /e", s!' "search", s!' "no /x"] := by
  decide +kernel

example : (scriptMainL moving none (.steady moving.host) (some (encoded movingScript))).1.out = s!' "2\n0\n" := by
  decide +kernel

example : ∃ fs, StartsWith moving.host (some fs) := ⟨_, .here rfl rfl⟩

end Btrd
