/-
C97: everything a process does, in order, and what is seen of it when it is killed.
-/
import Verif.Lemmas.TraceBelow
import Verif.Props.Handles

namespace Btrd
open Spec

/-! ### the streams -/

/-- an entry: the same as in `Model/Live` -/
theorem entry_live (cfg : Cfg) (ω : Live) (rs : RState) (text : Str) (t : Nat) :
    ((runtimeEvalW cfg rs text).live cfg.fuel ω t).result = ((runtimeEvalT cfg rs text).live cfg.fuel ω t).result ∧
    errOf ((runtimeEvalW cfg rs text).live cfg.fuel ω t).acts =
      warningLines ((runtimeEvalT cfg rs text).live cfg.fuel ω t).log ∧
    answersOf ((runtimeEvalW cfg rs text).live cfg.fuel ω t).acts =
      answered ((runtimeEvalT cfg rs text).live cfg.fuel ω t).log ∧
    ((runtimeEvalT cfg rs text).live cfg.fuel ω t).result.1.ev.sink.out =
      rs.ev.sink.out ++ outOf ((runtimeEvalW cfg rs text).live cfg.fuel ω t).acts := by
  obtain ⟨_, h2, h3, h4⟩ := live_mute cfg.fuel ω (runtimeEvalW cfg rs text) t
  rw [mute_runtime] at h2 h3 h4
  refine ⟨h2, h3, h4, ?_⟩
  rw [← h2]
  exact (puts_runtime cfg rs text).live cfg.fuel ω t

theorem println_takes (st : State) (s : Str) : (st.println s).1.sink.out = st.sink.out ++ st.sink.takes (s ++ ['\n']) := by
  rw [← write_takes]
  unfold State.println
  split <;> (next h => rw [h])

theorem printlnActs_out (st : State) (s : Str) : (st.println s).1.sink.out = st.sink.out ++ outOf (st.printlnActs s) := by
  rw [println_takes]
  unfold State.printlnActs
  cases (st.println s).2 <;> simp [outOf]

theorem printlnActs_err (st : State) (s : Str) :
    errOf (st.printlnActs s) = if (st.println s).2 then [] else [.panicked] := by
  unfold State.printlnActs
  cases (st.println s).2 <;> rfl

theorem printlnActs_answers (st : State) (s : Str) : answersOf (st.printlnActs s) = [] := by
  unfold State.printlnActs
  cases (st.println s).2 <;> rfl

theorem printlnsActs_all : ∀ (ss : List Str) (st : State), (st.printlns ss).1.sink.out = st.sink.out ++ outOf (st.printlnsActs ss) ∧
    errOf (st.printlnsActs ss) = (if (st.printlns ss).2 then [] else [.panicked]) ∧ answersOf (st.printlnsActs ss) = []
  | [], st => by simp [State.printlns, State.printlnsActs, outOf, errOf, answersOf]
  | s :: ss, st => by
    have h1 := printlnActs_out st s
    have h2 := printlnActs_err st s
    have h3 := printlnActs_answers st s
    unfold State.printlns State.printlnsActs
    rcases h : st.println s with ⟨st', b⟩
    rw [h] at h1 h2
    cases b
    · exact ⟨h1, h2, h3⟩
    · obtain ⟨g1, g2, g3⟩ := printlnsActs_all ss st'
      dsimp only at h1 h2 ⊢
      simp only [outOf_append, errOf_append, answersOf_append, g1, g2, g3, h1, h2, h3]
      simp

/-- a process and its interpreter with what it has done since -/
structure Traces (p : Proc) (before : Str) (acts : List Act) (err : List ErrLine) (log : List Event) : Prop where
  out : p.rs.ev.sink.out = before ++ outOf acts
  err : p.err = err ++ errOf acts
  log : answered log = answersOf acts

theorem proc_println (p : Proc) (s : Str) (x : ProcStatus) :
    (p.println s x).1.rs = (p.rs.printlnW s x).1.1 ∧ (p.println s x).2 = (p.rs.printlnW s x).1.2 ∧
      Traces (p.println s x).1 p.rs.ev.sink.out (p.rs.printlnW s x).2 p.err [] := by
  have h1 := printlnActs_out p.rs.ev s
  have h2 := printlnActs_err p.rs.ev s
  have h3 := printlnActs_answers p.rs.ev s
  unfold Proc.println RState.printlnW
  rcases h : p.rs.ev.println s with ⟨ev, b⟩
  rw [h] at h1 h2
  cases b
  · exact ⟨rfl, rfl, h1, by dsimp only; rw [h2]; rfl, h3.symm⟩
  · exact ⟨rfl, rfl, h1, by dsimp only; rw [h2]; simp, h3.symm⟩

theorem step_follows (cfg : Cfg) (ω : Live) (p : Proc) (ev : ReplEvent) :
    (procStepL cfg ω p ev).1.1.rs = (stepW cfg ω p.rs ev).1.1 ∧ (procStepL cfg ω p ev).1.2 = (stepW cfg ω p.rs ev).1.2 ∧
      Traces (procStepL cfg ω p ev).1.1 p.rs.ev.sink.out (stepW cfg ω p.rs ev).2 p.err (procStepL cfg ω p ev).2 := by
  cases ev with
  | line s =>
    obtain ⟨h1, h2, h3, h4⟩ := entry_live cfg ω p.rs (fixupInput (stripComments s)) 0
    simp only [procStepL, stepW]
    rw [h1]
    revert h1 h2 h3 h4
    generalize (runtimeEvalW cfg p.rs (fixupInput (stripComments s))).live cfg.fuel ω 0 = w
    generalize (runtimeEvalT cfg p.rs (fixupInput (stripComments s))).live cfg.fuel ω 0 = l
    intro h1 h2 h3 h4
    obtain ⟨c, log, rs, r⟩ := l
    dsimp only at h1 h2 h3 h4 ⊢
    cases r with
    | ok => exact ⟨rfl, rfl, by simp [h4, procLine, lineEnd, outOf], by simp [procLine, lineEnd, h2, errOf], by simp [procLine, lineEnd, h3, answersOf]⟩
    | quit => exact ⟨rfl, rfl, by simp [h4, procLine, lineEnd, outOf], by simp [procLine, lineEnd, h2, errOf], by simp [procLine, lineEnd, h3, answersOf]⟩
    | fail f =>
      cases f <;> exact ⟨rfl, rfl, by simp [h4, procLine, lineEnd, outOf], by simp [procLine, lineEnd, h2, errOf], by simp [procLine, lineEnd, h3, answersOf]⟩
  | interrupted => exact ⟨rfl, rfl, by simp [procStepL, procStep, stepW, outOf], rfl, rfl⟩
  | eof => exact proc_println p _ _
  | otherError =>
    obtain ⟨h1, h2, h3⟩ := proc_println ⟨p.rs, p.err ++ [.logged]⟩ s!' "quit" .running
    exact ⟨h1, h2, h3.out, by have := h3.err; simp only [List.append_assoc] at this; exact this, h3.log⟩

theorem answered_append (a b : List Event) : answered (a ++ b) = answered a ++ answered b := List.filter_append ..

theorem run_follows (cfg : Cfg) : ∀ (ts : List LiveTick) (p : Proc),
    (procRunL cfg p ts).1.1.rs = (runW cfg p.rs ts).1.1 ∧ (procRunL cfg p ts).1.2 = (runW cfg p.rs ts).1.2 ∧
      Traces (procRunL cfg p ts).1.1 p.rs.ev.sink.out (runW cfg p.rs ts).2 p.err (procRunL cfg p ts).2
  | [], p => ⟨rfl, rfl, by simp [procRunL, runW, outOf], by simp [procRunL, runW, errOf], rfl⟩
  | t :: ts, p => by
    obtain ⟨h1, h2, h3⟩ := step_follows cfg t.world (p.meets t.drift) t.event
    rw [procRunL, runW]
    have hm : (p.meets t.drift).rs = p.rs.meets t.drift := rfl
    rw [hm] at h1 h2 h3
    revert h1 h2 h3
    generalize procStepL cfg t.world (p.meets t.drift) t.event = a
    generalize stepW cfg t.world (p.rs.meets t.drift) t.event = b
    intro h1 h2 h3
    obtain ⟨⟨p', s⟩, log⟩ := a
    obtain ⟨⟨rs', s'⟩, acts⟩ := b
    dsimp only at h1 h2 h3
    subst h1 h2
    cases s with
    | running =>
      obtain ⟨g1, g2, g3⟩ := run_follows cfg ts p'
      refine ⟨g1, g2, ?_, ?_, ?_⟩
      · dsimp only
        rw [g3.out, h3.out]
        simp [outOf, RState.meets]
      · dsimp only
        rw [g3.err, h3.err]
        simp [errOf, Proc.meets]
      · dsimp only
        rw [answered_append, g3.log, h3.log]
        simp [answersOf]
    | over => exact ⟨rfl, rfl, h3.out, h3.err, h3.log⟩
    | panicked => exact ⟨rfl, rfl, h3.out, h3.err, h3.log⟩
    | hung => exact ⟨rfl, rfl, h3.out, h3.err, h3.log⟩

/-- **C97** What a session is seen to do, act by act, is what it writes to its two streams, what it asks and is told,
and how it ends: the two streams and the answers in the order of the acts. -/
theorem C97_session (cfg : Cfg) (room : Option Nat) (editor saved : Bool) (ts : List LiveTick) :
    (replMainL cfg room editor saved ts).1 = ⟨outOf (replActs cfg room editor saved ts).1,
      errOf (replActs cfg room editor saved ts).1, (replActs cfg room editor saved ts).2⟩ ∧
    answered (replMainL cfg room editor saved ts).2 = answersOf (replActs cfg room editor saved ts).1 := by
  have hw := printlnsActs_all welcomeLines (State.new cfg room)
  have h0 : (State.new cfg room).sink.out = [] := rfl
  unfold replMainL replActs
  cases editor
  · exact ⟨rfl, rfl⟩
  · simp only [if_true]
    rw [h0, List.nil_append] at hw
    obtain ⟨w1, w2, w3⟩ := hw
    unfold procStart
    rcases hp : (State.new cfg room).printlns welcomeLines with ⟨ev, b⟩
    rw [hp] at w1 w2
    cases b
    · dsimp only at w1 w2
      exact ⟨by simp only [procEnd, w1, w2]; rfl, w3.symm⟩
    · dsimp only at w1 w2 ⊢
      obtain ⟨g1, g2, g3⟩ := run_follows { cfg with interactive := true } ts ⟨⟨AState.new, ev⟩, []⟩
      revert g1 g2 g3
      dsimp only
      generalize procRunL { cfg with interactive := true } ⟨⟨AState.new, ev⟩, []⟩ ts = a
      generalize runW { cfg with interactive := true } ⟨AState.new, ev⟩ ts = b
      intro g1 g2 g3
      obtain ⟨⟨p', s⟩, log⟩ := a
      obtain ⟨⟨rs', s'⟩, acts⟩ := b
      dsimp only at g1 g2 g3 ⊢
      subst g1 g2
      have e1 := g3.out
      have e2 := g3.err
      have e3 := g3.log
      rw [w1] at e1
      cases s with
      | over => cases saved <;> simp [procEnd, endW, outOf, errOf, answersOf, e1, e2, e3, w2, w3]
      | _ => simp [procEnd, endW, outOf, errOf, answersOf, e1, e2, e3, w2, w3]

theorem outOf_errs : ∀ l : List ErrLine, outOf (l.map .err) = []
  | [] => rfl
  | _ :: l => outOf_errs l

theorem errOf_errs : ∀ l : List ErrLine, errOf (l.map .err) = l
  | [] => rfl
  | x :: l => congrArg (x :: ·) (errOf_errs l)

theorem answersOf_errs : ∀ l : List ErrLine, answersOf (l.map .err) = []
  | [] => rfl
  | _ :: l => answersOf_errs l

/-- **C97** And a script run. -/
theorem C97_script (cfg : Cfg) (room : Option Nat) (ω : Live) (file : Option Bytes) :
    (scriptMainL cfg room ω file).1 = ⟨outOf (scriptActs cfg room ω file).1, errOf (scriptActs cfg room ω file).1,
      (scriptActs cfg room ω file).2⟩ ∧
    answered (scriptMainL cfg room ω file).2 = answersOf (scriptActs cfg room ω file).1 := by
  unfold scriptMainL scriptActs
  cases file with
  | none => exact ⟨rfl, rfl⟩
  | some b =>
    dsimp only
    cases decodeUtf8 b with
    | none => exact ⟨rfl, rfl⟩
    | some s =>
      dsimp only
      obtain ⟨h1, h2, h3, h4⟩ := entry_live { cfg with interactive := false } ω
        (RState.new { cfg with interactive := false } room) (stripComments s) 0
      dsimp only at h1 h2 h3 h4
      rw [h1]
      simp only [outOf_append, errOf_append, answersOf_append, outOf_errs, errOf_errs, answersOf_errs, List.append_nil, h2, h3]
      refine ⟨?_, trivial⟩
      rw [h4]
      rfl

/-! ### killed -/

theorem killed_views {seen acts : List Act} (h : KilledIn seen acts) :
    outOf seen <+: outOf acts ∧ errOf seen <+: errOf acts ∧ answersOf seen <+: answersOf acts := by
  induction h with
  | here => exact ⟨List.nil_prefix, List.nil_prefix, List.nil_prefix⟩
  | @writing s s' l => exact ⟨⟨s' ++ outOf l, by simp [outOf]⟩, List.nil_prefix, List.nil_prefix⟩
  | @later x l l' _ ih =>
    obtain ⟨h1, h2, h3⟩ := ih
    cases x <;> simp only [outOf, errOf, answersOf, List.prefix_append_right_inj, List.cons_prefix_cons, true_and] <;>
      exact ⟨h1, h2, h3⟩

/-- **C97** Whenever a session is killed, standard output holds a first part of what it would have been, standard error
and the answers too. -/
theorem C97_killed (cfg : Cfg) (room : Option Nat) (editor saved : Bool) (ts : List LiveTick) {seen : List Act}
    (h : KilledIn seen (replActs cfg room editor saved ts).1) :
    outOf seen <+: (replMainL cfg room editor saved ts).1.out ∧ errOf seen <+: (replMainL cfg room editor saved ts).1.err ∧
      answersOf seen <+: answered (replMainL cfg room editor saved ts).2 := by
  obtain ⟨h1, h2⟩ := C97_session cfg room editor saved ts
  rw [h1, h2]
  exact killed_views h

/-- **C97** The same for a script. -/
theorem C97_killed_script (cfg : Cfg) (room : Option Nat) (ω : Live) (file : Option Bytes) {seen : List Act}
    (h : KilledIn seen (scriptActs cfg room ω file).1) :
    outOf seen <+: (scriptMainL cfg room ω file).1.out ∧ errOf seen <+: (scriptMainL cfg room ω file).1.err ∧
      answersOf seen <+: answered (scriptMainL cfg room ω file).2 := by
  obtain ⟨h1, h2⟩ := C97_script cfg room ω file
  rw [h1, h2]
  exact killed_views h

/-- **C97** And every first part of the output is there at some moment. -/
theorem C97_every_part : ∀ (acts : List Act) (s : Str), s <+: outOf acts → ∃ seen, KilledIn seen acts ∧ outOf seen = s
  | [], s, h => by
    have : s = [] := by simpa [outOf] using h
    exact ⟨[], .here, this.symm⟩
  | .out u :: l, s, h => by
    simp only [outOf] at h
    rcases Nat.le_total s.length u.length with hle | hle
    · obtain ⟨s', rfl⟩ := List.prefix_of_prefix_length_le h (List.prefix_append u (outOf l)) hle
      exact ⟨[.out s], .writing, by simp [outOf]⟩
    · obtain ⟨v, rfl⟩ := List.prefix_of_prefix_length_le (List.prefix_append u (outOf l)) h hle
      have hv : v <+: outOf l := (List.prefix_append_right_inj u).1 h
      obtain ⟨seen, h1, h2⟩ := C97_every_part l v hv
      exact ⟨_, .later h1, by simp [outOf, h2]⟩
  | .took _ :: l, s, h => by
    obtain ⟨seen, h1, h2⟩ := C97_every_part l s h
    exact ⟨_, .later h1, by simp [outOf, h2]⟩
  | .err _ :: l, s, h => by
    obtain ⟨seen, h1, h2⟩ := C97_every_part l s h
    exact ⟨_, .later h1, by simp [outOf, h2]⟩
  | .asks _ :: l, s, h => by
    obtain ⟨seen, h1, h2⟩ := C97_every_part l s h
    exact ⟨_, .later h1, by simp [outOf, h2]⟩
  | .told _ :: l, s, h => by
    obtain ⟨seen, h1, h2⟩ := C97_every_part l s h
    exact ⟨_, .later h1, by simp [outOf, h2]⟩

/-! ### nothing is done because of what comes later -/

/-- the number of requests -/
def asksIn : List Act → Nat
  | [] => 0
  | .asks _ :: l => asksIn l + 1
  | _ :: l => asksIn l

theorem asksIn_append : ∀ a b : List Act, asksIn (a ++ b) = asksIn a + asksIn b
  | [], b => by simp [asksIn]
  | x :: a, b => by cases x <;> simp [asksIn, asksIn_append a b] <;> omega

theorem asksIn_answer (e : Event) : asksIn e.answer = 0 := by
  unfold Event.answer; split <;> rfl

theorem before_at (q : Query) (post : List Act) : ∀ pre : List Act, BeforeAsk (asksIn pre) (pre ++ .asks q :: post) pre
  | [] => .asks
  | x :: pre => by
    cases x with
    | asks q' => exact .asked (before_at q post pre)
    | _ => exact .other (fun q h => by cases h) (before_at q post pre)

/-- worlds that answer n requests from now on alike -/
def AlikeFrom (t n : Nat) (ω ω' : Live) : Prop := ∀ u, t ≤ u → u < t + n → ω.host u = ω'.host u ∧ ω.drift u = ω'.drift u

theorem before_self (n : Nat) : ∀ l : List Act, ∃ b, BeforeAsk n l b := by
  intro l
  induction l generalizing n with
  | nil => exact ⟨[], .never⟩
  | cons x l ih =>
    cases x with
    | asks q =>
      cases n with
      | zero => exact ⟨[], .asks⟩
      | succ n => obtain ⟨b, h⟩ := ih n; exact ⟨_, .asked h⟩
    | _ => obtain ⟨b, h⟩ := ih n; exact ⟨_, .other (fun q h => by cases h) h⟩

/-- the same up to the request number n -/
inductive Forks (n : Nat) (a b : List Act) : Prop where
  | mk {pre q q' post post'} : asksIn pre = n → a = pre ++ .asks q :: post → b = pre ++ .asks q' :: post' → Forks n a b

theorem Forks.before {n : Nat} {a b : List Act} (h : Forks n a b) : ∃ pre, BeforeAsk n a pre ∧ BeforeAsk n b pre := by
  obtain ⟨rfl, rfl, rfl⟩ := h
  exact ⟨_, before_at _ _ _, before_at _ _ _⟩

theorem Forks.step {n : Nat} {a b : List Act} (l : List Act) (h : Forks n a b) : Forks (asksIn l + n) (l ++ a) (l ++ b) := by
  obtain ⟨rfl, h1, h2⟩ := h
  exact .mk (pre := l ++ _) (asksIn_append _ _) (by rw [h1, List.append_assoc]) (by rw [h2, List.append_assoc])

theorem Forks.more {n : Nat} {a b : List Act} (l l' : List Act) (h : Forks n a b) : Forks n (a ++ l) (b ++ l') := by
  obtain ⟨h0, h1, h2⟩ := h
  exact .mk h0 (by rw [h1, List.append_assoc]; rfl) (by rw [h2, List.append_assoc]; rfl)

/-- either both are through, in the same way, before the request number n, or they have done the same up to it -/
theorem live_causal {α : Type} (fuel : Nat) (ω ω' : Live) : ∀ (x : W α) (n t : Nat), AlikeFrom t n ω ω' →
    x.live fuel ω t = x.live fuel ω' t ∨ Forks n (x.live fuel ω t).acts (x.live fuel ω' t).acts
  | .ret a, n, t, _ => .inl rfl
  | .wrote s k, n, t, h => by
    rcases live_causal fuel ω ω' k n t h with h | h
    · left; simp only [W.live, h]
    · right; have := h.step [.out s]; simp only [asksIn, Nat.zero_add] at this; exact this
  | .warn w k, n, t, h => by
    rcases live_causal fuel ω ω' k n t h with h | h
    · left; simp only [W.live, h]
    · right; have := h.step [.err (.warning w)]; simp only [asksIn, Nat.zero_add] at this; exact this
  | .search fs a k, n, t, h => by
    cases n with
    | zero => right; exact .mk (pre := []) rfl rfl rfl
    | succ n =>
      have ht := h t (Nat.le_refl _) (by omega)
      rcases live_causal fuel ω ω' (k ((ω.drift t fs).search fuel a)) n (t + 1) (fun u h1 h2 => h u (by omega) (by omega)) with h | h
      · left; simp only [W.live, ← ht.2, h]
      · right
        have := h.step (.asks (.search (ω.drift t fs) a) ::
          (Event.searched (ω.drift t fs) a ((ω.drift t fs).search fuel a)).answer)
        simp only [asksIn, asksIn_answer, Nat.zero_add] at this
        rw [Nat.add_comm] at this
        simp only [W.live, ← ht.2]
        exact this
  | .bytes fs i j k, n, t, h => by
    cases n with
    | zero => right; exact .mk (pre := []) rfl rfl rfl
    | succ n =>
      have ht := h t (Nat.le_refl _) (by omega)
      rcases live_causal fuel ω ω' (k ((ω.drift t fs).getBytes i j)) n (t + 1) (fun u h1 h2 => h u (by omega) (by omega)) with h | h
      · left; simp only [W.live, ← ht.2, h]
      · right
        have := h.step (.asks (.read (ω.drift t fs) i j) ::
          (Event.read (ω.drift t fs) i j ((ω.drift t fs).getBytes i j)).answer)
        simp only [asksIn, asksIn_answer, Nat.zero_add] at this
        rw [Nat.add_comm] at this
        simp only [W.live, ← ht.2]
        exact this
  | .opens p k, n, t, h => by
    cases n with
    | zero => right; exact .mk (pre := []) rfl rfl rfl
    | succ n =>
      have ht := h t (Nat.le_refl _) (by omega)
      rcases live_causal fuel ω ω' (k (Fs.new (ω.host t) p)) n (t + 1) (fun u h1 h2 => h u (by omega) (by omega)) with h | h
      · left; simp only [W.live, ← ht.1, h]
      · right
        have := h.step (.asks (.opens p) :: (Event.opened p (Fs.new (ω.host t) p)).answer)
        simp only [asksIn, asksIn_answer, Nat.zero_add] at this
        rw [Nat.add_comm] at this
        simp only [W.live, ← ht.1]
        exact this

theorem alike_from {n : Nat} {ω ω' : Live} (h : SameSoFar n ω ω') : AlikeFrom 0 n ω ω' := fun u _ hu => h u (by omega)

/-- **C97** What a script does before its request number n depends only on the answers to the requests before: in two
worlds that answer these alike it does the same until then, and all the same if it does not ask more. -/
theorem C97_script_causal (cfg : Cfg) (room : Option Nat) (n : Nat) {ω ω' : Live} (h : SameSoFar n ω ω') (file : Option Bytes) :
    scriptActs cfg room ω file = scriptActs cfg room ω' file ∨
      ∃ pre, BeforeAsk n (scriptActs cfg room ω file).1 pre ∧ BeforeAsk n (scriptActs cfg room ω' file).1 pre := by
  unfold scriptActs
  cases file with
  | none => exact .inl rfl
  | some b =>
    dsimp only
    cases decodeUtf8 b with
    | none => exact .inl rfl
    | some s =>
      dsimp only
      rcases live_causal cfg.fuel ω ω' (runtimeEvalW { cfg with interactive := false }
        (RState.new { cfg with interactive := false } room) (stripComments s)) n 0 (alike_from h) with h | h
      · left; rw [h]
      · right; exact (h.more _ _).before

/-- the loop on more events -/
theorem runW_append (cfg : Cfg) : ∀ (ts us : List LiveTick) (rs : RState),
    runW cfg rs (ts ++ us) = if (runW cfg rs ts).1.2 = .running then
        ((runW cfg (runW cfg rs ts).1.1 us).1, (runW cfg rs ts).2 ++ (runW cfg (runW cfg rs ts).1.1 us).2)
      else runW cfg rs ts
  | [], us, rs => by simp [runW]
  | t :: ts, us, rs => by
    rw [List.cons_append, runW, runW]
    generalize stepW cfg t.world (rs.meets t.drift) t.event = r
    obtain ⟨⟨rs', s⟩, acts⟩ := r
    cases s with
    | running =>
      dsimp only
      rw [runW_append cfg ts us rs']
      split <;> simp
    | _ => simp

theorem endW_running (saved : Bool) (s : ProcStatus) : (endW saved s).2 = .running ↔ s = .running := by
  cases s <;> cases saved <;> simp [endW]

/-- **C97** What a session has done after some events stays, whatever is entered later; and when it is over, nothing
is done any more. -/
theorem C97_session_goes_on (cfg : Cfg) (room : Option Nat) (editor saved : Bool) (ts us : List LiveTick) :
    ((replActs cfg room editor saved ts).2 = .running →
      ∃ later, (replActs cfg room editor saved (ts ++ us)).1 = (replActs cfg room editor saved ts).1 ++ later) ∧
    ((replActs cfg room editor saved ts).2 ≠ .running →
      replActs cfg room editor saved (ts ++ us) = replActs cfg room editor saved ts) := by
  unfold replActs
  cases editor
  · simp
  · simp only [if_true]
    rcases procStart cfg room with ⟨p, s⟩
    cases s with
    | running =>
      dsimp only
      rw [runW_append]
      by_cases h : (runW { cfg with interactive := true } p.rs ts).1.2 = .running
      · simp [h, endW]
      · simp [h, endW_running]
    | _ => simp [endW]

@[simp] theorem takenOf_append : ∀ a b : List Act, takenOf (a ++ b) = takenOf a ++ takenOf b
  | [], b => rfl
  | x :: a, b => by cases x <;> simp [takenOf, takenOf_append a b]

theorem takenOf_live {α : Type} (fuel : Nat) (ω : Live) : ∀ (x : W α) (t : Nat), takenOf (x.live fuel ω t).acts = []
  | .ret _, _ => rfl
  | .wrote _ k, t => takenOf_live fuel ω k t
  | .warn _ k, t => takenOf_live fuel ω k t
  | .search fs a k, t => by
    have := takenOf_live fuel ω (k ((ω.drift t fs).search fuel a)) (t + 1)
    simp only [W.live, after_acts, List.cons_append, takenOf, takenOf_append, this, Event.answer]
    split <;> rfl
  | .bytes fs i j k, t => by
    have := takenOf_live fuel ω (k ((ω.drift t fs).getBytes i j)) (t + 1)
    simp only [W.live, after_acts, List.cons_append, takenOf, takenOf_append, this, Event.answer]
    split <;> rfl
  | .opens p k, t => by
    have := takenOf_live fuel ω (k (Fs.new (ω.host t) p)) (t + 1)
    simp only [W.live, after_acts, List.cons_append, takenOf, takenOf_append, this, Event.answer]
    split <;> rfl

theorem takenOf_println (st : State) (s : Str) : takenOf (st.printlnActs s) = [] := by
  unfold State.printlnActs
  split <;> rfl

theorem takenOf_printlns : ∀ (ss : List Str) (st : State), takenOf (st.printlnsActs ss) = []
  | [], _ => rfl
  | s :: ss, st => by
    unfold State.printlnsActs
    split
    · next st' h => simp [takenOf_println, takenOf_printlns ss st']
    · exact takenOf_println st s

theorem takenOf_step (cfg : Cfg) (ω : Live) (rs : RState) (ev : ReplEvent) : takenOf (stepW cfg ω rs ev).2 = [] := by
  cases ev with
  | line s =>
    simp only [stepW, takenOf_append, takenOf_live, List.nil_append]
    unfold lineEnd
    split <;> rfl
  | interrupted => rfl
  | eof => exact takenOf_println _ _
  | otherError => exact takenOf_println rs.ev _

theorem takenOf_run (cfg : Cfg) : ∀ (ts : List LiveTick) (rs : RState),
    takenOf (runW cfg rs ts).2 <+: ts.map LiveTick.event ∧
      ((runW cfg rs ts).1.2 = .running → takenOf (runW cfg rs ts).2 = ts.map LiveTick.event)
  | [], rs => by simp [runW, takenOf]
  | t :: ts, rs => by
    rw [runW]
    have h := takenOf_step cfg t.world (rs.meets t.drift) t.event
    revert h
    generalize stepW cfg t.world (rs.meets t.drift) t.event = r
    intro h
    obtain ⟨⟨rs', s⟩, acts⟩ := r
    dsimp only at h
    obtain ⟨g1, g2⟩ := takenOf_run cfg ts rs'
    cases s with
    | running => exact ⟨by simp [takenOf, h, g1], fun hr => by simp [takenOf, h, g2 hr]⟩
    | _ => exact ⟨by simp [takenOf, h], fun hr => by cases hr⟩

theorem takenOf_end (saved : Bool) (s : ProcStatus) : takenOf (endW saved s).1 = [] := by
  cases s <;> cases saved <;> rfl

/-- **C97** The prompt returns the events of the session in their order, each once, up to the one that ends it. -/
theorem C97_taken (cfg : Cfg) (room : Option Nat) (editor saved : Bool) (ts : List LiveTick) :
    takenOf (replActs cfg room editor saved ts).1 <+: ts.map LiveTick.event ∧
      ((replActs cfg room editor saved ts).2 = .running →
        takenOf (replActs cfg room editor saved ts).1 = ts.map LiveTick.event) := by
  unfold replActs
  cases editor
  · simp [takenOf]
  · simp only [if_true]
    have hw := takenOf_printlns welcomeLines (State.new cfg room)
    revert hw
    generalize (State.new cfg room).printlnsActs welcomeLines = wl
    intro hw
    rcases procStart cfg room with ⟨p, s⟩
    cases s with
    | running =>
      dsimp only
      rw [endW_running]
      simp only [takenOf_append, hw, takenOf_end, List.nil_append, List.append_nil]
      exact takenOf_run _ ts p.rs
    | _ => cases saved <;> simp [hw, endW]

theorem runW_one (cfg : Cfg) (rs : RState) (t : LiveTick) : runW cfg rs [t] =
    ((stepW cfg t.world (rs.meets t.drift) t.event).1, .took t.event :: (stepW cfg t.world (rs.meets t.drift) t.event).2) := by
  rw [runW]
  generalize stepW cfg t.world (rs.meets t.drift) t.event = r
  obtain ⟨⟨rs', s⟩, acts⟩ := r
  cases s <;> simp [runW]

theorem step_causal (cfg : Cfg) {n : Nat} {ω ω' : Live} (h : SameSoFar n ω ω') (rs : RState) (ev : ReplEvent) :
    stepW cfg ω rs ev = stepW cfg ω' rs ev ∨ Forks n (stepW cfg ω rs ev).2 (stepW cfg ω' rs ev).2 := by
  cases ev with
  | line s =>
    rcases live_causal cfg.fuel ω ω' (runtimeEvalW cfg rs (fixupInput (stripComments s))) n 0 (alike_from h) with h | h
    · left; simp only [stepW, h]
    · right; exact h.more _ _
  | _ => exact .inl rfl

/-- **C97** In a session too: up to its request number n an entry does the same in any two worlds that answer the
requests before alike. -/
theorem C97_session_causal (cfg : Cfg) (room : Option Nat) (editor saved : Bool) (ts : List LiveTick) (n : Nat)
    {t t' : LiveTick} (hd : t.drift = t'.drift) (he : t.event = t'.event) (hw : SameSoFar n t.world t'.world)
    (hr : (replActs cfg room editor saved ts).2 = .running) :
    replActs cfg room editor saved (ts ++ [t]) = replActs cfg room editor saved (ts ++ [t']) ∨
      ∃ now now' pre, (replActs cfg room editor saved (ts ++ [t])).1 = (replActs cfg room editor saved ts).1 ++ now ∧
        (replActs cfg room editor saved (ts ++ [t'])).1 = (replActs cfg room editor saved ts).1 ++ now' ∧
        BeforeAsk n now pre ∧ BeforeAsk n now' pre := by
  revert hr
  unfold replActs
  cases editor
  · simp
  · simp only [if_true]
    rcases procStart cfg room with ⟨p, s⟩
    cases s with
    | running =>
      dsimp only
      rw [endW_running]
      intro hr
      rw [runW_append, runW_append, if_pos hr, if_pos hr, hr]
      generalize (runW { cfg with interactive := true } p.rs ts).1.1 = rs
      have key : runW { cfg with interactive := true } rs [t] = runW { cfg with interactive := true } rs [t'] ∨
          Forks n (runW { cfg with interactive := true } rs [t]).2 (runW { cfg with interactive := true } rs [t']).2 := by
        rw [runW_one, runW_one, hd, he]
        rcases step_causal { cfg with interactive := true } hw (rs.meets t'.drift) t'.event with h | h
        · left; rw [h]
        · right
          have := h.step [.took t'.event]
          simp only [asksIn, Nat.zero_add] at this
          exact this
      rcases key with key | key
      · left; rw [key]
      · right
        obtain ⟨pre, h1, h2⟩ := (key.more (endW saved (runW { cfg with interactive := true } rs [t]).1.2).1
          (endW saved (runW { cfg with interactive := true } rs [t']).1.2).1).before
        exact ⟨_, _, pre, by simp [endW], by simp [endW], h1, h2⟩
    | _ => simp [endW]

/-! ### runs that go on forever, and overflow checks -/

/-- the failures a run is given up with -/
theorem step_below {S : Fail → Prop} {cfg cfg' : Cfg} (hc : Finer S cfg cfg') (ω : Live) (rs : RState) (ev : ReplEvent) :
    stepW cfg ω rs ev = stepW cfg' ω rs ev ∨ ∃ f pre more, S f ∧ (stepW cfg ω rs ev).2 = pre ++ (lineEnd (.fail f)).1 ∧
      (stepW cfg ω rs ev).1.2 = (lineEnd (.fail f)).2 ∧ (stepW cfg' ω rs ev).2 = pre ++ more := by
  cases ev with
  | line s =>
    rcases below_live hc.fuel ω (below_runtime hc rs (fixupInput (stripComments s))) 0 with h | ⟨f, h1, h2, l, h3⟩
    · left; simp only [stepW, h]
    · right
      refine ⟨f, ((runtimeEvalW cfg rs (fixupInput (stripComments s))).live cfg.fuel ω 0).acts,
        l ++ (lineEnd ((runtimeEvalW cfg' rs (fixupInput (stripComments s))).live cfg'.fuel ω 0).result.2).1, h1, ?_, ?_, ?_⟩
      · simp only [stepW, h2]
      · simp only [stepW, h2]
      · simp only [stepW, h3, List.append_assoc]
  | _ => exact .inl rfl

theorem run_below {S : Fail → Prop} (hS : ∀ f, S f → f = .panic ∨ f = .diverge) {cfg cfg' : Cfg} (hc : Finer S cfg cfg') :
    ∀ (ts : List LiveTick) (rs : RState), runW cfg rs ts = runW cfg' rs ts ∨
      ∃ f pre more, S f ∧ (runW cfg rs ts).2 = pre ++ (lineEnd (.fail f)).1 ∧
        (runW cfg rs ts).1.2 = (lineEnd (.fail f)).2 ∧ (runW cfg' rs ts).2 = pre ++ more
  | [], rs => .inl rfl
  | t :: ts, rs => by
    rw [runW, runW]
    rcases step_below hc t.world (rs.meets t.drift) t.event with h | ⟨f, pre, more, h1, h2, h3, h4⟩
    · rw [h]
      generalize stepW cfg' t.world (rs.meets t.drift) t.event = r
      obtain ⟨⟨rs', s⟩, acts⟩ := r
      cases s with
      | running =>
        dsimp only
        rcases run_below hS hc ts rs' with h | ⟨f, pre, more, h1, h2, h3, h4⟩
        · left; rw [h]
        · right
          exact ⟨f, .took t.event :: acts ++ pre, more, h1, by simp [h2], h3, by simp [h4]⟩
      | _ => exact .inl rfl
    · right
      revert h2 h3 h4
      generalize stepW cfg t.world (rs.meets t.drift) t.event = r
      generalize stepW cfg' t.world (rs.meets t.drift) t.event = r'
      obtain ⟨⟨rs1, s⟩, acts⟩ := r
      obtain ⟨⟨rs2, s'⟩, acts'⟩ := r'
      intro h2 h3 h4
      dsimp only at h2 h3 h4
      have hm : ∃ m, (match (((rs2, s'), acts') : (RState × ProcStatus) × List Act) with
          | ((rs', .running), acts) => ((runW cfg' rs' ts).1, Act.took t.event :: acts ++ (runW cfg' rs' ts).2)
          | (r, acts) => (r, Act.took t.event :: acts)).2 = Act.took t.event :: pre ++ m := by
        cases s' with
        | running => exact ⟨more ++ (runW cfg' rs2 ts).2, by simp [h4]⟩
        | _ => exact ⟨more, by simp [h4]⟩
      obtain ⟨m, hm⟩ := hm
      rcases hS f h1 with rfl | rfl
      · subst h3
        exact ⟨.panic, .took t.event :: pre, m, h1, by simp [h2, lineEnd], rfl, hm⟩
      · subst h3
        exact ⟨.diverge, .took t.event :: pre, m, h1, by simp [h2, lineEnd], rfl, hm⟩

theorem start_same (cfg cfg' : Cfg) (hh : cfg.host = cfg'.host) (room : Option Nat) :
    State.new cfg room = State.new cfg' room := by
  unfold State.new
  rw [hh]

theorem repl_below {S : Fail → Prop} (hS : ∀ f, S f → f = .panic ∨ f = .diverge) {cfg cfg' : Cfg} (hc : Finer S cfg cfg')
    (room : Option Nat) (editor saved : Bool) (ts : List LiveTick) :
    replActs cfg room editor saved ts = replActs cfg' room editor saved ts ∨
      ∃ f pre more, S f ∧ (replActs cfg room editor saved ts).1 = pre ++ (lineEnd (.fail f)).1 ∧
        (replActs cfg room editor saved ts).2 = (endW saved (lineEnd (.fail f)).2).2 ∧
        (replActs cfg' room editor saved ts).1 = pre ++ more := by
  unfold replActs
  cases editor
  · simp
  · simp only [if_true]
    have hs := start_same cfg cfg' hc.host room
    have hp : procStart cfg room = procStart cfg' room := by unfold procStart; rw [hs]
    rw [hs, hp]
    generalize (State.new cfg' room).printlnsActs welcomeLines = wl
    generalize procStart cfg' room = ps
    obtain ⟨p, s⟩ := ps
    cases s with
    | running =>
      dsimp only
      have hc' : Finer S { cfg with interactive := true } { cfg' with interactive := true } :=
        ⟨hc.build, hc.fuel, hc.host, rfl⟩
      rcases run_below hS hc' ts p.rs with h | ⟨f, pre, more, h1, h2, h3, h4⟩
      · left; rw [h]
      · right
        refine ⟨f, wl ++ pre, more ++ (endW saved (runW { cfg' with interactive := true } p.rs ts).1.2).1, h1, ?_, by rw [h3], ?_⟩
        · rw [h2, h3]
          rcases hS f h1 with rfl | rfl <;> simp [lineEnd, endW]
        · rw [h4]; simp only [List.append_assoc]
    | _ => exact .inl rfl

/-- **C97** A session that evaluates longer: what it has done when it has taken some number of steps in every loop is
a first part of what it has done when it has taken more; so what is seen of an endless entry until it is killed does
not depend on anything else. And if it is not busy any more, it is all. -/
theorem C97_session_longer (cfg : Cfg) (room : Option Nat) (editor saved : Bool) (ts : List LiveTick) {n n' : Nat}
    (h : n ≤ n') :
    (replActs (cfg.steps n) room editor saved ts).1 <+: (replActs (cfg.steps n') room editor saved ts).1 ∧
    ((replActs (cfg.steps n) room editor saved ts).2 ≠ .busy →
      replActs (cfg.steps n') room editor saved ts = replActs (cfg.steps n) room editor saved ts) := by
  rcases repl_below (fun f hf => .inr hf) (finer_steps cfg h) room editor saved ts with h | ⟨f, pre, more, rfl, h1, h2, h3⟩
  · rw [h]; exact ⟨List.prefix_rfl, fun _ => rfl⟩
  · refine ⟨⟨more, ?_⟩, fun hn => absurd h2 hn⟩
    rw [h1, h3]
    simp [lineEnd]

/-- **C97** A build that checks for overflows does what one without these checks does, up to the panic. -/
theorem C97_session_checks (cfg : Cfg) (room : Option Nat) (editor saved : Bool) (ts : List LiveTick) :
    replActs (cfg.checks true) room editor saved ts = replActs (cfg.checks false) room editor saved ts ∨
      ∃ pre, (replActs (cfg.checks true) room editor saved ts).1 = pre ++ [.err .panicked] ∧
        (replActs (cfg.checks true) room editor saved ts).2 = .panicked ∧
        pre <+: (replActs (cfg.checks false) room editor saved ts).1 := by
  rcases repl_below (fun f hf => .inl hf) (finer_checks cfg) room editor saved ts with h | ⟨f, pre, more, rfl, h1, h2, h3⟩
  · exact .inl h
  · exact .inr ⟨pre, h1, h2, more, h3.symm⟩

theorem script_below {S : Fail → Prop} {cfg cfg' : Cfg} (hc : Finer S cfg cfg')
    (room : Option Nat) (ω : Live) (file : Option Bytes) :
    scriptActs cfg room ω file = scriptActs cfg' room ω file ∨
      ∃ f pre more, S f ∧ (scriptActs cfg room ω file).1 = pre ++ (scriptExit (.fail f)).1.map .err ∧
        (scriptActs cfg room ω file).2 = (scriptExit (.fail f)).2 ∧ (scriptActs cfg' room ω file).1 = pre ++ more := by
  unfold scriptActs
  cases file with
  | none => exact .inl rfl
  | some b =>
    dsimp only
    cases decodeUtf8 b with
    | none => exact .inl rfl
    | some s =>
      dsimp only
      have hc' : Finer S { cfg with interactive := false } { cfg' with interactive := false } :=
        ⟨hc.build, hc.fuel, hc.host, rfl⟩
      have hs : RState.new { cfg with interactive := false } room = RState.new { cfg' with interactive := false } room := by
        unfold RState.new
        rw [start_same { cfg with interactive := false } { cfg' with interactive := false } hc.host room]
      rw [hs]
      rcases below_live hc.fuel ω (below_runtime hc' (RState.new { cfg' with interactive := false } room) (stripComments s)) 0
        with h | ⟨f, h1, h2, l, h3⟩
      · left; rw [h]
      · right
        exact ⟨f, _, _, h1, by rw [h2], by rw [h2], by rw [h3, List.append_assoc]⟩

/-- **C97** The same for a script that runs longer. -/
theorem C97_script_longer (cfg : Cfg) (room : Option Nat) (ω : Live) (file : Option Bytes) {n n' : Nat} (h : n ≤ n') :
    (scriptActs (cfg.steps n) room ω file).1 <+: (scriptActs (cfg.steps n') room ω file).1 ∧
    ((scriptActs (cfg.steps n) room ω file).2 ≠ .busy →
      scriptActs (cfg.steps n') room ω file = scriptActs (cfg.steps n) room ω file) := by
  rcases script_below (finer_steps cfg h) room ω file with h | ⟨f, pre, more, rfl, h1, h2, h3⟩
  · rw [h]; exact ⟨List.prefix_rfl, fun _ => rfl⟩
  · refine ⟨⟨more, ?_⟩, fun hn => absurd h2 hn⟩
    rw [h1, h3]
    simp [scriptExit]

/-- **C97** And for one in a build with overflow checks. -/
theorem C97_script_checks (cfg : Cfg) (room : Option Nat) (ω : Live) (file : Option Bytes) :
    scriptActs (cfg.checks true) room ω file = scriptActs (cfg.checks false) room ω file ∨
      ∃ pre, (scriptActs (cfg.checks true) room ω file).1 = pre ++ [.err .panicked] ∧
        (scriptActs (cfg.checks true) room ω file).2 = .panicked ∧
        pre <+: (scriptActs (cfg.checks false) room ω file).1 := by
  rcases script_below (finer_checks cfg) room ω file with h | ⟨f, pre, more, rfl, h1, h2, h3⟩
  · exact .inl h
  · exact .inr ⟨pre, h1, h2, more, h3.symm⟩

/-! ### the order within a program -/

theorem stmtsW_append (cfg : Cfg) : ∀ (p q : List Stmt) (st : State), evalStmtsW cfg (p ++ q) st =
    (evalStmtsW cfg p st).bind fun r => match r with
      | (st', .ok) => evalStmtsW cfg q st'
      | (st', r) => .ret (st', r)
  | [], q, st => by rw [evalStmtsW]; rfl
  | s :: p, q, st => by
    have hb : ∀ {α β γ : Type} (f : α → W β) (g : β → W γ) (x : W α), (x.bind f).bind g = x.bind fun a => (f a).bind g := by
      intro α β γ f g x
      induction x with
      | ret a => rfl
      | wrote s k ih => simp only [W.bind, ih]
      | warn s k ih => simp only [W.bind, ih]
      | search fs a k ih => simp only [W.bind, ih]
      | bytes fs i j k ih => simp only [W.bind, ih]
      | opens p k ih => simp only [W.bind, ih]
    rw [List.cons_append, evalStmtsW, evalStmtsW, hb]
    congr 1
    funext r
    obtain ⟨st', r⟩ := r
    cases r with
    | ok => exact stmtsW_append cfg p q st'
    | _ => rfl

/-- **C97** One statement after the other: all that the first statements of a program do is done before anything
of the others, which are run only if the first end normally. -/
theorem C97_in_order (cfg : Cfg) (ω : Live) (p q : List Stmt) (st : State) (t : Nat) :
    ((evalStmtsW cfg (p ++ q) st).live cfg.fuel ω t).acts = ((evalStmtsW cfg p st).live cfg.fuel ω t).acts ++
      (if ((evalStmtsW cfg p st).live cfg.fuel ω t).result.2 = .ok then
        ((evalStmtsW cfg q ((evalStmtsW cfg p st).live cfg.fuel ω t).result.1).live cfg.fuel ω
          ((evalStmtsW cfg p st).live cfg.fuel ω t).clock).acts
      else []) := by
  rw [stmtsW_append, trace_bind]
  dsimp only
  congr 1
  generalize (evalStmtsW cfg p st).live cfg.fuel ω t = l
  obtain ⟨c, acts, st', r⟩ := l
  cases r <;> simp [W.live]

theorem asW_live {α : Type} (fuel : Nat) (ω : Live) : ∀ (x : T α) (t : Nat),
    (x.asW.live fuel ω t).result = (x.live fuel ω t).result ∧ outOf (x.asW.live fuel ω t).acts = []
  | .ret a, t => ⟨rfl, rfl⟩
  | .warn w k, t => asW_live fuel ω k t
  | .search fs a k, t => by
    obtain ⟨h1, h2⟩ := asW_live fuel ω (k ((ω.drift t fs).search fuel a)) (t + 1)
    exact ⟨h1, by simp [T.asW, W.live, outOf, h2]⟩
  | .bytes fs i j k, t => by
    obtain ⟨h1, h2⟩ := asW_live fuel ω (k ((ω.drift t fs).getBytes i j)) (t + 1)
    exact ⟨h1, by simp [T.asW, W.live, outOf, h2]⟩
  | .opens p k, t => by
    obtain ⟨h1, h2⟩ := asW_live fuel ω (k (Fs.new (ω.host t) p)) (t + 1)
    exact ⟨h1, by simp [T.asW, W.live, outOf, h2]⟩

/-- **C97** A `print` statement first does all that its expression asks for, with the warnings, and then writes its
text at once, as one piece: nothing comes between. -/
theorem C97_print (cfg : Cfg) (ω : Live) (e : Expr) (st : State) (t : Nat) :
    ∃ asked, outOf asked = [] ∧
      ((evalStmtsW cfg [.print e] st).live cfg.fuel ω t).acts = asked ++
        (match (T.live (α := R Value) cfg.fuel ω (evalExprT cfg st e) t).result with
        | .ok v => match printText cfg v with
          | .ok text => [.out (st.sink.takes (text ++ ['\n']))]
          | .error _ => []
        | .error _ => []) := by
  obtain ⟨h1, h2⟩ := asW_live (α := R Value) cfg.fuel ω (evalExprT cfg st e) t
  refine ⟨_, h2, ?_⟩
  rw [evalStmtsW, trace_bind]
  dsimp only
  rw [evalStmtW]
  unfold evalPrintW E.intoW
  rw [trace_bind (α := R Value)]
  dsimp only
  rw [h1]
  generalize T.live (α := R Value) cfg.fuel ω (evalExprT cfg st e) t = l
  obtain ⟨c, log, r⟩ := l
  cases r with
  | error f => simp [W.live]
  | ok v =>
    dsimp only
    cases printText cfg v with
    | error f => simp [W.live, W.bind, E.of, T.asW]
    | ok text =>
      simp only [W.live, W.bind, E.of, T.asW, State.writeW]
      generalize st.write (text ++ ['\n']) = w
      obtain ⟨st', r⟩ := w
      cases r <;> simp [W.live, evalStmtsW, Traced.after]

/-! ### witnesses -/

/-- what was done, in short -/
def Act.deed : Act → Str
  | .took _ => s!' "took"
  | .out s => s
  | .err (.warning _) => s!' "warning"
  | .err _ => s!' "error"
  | .asks (.search ..) => s!' "search?"
  | .asks (.read ..) => s!' "read?"
  | .asks (.opens p) => s!' "open? " ++ p
  | .told _ => s!' "told"

/-- each request is answered, warned about, and its number printed, before the next -/
example : ((scriptActs moving none (.steady moving.host) (some (encoded movingScript))).1.map Act.deed) =
    [s!' "search?", s!' "told", s!' "warning", s!' "2\n", s!' "open? /e", s!' "told", s!' "search?", s!' "told", s!' "0\n",
      s!' "open? /x", s!' "told", s!' "error", s!' "error"] := by
  decide +kernel

/-- a world in which nothing can be opened any more after the first request -/
def closing : Live where
  host t := if t = 0 then moving.host else { moving.host with openDir := fun _ => none }
  drift _ fs := fs

example : SameSoFar 1 (.steady moving.host) closing := by
  intro t ht
  have : t = 0 := by omega
  subst this
  exact ⟨rfl, rfl⟩

/-- the same up to the second request, and not after -/
example : ((scriptActs moving none closing (some (encoded movingScript))).1.map Act.deed) =
    [s!' "search?", s!' "told", s!' "warning", s!' "2\n", s!' "open? /e", s!' "told", s!' "error", s!' "error"] := by
  decide +kernel

/-- a script that goes on forever -/
def endlessScript : Str := s!' "print 1; while true { print 2; }"

example : ((scriptActs (moving.steps 3) none (.steady moving.host) (some (encoded endlessScript))).1.map Act.deed) =
      [s!' "1\n", s!' "2\n", s!' "2\n", s!' "2\n"] ∧
    (scriptActs (moving.steps 3) none (.steady moving.host) (some (encoded endlessScript))).2 = .busy ∧
    ((scriptActs (moving.steps 5) none (.steady moving.host) (some (encoded endlessScript))).1.map Act.deed) =
      [s!' "1\n", s!' "2\n", s!' "2\n", s!' "2\n", s!' "2\n", s!' "2\n"] := by
  decide +kernel

/-- killed in the middle of a line -/
example : KilledIn [.out s!' "1\n", .out s!' "2"] [.out s!' "1\n", .out s!' "2\n", .out s!' "3\n"] := by
  exact .later (.writing (s := s!' "2") (s' := ['\n']))

/-- a session: the banner, an entry, its value, the next entry, `quit` -/
example : ((replActs moving none true true [⟨id, .steady moving.host, .line s!' "1+1"⟩, ⟨id, .steady moving.host, .eof⟩]).1.map Act.deed) =
    [s!' "btrd (the btrfs debugger) v0.5.3\n", s!' "Type 'help' for help\n", s!' "\n", s!' "took", s!' "2\n", s!' "took",
      s!' "quit\n"] := by
  decide +kernel

end Btrd
