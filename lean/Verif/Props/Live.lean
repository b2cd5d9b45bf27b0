/-
C87: what a search skips is named on standard error, nothing else is, and nothing is lost in silence.
-/
import Verif.Lemmas.Honest
import Verif.Props.Streams

namespace Btrd
open Spec

/-! ### one entry -/

/-- **C87** Whatever the world does while an entry is evaluated: every search that finds items is followed at once by
the warnings about exactly those items that are of no known kind (in order, up to the first that cannot be read), and
there are no other warnings. -/
theorem C87_entry (cfg : Cfg) (ω : Live) (rs : RState) (cmd : Str) (t : Nat) :
    Honest ((runtimeEvalT cfg rs cmd).live cfg.fuel ω t).log := frank_log _ _ (frank_runtime cfg rs cmd) t

/-- The text of a warning names the key of the item. -/
theorem C87_text (h : Header) : (keyWarned h).text =
    s!' "Warning: failed to find a matching on-disk struct for key [" ++ numeral h.objectid ++ s!' ", " ++
      numeral h.ty ++ s!' ", " ++ numeral h.offset ++ s!' "]" := by
  simp only [Warned.text, keyWarned, numeral_nat]

/-- Warnings are uniquely determined by the items. -/
theorem C87_warnings_unique {items : List Item} {ws ws' : List Warned} (h : Heard items ws) (h' : Heard items ws') :
    ws = ws' := heard_unique h h'

/-! ### nothing is lost in silence -/

/-- the value of the item with this header -/
def Shows (h : Header) (v : Value) : Prop := ∃ name fields, v = .struct name (some (h.objectid, h.ty, h.offset)) fields

/-- **C87** When the items of a search are given as values, every item is among the values or among the warnings:
their numbers add up. -/
theorem C87_nothing_lost {items : List Item} {vs : List Value} {ws : List Warned} (hv : Contents items vs)
    (hw : Heard items ws) :
    items.length = vs.length + ws.length ∧
      ∀ it ∈ items, ((∃ name, HoldsStruct it.1 name) ∧ ∃ v ∈ vs, Shows it.1 v) ∨
        ((∀ name, ¬ HoldsStruct it.1 name) ∧ keyWarned it.1 ∈ ws) := by
  induction hv generalizing ws with
  | nil => cases hw; exact ⟨rfl, by simp⟩
  | skip hn _ ih =>
    cases hw with
    | skip _ hw =>
      obtain ⟨h1, h2⟩ := ih hw
      refine ⟨by simp only [List.length_cons]; omega, ?_⟩
      intro it hit
      rcases List.mem_cons.1 hit with rfl | hit
      · exact .inr ⟨hn, by simp⟩
      · rcases h2 it hit with h | ⟨h3, h4⟩
        · exact .inl h
        · exact .inr ⟨h3, by simp [h4]⟩
    | item _ h1 _ _ => exact absurd h1 (hn _)
    | stops h1 _ => exact absurd h1 (hn _)
  | @item hd payload s out its vs hs h1 h2 _ ih =>
    cases hw with
    | skip hn _ => exact absurd h1 (hn _)
    | item _ _ _ hw =>
      obtain ⟨h3, h4⟩ := ih hw
      refine ⟨by simp only [List.length_cons]; omega, ?_⟩
      intro it hit
      rcases List.mem_cons.1 hit with rfl | hit
      · exact .inl ⟨⟨_, h1⟩, _, List.mem_cons_self, s.name, out, rfl⟩
      · rcases h4 it hit with ⟨h5, v, h6, h7⟩ | h
        · exact .inl ⟨h5, v, List.mem_cons_of_mem _ h6, h7⟩
        · exact .inr h
    | stops h3 h4 =>
      rw [holds_struct] at h1 h3
      rw [h1] at h3
      exact absurd h2 (h4 s out hs (Option.some.inj h3))

/-- There are no warnings about items of known kinds. -/
theorem C87_known_silent {items : List Item} {ws : List Warned} (h : ∀ it ∈ items, ∃ name, HoldsStruct it.1 name)
    (hw : Heard items ws) : ws = [] := by
  induction hw with
  | nil => rfl
  | skip hn _ _ =>
    obtain ⟨name, h1⟩ := h _ List.mem_cons_self
    exact absurd h1 (hn name)
  | item _ _ _ _ ih => exact ih fun it hit => h it (by simp [hit])
  | stops _ _ => rfl

/-- and an entry that does not search does not warn. -/
theorem C87_no_search_silent {log : List Event} (h : Honest log) (hs : ∀ fs a r, .searched fs a r ∉ log) :
    warnings log = [] := by
  induction h with
  | nil => rfl
  | searched => exact absurd List.mem_cons_self (hs _ _ _)
  | failed => exact absurd List.mem_cons_self (hs _ _ _)
  | read _ ih => exact ih fun fs a r hm => hs fs a r (by simp [hm])
  | opened _ ih => exact ih fun fs a r hm => hs fs a r (by simp [hm])

/-! ### one search -/

theorem warns_ret_live {α : Type} (fuel : Nat) (ω : Live) (ws : List Warned) (a : α) (t : Nat) :
    (T.warns ws (.ret a)).live fuel ω t = ⟨t, ws.map .warned, a⟩ := by
  rw [warns_live]
  simp [T.live]

/-- a computation that may fail, in a live world -/
abbrev E.live {α : Type} (fuel : Nat) (ω : Live) (x : E α) (t : Nat) : Lived (R α) := T.live fuel ω x t

theorem ebind_live_ok {α β : Type} {fuel : Nat} {ω : Live} {x : E α} {f : α → E β} {t : Nat} {v : β}
    (h : (E.live fuel ω (x >>= f) t).result = .ok v) :
    ∃ a, (E.live fuel ω x t).result = .ok a ∧ (E.live fuel ω (f a) (E.live fuel ω x t).clock).result = .ok v ∧
      (E.live fuel ω (x >>= f) t).log = (E.live fuel ω x t).log ++ (E.live fuel ω (f a) (E.live fuel ω x t).clock).log ∧
      (E.live fuel ω (x >>= f) t).clock = (E.live fuel ω (f a) (E.live fuel ω x t).clock).clock := by
  have hb := live_bind (α := R α) (β := R β) fuel ω (fun r => match r with
    | .ok a => f a
    | .error e => T.ret (.error e)) x t
  have hb : E.live fuel ω (x >>= f) t = _ := hb
  rw [hb] at h ⊢
  dsimp only at h ⊢
  show ∃ a, (T.live fuel ω x t).result = .ok a ∧ _
  cases hr : (T.live fuel ω x t).result with
  | error e => rw [hr] at h; simp [T.live] at h
  | ok a =>
    rw [hr] at h
    exact ⟨a, rfl, h, rfl, rfl⟩

theorem eof_live {α : Type} {fuel : Nat} {ω : Live} {r : R α} {t : Nat} : E.live fuel ω (.of r) t = ⟨t, [], r⟩ := rfl

/-- **C87** A `search()` that gives a value, whatever the world does meanwhile: after its operands have been evaluated
(left first), the filesystem as it is at that moment is searched once; the array holds the values of the items that
were found, and there are warnings about the others. -/
theorem C87_search (cfg : Cfg) (ω : Live) (st : State) (f : Str) (a b : Expr) (t : Nat) (v : Value)
    (hf : st.vars.get f = some (.func .search))
    (h : (E.live cfg.fuel ω (evalExprT cfg st (.call (.ident f) [a, b])) t).result = .ok v) :
    ∃ fs tree own fields q items vs ws,
      st.fs = some fs ∧
      (E.live cfg.fuel ω (evalExprT cfg st a) t).result = .ok (.int tree) ∧
      (E.live cfg.fuel ω (evalExprT cfg st b) (E.live cfg.fuel ω (evalExprT cfg st a) t).clock).result =
        .ok (.struct s!' "_btrfs_ioctl_search_key" own fields) ∧
      Requests tree fields q ∧ v = .array vs false ∧ Contents items vs ∧ Heard items ws ∧
      (E.live cfg.fuel ω (evalExprT cfg st (.call (.ident f) [a, b])) t).log =
        (E.live cfg.fuel ω (evalExprT cfg st a) t).log ++
        (E.live cfg.fuel ω (evalExprT cfg st b) (E.live cfg.fuel ω (evalExprT cfg st a) t).clock).log ++
        .searched (ω.drift (E.live cfg.fuel ω (evalExprT cfg st b) (E.live cfg.fuel ω (evalExprT cfg st a) t).clock).clock fs)
          q (.ok items) :: ws.map .warned := by
  have he : evalExprT cfg st (.call (.ident f) [a, b]) =
      searchFnT cfg.build st.fs [evalExprT cfg st a, evalExprT cfg st b] := by
    rw [evalExprT, evalExprT, evalArgsT, evalArgsT, evalArgsT, hf]
    rfl
  rw [he] at h ⊢
  unfold searchFnT at h ⊢
  obtain ⟨_, -, h, hlog, -⟩ := ebind_live_ok h
  rw [hlog, eof_live, List.nil_append] at *
  dsimp only at h ⊢
  clear hlog
  generalize hA : E.live cfg.fuel ω (evalExprT cfg st a) t = A
  obtain ⟨v0, h0, h, hlog, -⟩ := ebind_live_ok h
  rw [hlog]
  clear hlog
  rw [hA] at h0 h ⊢
  obtain ⟨tree, h1, h, hlog, -⟩ := ebind_live_ok h
  rw [hlog]
  clear hlog
  rw [eof_live] at *
  dsimp only at h1 h ⊢
  generalize hB : E.live cfg.fuel ω (evalExprT cfg st b) A.clock = B
  obtain ⟨v1, h2, h, hlog, -⟩ := ebind_live_ok h
  rw [hlog]
  clear hlog
  rw [hB] at h2 h ⊢
  obtain ⟨key, h3, h, hlog, -⟩ := ebind_live_ok h
  rw [hlog]
  clear hlog
  rw [eof_live] at *
  dsimp only at h3 h ⊢
  obtain ⟨_, h4, h, hlog, -⟩ := ebind_live_ok h
  rw [hlog]
  clear hlog
  rw [eof_live] at *
  dsimp only at h4 h ⊢
  cases hfs : st.fs with
  | none => rw [hfs] at h; cases h
  | some fs =>
    rw [hfs] at h
    dsimp only at h ⊢
    obtain ⟨q, h5, h, hlog, -⟩ := ebind_live_ok h
    rw [hlog]
    clear hlog
    rw [eof_live] at *
    dsimp only at h5 h ⊢
    obtain ⟨items, h6, h, hlog, -⟩ := ebind_live_ok h
    rw [hlog]
    clear hlog
    have hs : E.live cfg.fuel ω (E.search fs q) B.clock =
      ⟨B.clock + 1, [.searched (ω.drift B.clock fs) q ((ω.drift B.clock fs).search cfg.fuel q)],
        (ω.drift B.clock fs).search cfg.fuel q⟩ := rfl
    rw [hs] at h6 h ⊢
    dsimp only at h6 h ⊢
    have hsm := search_small h6
    obtain ⟨vs, h7, hz, hlog, -⟩ := ebind_live_ok h
    rw [hlog]
    clear hlog
    have hd : E.live cfg.fuel ω (decodeItemsT cfg.build items) (B.clock + 1) =
      ⟨B.clock + 1, (heard cfg.build items).map .warned, decodeItems cfg.build items⟩ := by
      rw [decodeItemsT_eq]
      exact warns_ret_live _ _ _ _ _
    rw [hd] at h7 hz ⊢
    dsimp only at h7 hz ⊢
    rw [eof_live] at hz ⊢
    dsimp only at hz ⊢
    obtain ⟨own, fields, rfl, hk⟩ : ∃ own fields, v1 = .struct s!' "_btrfs_ioctl_search_key" own fields ∧
        key = ⟨s!' "_btrfs_ioctl_search_key", own, fields⟩ := by
      cases v1 with
      | struct name own fields =>
        simp only [Value.asStruct, Except.ok.injEq] at h3
        subst h3
        have := ensure_inv h4
        simp only [beq_iff_eq] at this
        rw [this]
        exact ⟨own, fields, rfl, rfl⟩
      | _ => cases h3
    refine ⟨fs, tree, own, fields, q, items, vs, heard cfg.build items, rfl, ?_, h2, ?_, ?_, (contents_iff cfg.build items hsm vs).1 h7,
      heard_of cfg.build items hsm, ?_⟩
    · rw [h0]
      cases v0 with
      | int i => simp only [Value.asInteger, Except.ok.injEq] at h1; rw [h1]
      | _ => cases h1
    · have := (request_iff tree key q).1 h5
      rw [hk] at this
      exact this
    · exact (Except.ok.inj hz).symm
    · rw [h6]
      simp

/-! ### sessions and scripts -/

/-- the lines on standard error that are not warnings -/
def besides (err : List ErrLine) : List ErrLine :=
  err.filter fun l => match l with
    | .warning _ => false
    | _ => true

/-- the warnings on standard error -/
def warningsOf (err : List ErrLine) : List Warned :=
  err.filterMap fun l => match l with
    | .warning w => some w
    | _ => none

theorem besides_append (l l' : List ErrLine) : besides (l ++ l') = besides l ++ besides l' := List.filter_append ..

theorem warningsOf_append (l l' : List ErrLine) : warningsOf (l ++ l') = warningsOf l ++ warningsOf l' :=
  List.filterMap_append ..

theorem warnings_append (l l' : List Event) : warnings (l ++ l') = warnings l ++ warnings l' := List.filterMap_append ..

theorem warningsOf_lines : ∀ log : List Event, warningsOf (warningLines log) = warnings log
  | [] => rfl
  | e :: log => by
    have ih := warningsOf_lines log
    cases e with
    | warned w =>
      show w :: warningsOf (warningLines log) = w :: warnings log
      rw [ih]
    | _ => exact ih

theorem besides_lines : ∀ log : List Event, besides (warningLines log) = []
  | [] => rfl
  | e :: log => by
    have ih := besides_lines log
    cases e with
    | warned w => exact ih
    | _ => exact ih

theorem Spec.Honest.append {l l' : List Event} (h : Honest l) (h' : Honest l') : Honest (l ++ l') := by
  induction h with
  | nil => exact h'
  | searched hh _ ih =>
    rw [List.cons_append, List.append_assoc]
    exact .searched hh ih
  | failed _ ih => exact .failed ih
  | read _ ih => exact .read ih
  | opened _ ih => exact .opened ih

theorem println_err (p : Proc) (s : Str) (x : ProcStatus) :
    warningsOf (p.println s x).1.err = warningsOf p.err ∧
      ∀ q : Proc, q.rs = p.rs → (q.println s x).2 = (p.println s x).2 ∧ (q.println s x).1.rs = (p.println s x).1.rs ∧
        (besides p.err = q.err → besides (p.println s x).1.err = (q.println s x).1.err) := by
  unfold Proc.println
  constructor
  · cases p.rs.ev.println s with
    | mk ev b =>
      cases b
      · simp [warningsOf_append]; rfl
      · rfl
  · intro q hq
    rw [hq]
    cases p.rs.ev.println s with
    | mk ev b =>
      cases b
      · refine ⟨rfl, rfl, fun hb => ?_⟩
        dsimp only
        rw [besides_append, hb]
        rfl
      · exact ⟨rfl, rfl, fun hb => hb⟩

/-- one event: an honest log, and its warnings are those on standard error -/
theorem step_honest (cfg : Cfg) (ω : Live) (p : Proc) (ev : ReplEvent) :
    Honest (procStepL cfg ω p ev).2 ∧
      warningsOf (procStepL cfg ω p ev).1.1.err = warningsOf p.err ++ warnings (procStepL cfg ω p ev).2 := by
  cases ev with
  | line s =>
    have hh := C87_entry cfg ω p.rs (fixupInput (stripComments s)) 0
    show Honest (procLine p.err _).2 ∧ warningsOf (procLine p.err _).1.1.err = warningsOf p.err ++ warnings (procLine p.err _).2
    generalize (runtimeEvalT cfg p.rs (fixupInput (stripComments s))).live cfg.fuel ω 0 = l at hh
    obtain ⟨t, log, rs, r⟩ := l
    dsimp only [procLine] at hh ⊢
    have e : warningsOf (p.err ++ warningLines log) = warningsOf p.err ++ warnings log := by
      rw [warningsOf_append, warningsOf_lines]
    cases r with
    | ok => exact ⟨hh, e⟩
    | quit => exact ⟨hh, e⟩
    | fail f =>
      cases f with
      | err er => refine ⟨hh, ?_⟩; dsimp only; rw [warningsOf_append, e]; exact List.append_nil _
      | panic => refine ⟨hh, ?_⟩; dsimp only; rw [warningsOf_append, e]; exact List.append_nil _
      | diverge => exact ⟨hh, e⟩
  | interrupted => exact ⟨.nil, warningsOf_append ..⟩
  | eof =>
    refine ⟨.nil, ?_⟩
    show warningsOf (p.println s!' "quit" .over).1.err = warningsOf p.err ++ []
    rw [(println_err p _ _).1, List.append_nil]
  | otherError =>
    refine ⟨.nil, ?_⟩
    show warningsOf (Proc.println ⟨p.rs, p.err ++ [.logged]⟩ s!' "quit" .running).1.err = warningsOf p.err ++ []
    rw [(println_err _ _ _).1]
    exact warningsOf_append ..

theorem run_honest (cfg : Cfg) : ∀ (ts : List LiveTick) (p : Proc),
    Honest (procRunL cfg p ts).2 ∧ warningsOf (procRunL cfg p ts).1.1.err = warningsOf p.err ++ warnings (procRunL cfg p ts).2
  | [], p => ⟨.nil, (List.append_nil _).symm⟩
  | t :: ts, p => by
    obtain ⟨h1, h2⟩ := step_honest cfg t.world (p.meets t.drift) t.event
    rw [procRunL]
    generalize procStepL cfg t.world (p.meets t.drift) t.event = r at h1 h2
    obtain ⟨⟨p', x⟩, log⟩ := r
    have h2' : warningsOf p'.err = warningsOf p.err ++ warnings log := h2
    cases x with
    | running =>
      obtain ⟨h3, h4⟩ := run_honest cfg ts p'
      dsimp only
      refine ⟨h1.append h3, ?_⟩
      rw [h4, h2', warnings_append, List.append_assoc]
    | _ => exact ⟨h1, h2'⟩

theorem end_warnings (saved : Bool) (p : Proc) (x : ProcStatus) : warningsOf (procEnd saved (p, x)).err = warningsOf p.err := by
  cases x with
  | over =>
    unfold procEnd
    cases saved
    · simp [warningsOf_append]; rfl
    · rfl
  | _ => rfl

/-- **C87** In a session, whatever the world does: everything that is asked of the operating system and the warnings
are an honest log, and the warnings on standard error are those of the log. -/
theorem C87_session (cfg : Cfg) (room : Option Nat) (editor saved : Bool) (ts : List LiveTick) :
    Honest (replMainL cfg room editor saved ts).2 ∧
      warningsOf (replMainL cfg room editor saved ts).1.err = warnings (replMainL cfg room editor saved ts).2 := by
  unfold replMainL
  cases editor with
  | false => exact ⟨.nil, rfl⟩
  | true =>
    simp only [if_true]
    rcases welcome_rule cfg room with ⟨σ, -, hst⟩ | ⟨σ, -, hst⟩
    · rw [hst]
      dsimp only
      obtain ⟨h1, h2⟩ := run_honest { cfg with interactive := true } ts ⟨⟨AState.new, σ⟩, []⟩
      refine ⟨h1, ?_⟩
      rw [end_warnings, h2]
      rfl
    · rw [hst]
      exact ⟨.nil, rfl⟩

/-- **C87** So it is for a script. -/
theorem C87_script (cfg : Cfg) (room : Option Nat) (ω : Live) (file : Option Bytes) :
    Honest (scriptMainL cfg room ω file).2 ∧
      warningsOf (scriptMainL cfg room ω file).1.err = warnings (scriptMainL cfg room ω file).2 := by
  unfold scriptMainL
  cases file with
  | none => exact ⟨.nil, rfl⟩
  | some b =>
    dsimp only
    cases decodeUtf8 b with
    | none => exact ⟨.nil, rfl⟩
    | some s =>
      dsimp only
      refine ⟨C87_entry { cfg with interactive := false } ω _ _ 0, ?_⟩
      rw [warningsOf_append, warningsOf_lines]
      have : ∀ r, warningsOf (scriptExit r).1 = [] := by
        intro r
        cases r with
        | fail f => cases f <;> rfl
        | _ => rfl
      rw [this, List.append_nil]

/-! ### and besides the warnings it is as before -/

/-- the world is that of the tick while its entry is evaluated -/
def Tick.steady (t : Tick) : LiveTick := ⟨t.drift, .steady t.host, t.event⟩

theorem step_besides (cfg : Cfg) (h : Host) (p q : Proc) (ev : ReplEvent) (hr : p.rs = q.rs) (he : besides p.err = q.err) :
    (procStepL cfg (.steady h) p ev).1.2 = (procStep { cfg with host := h } q ev).2 ∧
      (procStepL cfg (.steady h) p ev).1.1.rs = (procStep { cfg with host := h } q ev).1.rs ∧
      besides (procStepL cfg (.steady h) p ev).1.1.err = (procStep { cfg with host := h } q ev).1.err := by
  cases ev with
  | line s =>
    have hs := runtime_steady cfg h p.rs (fixupInput (stripComments s)) 0
    unfold procStepL procStep
    dsimp only
    rw [← hr]
    rw [← hs]
    unfold procLine
    generalize (runtimeEvalT cfg p.rs (fixupInput (stripComments s))).live cfg.fuel (.steady h) 0 = l
    obtain ⟨t, log, rs, r⟩ := l
    dsimp only
    have e : besides (p.err ++ warningLines log) = q.err := by rw [besides_append, besides_lines, he, List.append_nil]
    cases r with
    | ok => exact ⟨rfl, rfl, e⟩
    | quit => exact ⟨rfl, rfl, e⟩
    | fail f =>
      cases f with
      | err er => refine ⟨rfl, rfl, ?_⟩; dsimp only; rw [besides_append, e]; rfl
      | panic => refine ⟨rfl, rfl, ?_⟩; dsimp only; rw [besides_append, e]; rfl
      | diverge => exact ⟨rfl, rfl, e⟩
  | interrupted =>
    refine ⟨rfl, hr, ?_⟩
    show besides (p.err ++ [.hint]) = q.err ++ [.hint]
    rw [besides_append, he]
    rfl
  | eof =>
    obtain ⟨h1, h2, h3⟩ := (println_err p s!' "quit" .over).2 q hr.symm
    exact ⟨h1.symm, h2.symm, h3 he⟩
  | otherError =>
    obtain ⟨h1, h2, h3⟩ := (println_err ⟨p.rs, p.err ++ [.logged]⟩ s!' "quit" .running).2 ⟨q.rs, q.err ++ [.logged]⟩ hr.symm
    refine ⟨h1.symm, h2.symm, h3 ?_⟩
    show besides (p.err ++ [.logged]) = q.err ++ [.logged]
    rw [besides_append, he]
    rfl

theorem run_besides (cfg : Cfg) : ∀ (ts : List Tick) (p q : Proc), p.rs = q.rs → besides p.err = q.err →
    (procRunL cfg p (ts.map Tick.steady)).1.2 = (procRun cfg q ts).2 ∧
      (procRunL cfg p (ts.map Tick.steady)).1.1.rs = (procRun cfg q ts).1.rs ∧
      besides (procRunL cfg p (ts.map Tick.steady)).1.1.err = (procRun cfg q ts).1.err
  | [], p, q, hr, he => ⟨rfl, hr, he⟩
  | t :: ts, p, q, hr, he => by
    have hr' : (p.meets t.drift).rs = (q.meets t.drift).rs := by simp only [Proc.meets, hr]
    obtain ⟨h1, h2, h3⟩ := step_besides cfg t.host (p.meets t.drift) (q.meets t.drift) t.event hr' he
    rw [List.map_cons, procRunL, procRun]
    have hw : t.steady = ⟨t.drift, .steady t.host, t.event⟩ := rfl
    rw [hw]
    dsimp only
    generalize procStepL cfg (.steady t.host) (p.meets t.drift) t.event = r at h1 h2 h3
    generalize procStep { cfg with host := t.host } (q.meets t.drift) t.event = r' at h1 h2 h3
    obtain ⟨⟨p', x⟩, log⟩ := r
    obtain ⟨q', x'⟩ := r'
    dsimp only at h1 h2 h3
    subst h1
    cases x with
    | running => exact run_besides cfg ts p' q' h2 h3
    | _ => exact ⟨rfl, h2, h3⟩

/-- **C87** Besides the warnings, a session in a world that is steady while an entry is evaluated is as described by
C86: standard output, the exit status and all other lines on standard error. -/
theorem C87_besides (cfg : Cfg) (room : Option Nat) (editor saved : Bool) (ts : List Tick) :
    (⟨(replMainL cfg room editor saved (ts.map Tick.steady)).1.out,
      besides (replMainL cfg room editor saved (ts.map Tick.steady)).1.err,
      (replMainL cfg room editor saved (ts.map Tick.steady)).1.exit⟩ : Ended) = replMain cfg room editor saved ts := by
  unfold replMainL replMain procSession
  cases editor with
  | false => rfl
  | true =>
    simp only [if_true]
    rcases welcome_rule cfg room with ⟨σ, -, hst⟩ | ⟨σ, -, hst⟩
    · rw [hst]
      dsimp only
      obtain ⟨h1, h2, h3⟩ := run_besides { cfg with interactive := true } ts ⟨⟨AState.new, σ⟩, []⟩ ⟨⟨AState.new, σ⟩, []⟩ rfl rfl
      generalize procRunL { cfg with interactive := true } ⟨⟨AState.new, σ⟩, []⟩ (ts.map Tick.steady) = r at h1 h2 h3
      generalize procRun { cfg with interactive := true } ⟨⟨AState.new, σ⟩, []⟩ ts = r' at h1 h2 h3
      obtain ⟨⟨p', x⟩, log⟩ := r
      obtain ⟨q', x'⟩ := r'
      dsimp only at h1 h2 h3 ⊢
      subst h1
      unfold procEnd
      cases x with
      | over =>
        cases saved
        · simp only [Bool.false_eq_true, if_false, h2, besides_append, h3]; rfl
        · simp only [if_true, h2, h3]
      | _ => simp only [h2, h3]
    · rw [hst]
      rfl

/-- **C87** and so it is for a script. -/
theorem C87_script_besides (cfg : Cfg) (room : Option Nat) (file : Option Bytes) :
    (⟨(scriptMainL cfg room (.steady cfg.host) file).1.out, besides (scriptMainL cfg room (.steady cfg.host) file).1.err,
      (scriptMainL cfg room (.steady cfg.host) file).1.exit⟩ : Ended) = scriptMain cfg room file := by
  unfold scriptMainL scriptMain scriptRun
  cases file with
  | none => rfl
  | some b =>
    dsimp only
    cases decodeUtf8 b with
    | none => rfl
    | some s =>
      dsimp only
      have hs := runtime_steady { cfg with interactive := false } cfg.host (RState.new { cfg with interactive := false } room) (stripComments s) 0
      have hn : RState.new { cfg with interactive := false } room = RState.new cfg room := rfl
      rw [hn] at hs ⊢
      rw [← hs, besides_append, besides_lines, List.nil_append]
      have : ∀ r, besides (scriptExit r).1 = (scriptExit r).1 := by
        intro r
        cases r with
        | fail f => cases f <;> rfl
        | _ => rfl
      rw [this]

/-! ### witnesses -/

/-- a machine with a mounted filesystem at `/m`: in tree 11, an item of a kind the tool does not know between two
block groups -/
def odd : Cfg where
  build := ⟨false⟩
  host := ⟨fun p => if p = s!' "/m" then
      some ⟨some 0x9123683e, batchKernel (fun t => if t = 11 then
        [(⟨7, 4096, 8192, 192, 24⟩, [0, 32, 0, 0, 0, 0, 0, 0] ++ List.replicate 16 1),
         (⟨7, 5000, 77, 201, 3⟩, [1, 2, 3]),
         (⟨7, 8192, 8192, 192, 24⟩, [0, 32, 0, 0, 0, 0, 0, 0] ++ List.replicate 16 1)] else []) fun _ => 9⟩ else none,
    fun _ => none, none⟩
  interactive := true
  fuel := 10

/-- a session in which the filesystem goes away between the two searches of the second entry -/
def oddTicks : List LiveTick :=
  [⟨id, .steady odd.host, .line s!' "filesystem \"/m\""⟩,
   ⟨id, ⟨fun _ => odd.host, fun t fs => if t = 1 then .mounted (batchKernel (fun _ => []) fun _ => 9) else fs⟩,
    .line s!' "print len(search(11, key(0, 0, 0, 0))) * 10 + len(search(11, key(0, 0, 0, 0)));"⟩,
   ⟨id, .steady odd.host, .line s!' "print len(search(11, key(0, 0, 0, 0))); print nothing;"⟩,
   ⟨id, .steady odd.host, .line s!' "print len(search(11, key(0, 0, 0, 0))); print 1 / 0;"⟩,
   ⟨id, .steady odd.host, .eof⟩]

theorem odd_session : (replMainL odd none true true oddTicks).1 =
    ⟨banner ++ s!' "20\n2\nquit\n",
     [.warning ⟨5000, 201, 77⟩, .error (some s!' "Unknown variable: nothing"), .warning ⟨5000, 201, 77⟩,
      .error (some s!' "Divide by zero")], .success⟩ := by
  decide +kernel

example : warnings (replMainL odd none true true oddTicks).2 = [⟨5000, 201, 77⟩, ⟨5000, 201, 77⟩] := by
  rw [← (C87_session odd none true true oddTicks).2, odd_session]
  rfl

end Btrd
