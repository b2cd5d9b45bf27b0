/-
C93: a program can be entered in pieces; a script line by line.
-/
import Verif.Lemmas.Pieces
import Verif.Props.Source
import Verif.Props.ExactMore
import Verif.Props.Live

namespace Btrd
open P Spec

/-! ### two pieces -/

theorem runtimeEvalT_accepted (cfg : Cfg) (rs : RState) {t : Str} {p : List Stmt} (hp : Spells t p)
    (ha : (analyzeStmts p rs.sem).2 = .ok ()) :
    runtimeEvalT cfg rs t =
      T.bind (fun r => .ret (⟨(analyzeStmts p rs.sem).1, r.1⟩, r.2.toEvalResult)) (evalStmtsT cfg p rs.ev) := by
  unfold runtimeEvalT
  rw [spells_iff.1 hp]
  dsimp only
  generalize analyzeStmts p rs.sem = x at ha
  obtain ⟨sem, r⟩ := x
  dsimp only at ha
  subst ha
  rfl

/-- in a live world, an accepted entry -/
theorem live_accepted (cfg : Cfg) (rs : RState) {t : Str} {p : List Stmt} (hp : Spells t p)
    (ha : (analyzeStmts p rs.sem).2 = .ok ()) (fuel : Nat) (ω : Live) (n : Nat) :
    (runtimeEvalT cfg rs t).live fuel ω n =
      ⟨((evalStmtsT cfg p rs.ev).live fuel ω n).clock, ((evalStmtsT cfg p rs.ev).live fuel ω n).log,
        (⟨(analyzeStmts p rs.sem).1, ((evalStmtsT cfg p rs.ev).live fuel ω n).result.1⟩,
          ((evalStmtsT cfg p rs.ev).live fuel ω n).result.2.toEvalResult)⟩ := by
  rw [runtimeEvalT_accepted cfg rs hp ha, live_bind]
  simp [T.live]

theorem toEvalResult_ok {r : IRes} : r.toEvalResult = .ok ↔ r = .ok := by cases r <;> simp [IRes.toEvalResult]

theorem andThenA_ok {r : AState × R Unit} {f : AState → AState × R Unit} (h : (andThenA r f).2 = .ok ()) :
    r.2 = .ok () ∧ (f r.1).2 = .ok () ∧ andThenA r f = f r.1 := by
  obtain ⟨a, r⟩ := r
  cases r with
  | error e => cases h
  | ok _ => exact ⟨rfl, h, rfl⟩

theorem andThenA_ok' {r : AState × R Unit} {f : AState → AState × R Unit} (h : r.2 = .ok ()) : andThenA r f = f r.1 := by
  obtain ⟨a, r⟩ := r
  cases r with
  | error e => cases h
  | ok _ => rfl

/-- **C93** A program can be entered in pieces: if the first one runs to its end, and then the second is accepted,
evaluating the two texts as one does the same as evaluating one after the other: in whatever the world does meanwhile,
the same requests are made at the same moments, and state and result are the same in the end. -/
theorem C93_pieces (cfg : Cfg) (rs rs₁ : RState) (hv : rs₁.sem.vars ≠ []) (t₁ t₂ : Str) (p₁ p₂ : List Stmt)
    (h₁ : Spells t₁ p₁) (h₂ : Spells t₂ p₂) (fuel : Nat) (ω : Live) (n : Nat)
    (hok : ((runtimeEvalT cfg rs t₁).live fuel ω n).result = (rs₁, .ok))
    (ha : AcceptedL (fun x => rs₁.sem.vars.get x ≠ none) (0 < rs₁.sem.loopDepth) p₂) :
    (runtimeEvalT cfg rs (t₁ ++ t₂)).live fuel ω n =
      let l₁ := (runtimeEvalT cfg rs t₁).live fuel ω n
      let l₂ := (runtimeEvalT cfg rs₁ t₂).live fuel ω l₁.clock
      ⟨l₂.clock, l₁.log ++ l₂.log, l₂.result⟩ := by
  rw [← C18_accepts_iff _ _ hv] at ha
  have ha₁ : (analyzeStmts p₁ rs.sem).2 = .ok () := by
    unfold runtimeEvalT at hok
    rw [spells_iff.1 h₁] at hok
    dsimp only at hok
    generalize analyzeStmts p₁ rs.sem = x at hok
    obtain ⟨sem, r⟩ := x
    cases r with
    | ok _ => rfl
    | error e => simp [T.live] at hok
  rw [live_accepted cfg rs h₁ ha₁] at hok ⊢
  simp only [Prod.mk.injEq, toEvalResult_ok] at hok
  obtain ⟨hrs, hr⟩ := hok
  subst hrs
  dsimp only
  rw [live_accepted cfg _ h₂ ha]
  have hsem : analyzeStmts (p₁ ++ p₂) rs.sem = analyzeStmts p₂ (analyzeStmts p₁ rs.sem).1 := by
    rw [analyzeStmts_append, andThenA_ok' ha₁]
  rw [live_accepted cfg rs (spells_append h₁ h₂) (by rw [hsem]; exact ha), hsem, evalStmtsT_append, live_bind]
  have : ((evalStmtsT cfg p₁ rs.ev).live fuel ω n).result = (((evalStmtsT cfg p₁ rs.ev).live fuel ω n).result.1, .ok) := by
    rw [← hr]
  rw [this, thenRun_ok]

/-- **C93** If the first piece ends otherwise, with `quit` or an error, the second does not count: provided that it is
accepted with the first. -/
theorem C93_first_ends (cfg : Cfg) (rs : RState) (hv : rs.sem.vars ≠ []) (t₁ t₂ : Str) (p₁ p₂ : List Stmt)
    (h₁ : Spells t₁ p₁) (h₂ : Spells t₂ p₂) (fuel : Nat) (ω : Live) (n : Nat)
    (ha : AcceptedL (fun x => rs.sem.vars.get x ≠ none) (0 < rs.sem.loopDepth) (p₁ ++ p₂))
    (hne : ((runtimeEvalT cfg rs t₁).live fuel ω n).result.2 ≠ .ok) :
    let l := (runtimeEvalT cfg rs (t₁ ++ t₂)).live fuel ω n
    let l₁ := (runtimeEvalT cfg rs t₁).live fuel ω n
    l.clock = l₁.clock ∧ l.log = l₁.log ∧ l.result.1.ev = l₁.result.1.ev ∧ l.result.2 = l₁.result.2 := by
  rw [← C18_accepts_iff _ _ hv] at ha
  have ha' := ha
  rw [analyzeStmts_append] at ha'
  have ha₁ := (andThenA_ok ha').1
  rw [live_accepted cfg rs h₁ ha₁] at hne ⊢
  rw [live_accepted cfg rs (spells_append h₁ h₂) ha, evalStmtsT_append, live_bind]
  have hr : ((evalStmtsT cfg p₁ rs.ev).live fuel ω n).result.2 ≠ .ok := fun h => hne (toEvalResult_ok.2 h)
  generalize (evalStmtsT cfg p₁ rs.ev).live fuel ω n = l at hr
  obtain ⟨c, lg, st, r⟩ := l
  dsimp only at hr ⊢
  rw [thenRun_other _ _ hr]
  simp [T.live]

/-! ### a script, line by line -/

theorem strip_line {l : Str} (h : '\n' ∉ l) : stripComments l = stripLine false l := by
  have := lines_pieces [] (by simp) [] l (by simp) h
  simp only [List.flatMap_nil, List.nil_append, List.map_nil] at this
  rw [stripComments_eq, this]
  split
  · next hl => subst hl; rfl
  · simp [List.intercalate]

theorem strip_text {ls : List Str} (h : ∀ l ∈ ls, '\n' ∉ l ∧ l.getLast? ≠ some '\r') :
    stripComments (ls.flatMap (· ++ ['\n'])) = List.intercalate [' '] (ls.map stripComments) := by
  have := lines_pieces [] (by simp) ls [] (by simpa using h) (by simp)
  simp only [List.append_nil, if_true, List.map_id'] at this
  rw [stripComments_eq, this]
  congr 1
  apply List.map_congr_left
  intro l hl
  rw [strip_line (h l hl).1]

theorem spells_lines : ∀ {ts : List Str} {ps : List (List Stmt)}, List.Forall₂ Spells ts ps →
    Spells (List.intercalate [' '] ts) ps.flatten
  | [], _, .nil => spells_blank (by simp [Blank, List.intercalate])
  | [t], _, .cons h .nil => by simpa [List.intercalate] using h
  | t :: t' :: ts, _, .cons h hs => by
    have h1 := spells_append (spells_append h (spells_blank (t := [' ']) (by simp [Blank]))) (spells_lines hs)
    simpa [List.intercalate, List.intersperse] using h1

/-- an entry at the prompt, in a world that does not change -/
def Cfg.tick (cfg : Cfg) (e : ReplEvent) : Tick := ⟨cfg.host, id, e⟩

theorem procRun_tick (cfg : Cfg) (p : Proc) (e : ReplEvent) (ts : List Tick) :
    procRun cfg p (cfg.tick e :: ts) =
      match procStep cfg p e with
      | (p', .running) => procRun cfg p' ts
      | (p', s) => (p', s) := by
  have hm : p.meets id = p := by simp [Proc.meets]
  rw [procRun]
  show (match procStep cfg (p.meets id) e with
      | (p', .running) => procRun cfg p' ts
      | (p', s) => (p', s)) = _
  rw [hm]

/-- one line of a script, a program on its own that shows nothing -/
structure Piece (l : Str) (p : List Stmt) : Prop where
  spells : Spells (stripComments l) p
  silent : ShowNothing p

/-- what a session has done after some lines, given what the script with those lines did -/
def Followed (cfg : Cfg) (sees : Proc × ProcStatus) (ts : List Tick) (err : List ErrLine) (clean : Prop) :
    State × IRes → Prop
  | (st, r) => ∃ sem err', (clean → err' = []) ∧
    match r.toEvalResult with
    | .ok => sees = procRun cfg ⟨⟨sem, st⟩, err ++ err'⟩ ts
    | .quit => sees = (⟨⟨sem, st⟩, err ++ err'⟩, .over)
    | .fail (.err e) => ∃ ts', sees = procRun cfg ⟨⟨sem, st⟩, err ++ err' ++ [.error e.text]⟩ ts'
    | .fail _ => True

theorem pieces_run (cfg : Cfg) (ts : List Tick) : ∀ {ls : List Str} {ps : List (List Stmt)},
    List.Forall₂ Piece ls ps → ∀ (rs : RState) (err : List ErrLine), (analyzeStmts ps.flatten rs.sem).2 = .ok () →
      Followed cfg (procRun cfg ⟨rs, err⟩ (ls.map (fun l => cfg.tick (.line l)) ++ ts)) ts err
        (∀ l ∈ ls, ¬ Blank (stripComments l)) (evalStmts (cfg.prompt false) ps.flatten rs.ev)
  | [], _, .nil, rs, err, _ => by
    rw [List.flatten_nil, evalStmts]
    exact ⟨rs.sem, [], fun _ => rfl, by simp [IRes.toEvalResult]⟩
  | l :: ls, p :: ps, .cons h hs, rs, err, ha => by
    rw [List.flatten_cons, analyzeStmts_append] at ha
    obtain ⟨ha₁, ha₂, -⟩ := andThenA_ok ha
    rw [List.flatten_cons, evalStmts_append, List.map_cons, List.cons_append, procRun_tick, procStep_line]
    have hno := C01_no_newline l
    by_cases hp : p = []
    · -- a line without statements
      subst hp
      have hb : Blank (stripComments l) := by
        obtain ⟨_, hf, hl⟩ := h.spells
        cases hf
        cases hl
        assumption
      obtain ⟨h1, h2⟩ := blank_entry hb hno
      have he : runtimeEval cfg rs (fixupInput (stripComments l)) =
          (rs, .fail (.err (parseError (fixupInput (stripComments l))))) := by
        rw [h1]
        unfold runtimeEval
        rw [h2]
      rw [he, evalStmts]
      have ha₂ : (analyzeStmts ps.flatten rs.sem).2 = .ok () := by rwa [analyzeStmts] at ha₂
      have ih := pieces_run cfg ts hs rs (err ++ [.error (parseError (fixupInput (stripComments l))).text]) ha₂
      dsimp only [afterLine]
      generalize evalStmts (cfg.prompt false) ps.flatten rs.ev = r at ih
      obtain ⟨st, r⟩ := r
      obtain ⟨sem, err', -, ih⟩ := ih
      refine ⟨sem, [.error (parseError (fixupInput (stripComments l))).text] ++ err', fun hc => absurd hb (hc l (by simp)), ?_⟩
      simpa only [List.append_assoc] using ih
    · have hsp := entry_spells hno h.spells hp
      have he : runtimeEval cfg rs (fixupInput (stripComments l)) =
          (⟨(analyzeStmts p rs.sem).1, (evalStmts (cfg.prompt false) p rs.ev).1⟩,
            (evalStmts (cfg.prompt false) p rs.ev).2.toEvalResult) := by
        unfold runtimeEval
        rw [spells_iff.1 hsp]
        dsimp only
        have h3 : evalStmts (cfg.prompt false) p rs.ev = evalStmts cfg p rs.ev := stmts_prompt cfg false p rs.ev h.silent
        rw [h3]
        generalize analyzeStmts p rs.sem = x at ha₁
        obtain ⟨sem, r⟩ := x
        dsimp only at ha₁
        subst ha₁
        rfl
      rw [he]
      generalize evalStmts (cfg.prompt false) p rs.ev = r
      obtain ⟨st, r⟩ := r
      cases r with
      | ok =>
        dsimp only [afterLine, IRes.toEvalResult]
        have ih := pieces_run cfg ts hs ⟨(analyzeStmts p rs.sem).1, st⟩ err ha₂
        dsimp only at ih
        generalize evalStmts (cfg.prompt false) ps.flatten st = r at ih
        obtain ⟨st, r⟩ := r
        obtain ⟨sem, err', h1, ih⟩ := ih
        exact ⟨sem, err', fun hc => h1 fun l hl => hc l (by simp [hl]), ih⟩
      | quit => exact ⟨(analyzeStmts p rs.sem).1, [], fun _ => rfl, by simp [afterLine, IRes.toEvalResult]⟩
      | brk => exact ⟨_, [], fun _ => rfl, _, by simp only [afterLine, IRes.toEvalResult, List.append_nil]; rfl⟩
      | cont => exact ⟨_, [], fun _ => rfl, _, by simp only [afterLine, IRes.toEvalResult, List.append_nil]; rfl⟩
      | fail f =>
        cases f with
        | err e => exact ⟨_, [], fun _ => rfl, _, by simp only [afterLine, IRes.toEvalResult, List.append_nil]; rfl⟩
        | panic => exact ⟨rs.sem, [], fun _ => rfl, trivial⟩
        | diverge => exact ⟨rs.sem, [], fun _ => rfl, trivial⟩

theorem pieces_exist : ∀ {ls : List Str}, (∀ l ∈ ls, ∃ p, Spells (stripComments l) p ∧ ShowNothing p) →
    ∃ ps, List.Forall₂ Piece ls ps
  | [], _ => ⟨[], .nil⟩
  | l :: ls, h => by
    obtain ⟨p, h1, h2⟩ := h l (by simp)
    obtain ⟨ps, hs⟩ := pieces_exist (ls := ls) fun l hl => h l (by simp [hl])
    exact ⟨p :: ps, .cons ⟨h1, h2⟩ hs⟩

/-- a session that is fed these lines, in a world that does not change, is a session of `replMain` -/
theorem piped_lines (cfg : Cfg) (w : Times) (hw : ∀ n, w n = (id, .steady cfg.host)) (ls : List Str)
    (hls : ∀ l ∈ ls, '\n' ∉ l ∧ l.getLast? ≠ some '\\' ∧ l.getLast? ≠ some '\r') :
    let r := (pipedMain cfg none true true w (encoded (ls.flatMap (· ++ ['\n'])))).1
    (⟨r.out, besides r.err, r.exit⟩ : Ended) =
      replMain cfg none true true ((ls.map fun l => cfg.tick (.line l)) ++ [cfg.tick .eof]) := by
  have ht : ∀ (es : List ReplEvent) (n : Nat), ticks w n es = (es.map cfg.tick).map Tick.steady := by
    intro es
    induction es with
    | nil => intro n; rfl
    | cons e es ih =>
      intro n
      rw [ticks, ih, hw]
      rfl
  dsimp only [pipedMain]
  rw [C92_plain_lines ls hls, ht, C87_besides]
  simp [Function.comp_def]

theorem eof_end (cfg : Cfg) (p : Proc) (h : p.rs.ev.sink.room = none) :
    procEnd true (procRun cfg p [cfg.tick .eof]) = ⟨p.rs.ev.sink.out ++ quitLine, p.err, .success⟩ := by
  rw [procRun_tick]
  obtain ⟨⟨sem, ⟨⟨out, room⟩, vars, fs⟩⟩, err⟩ := p
  dsimp only at h
  subst h
  rfl

/-- the start of a session of an unlimited output -/
theorem session_none (cfg : Cfg) (ts : List Tick) : replMain cfg none true true ts =
    procEnd true (procRun (cfg.prompt true) ⟨⟨AState.new, (State.new cfg none).after banner⟩, []⟩ ts) := by
  simp only [replMain, if_true, procSession, start_none]
  rfl

theorem script_lines {ls : List Str} {ps : List (List Stmt)} (h : List.Forall₂ Piece ls ps)
    (hls : ∀ l ∈ ls, '\n' ∉ l ∧ l.getLast? ≠ some '\\' ∧ l.getLast? ≠ some '\r') :
    Spells (stripComments (ls.flatMap (· ++ ['\n']))) ps.flatten := by
  rw [strip_text fun l hl => ⟨(hls l hl).1, (hls l hl).2.2⟩]
  apply spells_lines
  clear hls
  induction h with
  | nil => exact .nil
  | cons h _ ih => exact .cons h.spells ih

theorem end_out (r : Proc × ProcStatus) : (procEnd true r).out = r.1.out := by
  obtain ⟨p, s⟩ := r
  cases s <;> rfl

theorem end_err (r : Proc × ProcStatus) : ∃ more, (procEnd true r).err = r.1.err ++ more := by
  obtain ⟨p, s⟩ := r
  cases s <;> exact ⟨[], by simp [procEnd]⟩

theorem step_errs (cfg : Cfg) (p : Proc) (e : ReplEvent) : p.err <+: (procStep cfg p e).1.err := by
  have hpr : ∀ (p : Proc) s x, p.err <+: (p.println s x).1.err := by
    intro p s x
    unfold Proc.println
    split <;> simp
  cases e with
  | line s =>
    rw [procStep_line]
    generalize runtimeEval cfg p.rs (fixupInput (stripComments s)) = r
    obtain ⟨rs, r⟩ := r
    cases r with
    | ok => simp [afterLine]
    | quit => simp [afterLine]
    | fail f => cases f <;> simp [afterLine]
  | interrupted => simp [procStep]
  | eof => exact hpr _ _ _
  | otherError => exact (List.prefix_append _ _).trans (hpr ⟨p.rs, p.err ++ [.logged]⟩ _ _)

theorem run_errs (cfg : Cfg) : ∀ (ts : List Tick) (p : Proc), p.err <+: (procRun cfg p ts).1.err
  | [], p => List.prefix_refl _
  | t :: ts, p => by
    rw [procRun]
    have h := step_errs { cfg with host := t.host } (p.meets t.drift) t.event
    generalize procStep { cfg with host := t.host } (p.meets t.drift) t.event = r at h
    obtain ⟨q, s⟩ := r
    cases s with
    | running => exact h.trans (run_errs cfg ts q)
    | over => exact h
    | panicked => exact h
    | hung => exact h

/-- the run of a script that is accepted, and the session with its lines -/
theorem session_follows (cfg : Cfg) {ls : List Str} {ps : List (List Stmt)} (h : List.Forall₂ Piece ls ps)
    (hls : ∀ l ∈ ls, '\n' ∉ l ∧ l.getLast? ≠ some '\\' ∧ l.getLast? ≠ some '\r')
    (ha : (analyzeStmts ps.flatten AState.new).2 = .ok ()) :
    ∃ sem st r, scriptRun cfg none (ls.flatMap (· ++ ['\n'])) = (⟨sem, st⟩, r.toEvalResult) ∧ st.sink.room = none ∧
      Followed (cfg.prompt true) (procRun (cfg.prompt true) ⟨⟨AState.new, (State.new cfg none).after banner⟩, []⟩
          ((ls.map fun l => cfg.tick (.line l)) ++ [cfg.tick .eof])) [cfg.tick .eof] []
        (∀ l ∈ ls, ¬ Blank (stripComments l)) (st.after banner, r) := by
  have hf := pieces_run (cfg.prompt true) [cfg.tick .eof] h ⟨AState.new, (State.new cfg none).after banner⟩ [] ha
  have hr := evalStmts_inv (none_closed (cfg.prompt false)) ps.flatten (allE_true _) (State.new cfg none) rfl
  dsimp only at hf
  rw [stmts_after] at hf
  refine ⟨(analyzeStmts ps.flatten AState.new).1, _, (evalStmts (cfg.prompt false) ps.flatten (State.new cfg none)).2, ?_, hr, hf⟩
  unfold scriptRun runtimeEval
  rw [spells_iff.1 (script_lines h hls)]
  dsimp only
  have hn : (RState.new cfg none).sem = AState.new := rfl
  rw [hn]
  generalize analyzeStmts ps.flatten AState.new = x at ha
  obtain ⟨sem, x⟩ := x
  dsimp only at ha
  subst ha
  rfl

/-- **C93** A script whose lines are programs of their own, without bare expressions, can as well be given to a
session on standard input: if it succeeds, the session prints the same after its banner, and then `quit`, unless the
script itself ended with `quit`; it succeeds, too, and there are no messages on standard error (besides warnings about
skipped items) except about lines without statements. -/
theorem C93_script_is_session (cfg : Cfg) (w : Times) (hw : ∀ n, w n = (id, .steady cfg.host)) (ls : List Str)
    (hls : ∀ l ∈ ls, '\n' ∉ l ∧ l.getLast? ≠ some '\\' ∧ l.getLast? ≠ some '\r')
    (hp : ∀ l ∈ ls, ∃ p, Spells (stripComments l) p ∧ ShowNothing p)
    (text : Str) (htext : text = ls.flatMap (· ++ ['\n']))
    (hs : (scriptMain cfg none (some (encoded text))).exit = .success) :
    let session := (pipedMain cfg none true true w (encoded text)).1
    session.out = banner ++ (scriptMain cfg none (some (encoded text))).out ++
      (if (scriptRun cfg none text).2 = .quit then [] else quitLine) ∧
    session.exit = .success ∧ ((∀ l ∈ ls, ¬ Blank (stripComments l)) → besides session.err = []) := by
  subst htext
  obtain ⟨ps, hps⟩ := pieces_exist hp
  have hpl := piped_lines cfg w hw ls hls
  rw [session_none] at hpl
  rw [C82_readable] at hs ⊢
  have ha : (analyzeStmts ps.flatten AState.new).2 = .ok () := by
    have h1 := (C66_success_iff cfg none (ls.flatMap (· ++ ['\n']))).1 ((scriptExit_success _).1 hs)
    obtain ⟨p, h2, h3, -⟩ := h1
    rw [spells_iff.1 (script_lines hps hls)] at h2
    cases h2
    rw [C18_accepts_iff _ _ (by simp [AState.new]), show (0 < AState.new.loopDepth) = False by simp [AState.new]]
    have hb : (fun x => x ∈ constants.map (·.1) ∨ x ∈ functions.map Function.display) =
        fun x => AState.new.vars.get x ≠ none := by
      funext x
      exact propext (builtins_defined x).symm
    rwa [hb] at h3
  obtain ⟨sem, st, r, hsr, hroom, hf⟩ := session_follows cfg hps hls ha
  rw [hsr] at hs ⊢
  dsimp only at hs hpl ⊢
  generalize procRun (cfg.prompt true) ⟨⟨AState.new, (State.new cfg none).after banner⟩, []⟩
          ((ls.map fun l => cfg.tick (.line l)) ++ [cfg.tick .eof]) = sees at hf hpl
  obtain ⟨sem', err', hc, hf⟩ := hf
  generalize (pipedMain cfg none true true w (encoded (ls.flatMap (· ++ ['\n'])))).1 = session at hpl
  cases hr : r.toEvalResult with
  | ok =>
    rw [hr] at hf
    dsimp only at hf
    subst hf
    have he := eof_end (cfg.prompt true) ⟨⟨sem', st.after banner⟩, [] ++ err'⟩ hroom
    have hcfg : cfg.tick .eof = (cfg.prompt true).tick .eof := rfl
    rw [hcfg, he] at hpl
    simp only [Ended.mk.injEq] at hpl
    obtain ⟨h1, h2, h3⟩ := hpl
    refine ⟨?_, h3, fun h => by rw [h2, hc h]; rfl⟩
    rw [h1]
    simp [State.after]
  | quit =>
    rw [hr] at hf
    dsimp only at hf
    subst hf
    simp only [procEnd, if_true, Ended.mk.injEq] at hpl
    obtain ⟨h1, h2, h3⟩ := hpl
    refine ⟨?_, h3, fun h => by rw [h2, hc h]; rfl⟩
    rw [h1]
    simp [State.after]
  | fail f =>
    rw [hr] at hs
    cases f <;> cases hs

/-- **C93** If it is accepted but fails while it runs, the session prints the same up to there, with the same message,
but then goes on with the next line. -/
theorem C93_failing_script (cfg : Cfg) (w : Times) (hw : ∀ n, w n = (id, .steady cfg.host)) (ls : List Str)
    (hls : ∀ l ∈ ls, '\n' ∉ l ∧ l.getLast? ≠ some '\\' ∧ l.getLast? ≠ some '\r')
    (hp : ∀ l ∈ ls, ∃ p, Spells (stripComments l) p ∧ ShowNothing p)
    (text : Str) (htext : text = ls.flatMap (· ++ ['\n']))
    (ha : ∀ p, Spells (stripComments text) p → AcceptedL (fun x => x ∈ constants.map (·.1) ∨ x ∈ functions.map Function.display) False p)
    (hs : (scriptMain cfg none (some (encoded text))).exit = .failure) :
    let session := (pipedMain cfg none true true w (encoded text)).1
    banner ++ (scriptMain cfg none (some (encoded text))).out <+: session.out ∧
    ∃ m, (scriptMain cfg none (some (encoded text))).err = [m, inScript] ∧ m ∈ session.err ∧
      ((∀ l ∈ ls, ¬ Blank (stripComments l)) → ∃ more, besides session.err = m :: more) := by
  subst htext
  obtain ⟨ps, hps⟩ := pieces_exist hp
  have hpl := piped_lines cfg w hw ls hls
  rw [session_none] at hpl
  rw [C82_readable] at hs ⊢
  have ha : (analyzeStmts ps.flatten AState.new).2 = .ok () := by
    have h3 := ha _ (script_lines hps hls)
    rw [C18_accepts_iff _ _ (by simp [AState.new]), show (0 < AState.new.loopDepth) = False by simp [AState.new]]
    have hb : (fun x => x ∈ constants.map (·.1) ∨ x ∈ functions.map Function.display) =
        fun x => AState.new.vars.get x ≠ none := by
      funext x
      exact propext (builtins_defined x).symm
    rwa [hb] at h3
  obtain ⟨sem, st, r, hsr, hroom, hf⟩ := session_follows cfg hps hls ha
  rw [hsr] at hs ⊢
  dsimp only at hs hpl ⊢
  generalize procRun (cfg.prompt true) ⟨⟨AState.new, (State.new cfg none).after banner⟩, []⟩
          ((ls.map fun l => cfg.tick (.line l)) ++ [cfg.tick .eof]) = sees at hf hpl
  obtain ⟨sem', err', hc, hf⟩ := hf
  generalize (pipedMain cfg none true true w (encoded (ls.flatMap (· ++ ['\n'])))).1 = session at hpl
  have hm : ∀ e, e ∈ besides session.err → e ∈ session.err := fun e he => (List.mem_filter.1 he).1
  cases hr : r.toEvalResult with
  | ok => rw [hr] at hs; cases hs
  | quit => rw [hr] at hs; cases hs
  | fail f =>
    rw [hr] at hs hf
    cases f with
    | panic => cases hs
    | diverge => cases hs
    | err e =>
      dsimp only at hf
      obtain ⟨ts', hf⟩ := hf
      have hg := run_grows (cfg.prompt true) ts' ⟨⟨sem', st.after banner⟩, [] ++ err' ++ [.error e.text]⟩
      have hge := run_errs (cfg.prompt true) ts' ⟨⟨sem', st.after banner⟩, [] ++ err' ++ [.error e.text]⟩
      rw [← hf] at hg hge
      have ho : session.out = sees.1.out := by
        have := congrArg Ended.out hpl
        exact this.trans (end_out sees)
      have her : ∃ more, besides session.err = sees.1.err ++ more := by
        obtain ⟨more, hmore⟩ := end_err sees
        exact ⟨more, (congrArg Ended.err hpl).trans hmore⟩
      obtain ⟨more, her⟩ := her
      obtain ⟨more', hge⟩ := hge
      rw [← hge] at her
      refine ⟨by rw [ho]; exact hg, .error e.text, rfl, hm _ (by rw [her]; simp), fun h => ?_⟩
      rw [her, hc h]
      exact ⟨more' ++ more, by simp⟩

/-! ### the hypotheses can be met -/

set_option maxRecDepth 100000 in
/-- two lines, the second with a comment -/
theorem two_lines : ∀ l ∈ [s!' "x = 20;", s!' "print x + 1; # and", s!' "if x > 1 { quit; }"], ∃ p, Spells (stripComments l) p ∧ ShowNothing p := by
  intro l hl
  simp only [List.mem_cons, List.not_mem_nil, or_false] at hl
  rcases hl with rfl | rfl | rfl
  · refine ⟨_, spells_iff.2 rfl, ?_⟩
    simp [ShowNothing, ShowsNothing]
  · refine ⟨_, spells_iff.2 rfl, ?_⟩
    simp [ShowNothing, ShowsNothing]
  · refine ⟨_, spells_iff.2 rfl, ?_⟩
    simp [ShowNothing, ShowsNothing]

example : (∀ l ∈ [s!' "x = 20;", s!' "print x + 1; # and", s!' "if x > 1 { quit; }"],
      '\n' ∉ l ∧ l.getLast? ≠ some '\\' ∧ l.getLast? ≠ some '\r') ∧
    (scriptMain demo none (some (encoded ([s!' "x = 20;", s!' "print x + 1; # and", s!' "if x > 1 { quit; }"].flatMap (· ++ ['\n']))))) =
      ⟨s!' "21\n", [], .success⟩ := by
  refine ⟨by decide, ?_⟩
  rw [C82_readable]
  decide +kernel

/-- **C93** Bare expressions do make a difference. -/
theorem C93_bare_differs : (scriptMain demo none (some (encoded s!' "7;\n"))).out = [] ∧
    (pipedMain demo none true true (fun _ => (id, .steady demo.host)) (encoded s!' "7;\n")).1.out = banner ++ s!' "7\nquit\n" := by
  constructor
  · rw [C82_readable]; decide +kernel
  · unfold pipedMain
    have h : feed (encoded s!' "7;\n") = [.line s!' "7;", .eof] := C92_plain_lines [s!' "7;"] (by decide)
    rw [h]
    decide +kernel

set_option maxRecDepth 100000 in
/-- the two pieces `x = 20;` and `print x;` -/
example (ω : Live) (n : Nat) : ∃ rs₁ p₁ p₂, Spells s!' "x = 20;" p₁ ∧ Spells s!' "print x;" p₂ ∧
    ((runtimeEvalT demo (RState.new demo none) s!' "x = 20;").live 5 ω n).result = (rs₁, .ok) ∧ rs₁.sem.vars ≠ [] ∧
    AcceptedL (fun x => rs₁.sem.vars.get x ≠ none) (0 < rs₁.sem.loopDepth) p₂ := by
  have h1 : Spells s!' "x = 20;" [.assign (.ident s!' "x") (.int 20)] := spells_iff.2 rfl
  have h2 : Spells s!' "print x;" [.print (.ident s!' "x")] := spells_iff.2 rfl
  have ha : (analyzeStmts [.assign (.ident s!' "x") (.int 20)] AState.new).2 = .ok () := rfl
  refine ⟨⟨(analyzeStmts [.assign (.ident s!' "x") (.int 20)] AState.new).1,
    ((evalStmtsT demo [.assign (.ident s!' "x") (.int 20)] (State.new demo none)).live 5 ω n).result.1⟩, _, _, h1, h2, ?_, ?_, ?_⟩
  · rw [live_accepted demo (RState.new demo none) h1 ha]
    rfl
  · intro h
    have := congrArg List.length h
    revert this
    dsimp only
    decide +kernel
  · refine ⟨⟨trivial, fun x hx => ?_⟩, trivial⟩
    simp only [Expr.uses, List.mem_singleton] at hx
    subst hx
    dsimp only
    decide +kernel

end Btrd
