/-
The process in a changing world against the rules of `Spec/LiveSession`.
-/
import Verif.Spec.LiveSession
import Verif.Lemmas.MomentsSafe
import Verif.Props.Live

namespace Btrd
open Spec

/-! ### an accepted program does not end in a jump -/

theorem writes_how {text : Str} {σ σ' : State} {t : Nat} {h : How} (hw : Writes text σ t σ' h) :
    h = .done t ∨ h = .failed none := by
  cases hw
  · exact .inl rfl
  · exact .inr rfl

/-- neither `break` nor `continue` -/
def NoJump (h : How) : Prop := (∀ t, h ≠ .brk t) ∧ ∀ t, h ≠ .cont t

theorem noJump_writes {text : Str} {σ σ' : State} {t : Nat} {h : How} (hw : Writes text σ t σ' h) : NoJump h := by
  rcases writes_how hw with rfl | rfl <;> simp [NoJump]

section
variable {ω : Live} {wraps interactive : Prop}

theorem goesOn_noJump : ∀ {c : Expr} {b : List Stmt} {σ : State} {t : Nat} {σ' : State} {h : How},
    GoesOn ω wraps interactive c b σ t σ' h → NoJump h
  | _, _, _, _, _, _, .over _ => by simp [NoJump]
  | _, _, _, _, _, _, .again _ _ _ h2 => goesOn_noJump h2
  | _, _, _, _, _, _, .broken _ _ => by simp [NoJump]
  | _, _, _, _, _, _, .ended _ _ h => by
    rcases h with rfl | ⟨m, rfl⟩ <;> simp [NoJump]
  | _, _, _, _, _, _, .fails _ => by simp [NoJump]

theorem goesThrough_noJump : ∀ {x : Str} {b : List Stmt} {xs : List Value} {σ : State} {t : Nat} {σ' : State} {h : How},
    GoesThrough ω wraps interactive x b xs σ t σ' h → NoJump h
  | _, _, _, _, _, _, _, .over => by simp [NoJump]
  | _, _, _, _, _, _, _, .again _ _ _ h2 => goesThrough_noJump h2
  | _, _, _, _, _, _, _, .broken _ _ => by simp [NoJump]
  | _, _, _, _, _, _, _, .ended _ _ h => by
    rcases h with rfl | ⟨m, rfl⟩ <;> simp [NoJump]

mutual
theorem goes_noJump : ∀ {s : Stmt} {σ : State} {t : Nat} {σ' : State} {h : How}, Goes ω wraps interactive s σ t σ' h →
    ∀ D, Accepted D False s → NoJump h
  | _, _, _, _, _, .assign _ _ _ => fun _ _ => by simp [NoJump]
  | _, _, _, _, _, .assignFrom _ => fun _ _ => by simp [NoJump]
  | _, _, _, _, _, .assignAt _ _ => fun _ _ => by simp [NoJump]
  | _, _, _, _, _, .assignTo _ _ _ => fun _ _ => by simp [NoJump]
  | _, _, _, _, _, .ifTrue _ hr _ => fun D ha => by rw [Accepted] at ha; exact goesAll_noJump hr _ ha.2.1
  | _, _, _, _, _, .ifFalse _ hr _ => fun D ha => by rw [Accepted] at ha; exact goesAll_noJump hr _ ha.2.2
  | _, _, _, _, _, .ifFails _ => fun _ _ => by simp [NoJump]
  | _, _, _, _, _, .while hr _ => fun _ _ => goesOn_noJump hr
  | _, _, _, _, _, .for _ hr _ => fun _ _ => goesThrough_noJump hr
  | _, _, _, _, _, .forOf _ => fun _ _ => by simp [NoJump]
  | _, _, _, _, _, .forKind _ _ => fun _ _ => by simp [NoJump]
  | _, _, _, _, _, .forNoName _ => fun _ _ => by simp [NoJump]
  | _, _, _, _, _, .brk => fun _ ha => by rw [Accepted] at ha; exact ha.elim
  | _, _, _, _, _, .cont => fun _ ha => by rw [Accepted] at ha; exact ha.elim
  | _, _, _, _, _, .quit => fun _ _ => by simp [NoJump]
  | _, _, _, _, _, .help h => fun _ _ => noJump_writes h
  | _, _, _, _, _, .filesystem _ _ => fun _ _ => by simp [NoJump]
  | _, _, _, _, _, .filesystemOf _ => fun _ _ => by simp [NoJump]
  | _, _, _, _, _, .filesystemKind _ _ => fun _ _ => by simp [NoJump]
  | _, _, _, _, _, .filesystemFails _ _ => fun _ _ => by simp [NoJump]
  | _, _, _, _, _, .print _ _ h => fun _ _ => noJump_writes h
  | _, _, _, _, _, .printOf _ => fun _ _ => by simp [NoJump]
  | _, _, _, _, _, .printNoDiagram _ _ _ => fun _ _ => by simp [NoJump]
  | _, _, _, _, _, .shown _ _ _ h => fun _ _ => noJump_writes h
  | _, _, _, _, _, .silent _ _ => fun _ _ => by simp [NoJump]
  | _, _, _, _, _, .exprOf _ => fun _ _ => by simp [NoJump]
termination_by structural _ _ _ _ _ h => h
theorem goesAll_noJump : ∀ {p : List Stmt} {σ : State} {t : Nat} {σ' : State} {h : How}, GoesAll ω wraps interactive p σ t σ' h →
    ∀ D, AcceptedL D False p → NoJump h
  | _, _, _, _, _, .nil => fun _ _ => by simp [NoJump]
  | _, _, _, _, _, .next _ h2 => fun _ ha => by rw [AcceptedL] at ha; exact goesAll_noJump h2 _ ha.2
  | _, _, _, _, _, .stop h _ => fun _ ha => by rw [AcceptedL] at ha; exact goes_noJump h _ ha.1
termination_by structural _ _ _ _ _ h => h
end

end

/-! ### one entry -/

/-- what is known about a session in a changing world -/
structure Able (rs : RState) : Prop where
  one : rs.sem.vars.length = 1
  depth : rs.sem.loopDepth = 0
  ne : rs.ev.vars ≠ []
  good : GoodVars rs.ev.vars

theorem Sess.able {rs : RState} (h : Sess rs) : Able rs := ⟨h.one, h.depth, h.ne, h.good⟩

theorem Able.sess {rs : RState} (h : Able rs) : Sess ⟨rs.sem, ⟨⟨[], none⟩, [fun _ => none], none⟩⟩ :=
  ⟨h.one, h.depth, by simp, (by intro s hs x v hv; simp only [List.mem_singleton] at hs; subst hs; cases hv),
    fun x hx => absurd rfl hx⟩

theorem Able.vars {rs : RState} (h : Able rs) {ev : State} (hv : ev.vars = rs.ev.vars) : Able ⟨rs.sem, ev⟩ :=
  ⟨h.one, h.depth, by rw [hv]; exact h.ne, by rw [hv]; exact h.good⟩

/-- what an entry does -/
theorem runtimeT_cases (cfg : Cfg) (ω : Live) (rs : RState) (cmd : Str) :
    (parse cmd = none ∧ (runtimeEvalT cfg rs cmd).live cfg.fuel ω 0 = ⟨0, [], (rs, .fail (.err (parseError cmd)))⟩) ∨
    (∃ p e, parse cmd = some p ∧ (analyzeStmts p rs.sem).2 = .error e ∧
      (runtimeEvalT cfg rs cmd).live cfg.fuel ω 0 = ⟨0, [], (⟨(analyzeStmts p rs.sem).1, rs.ev⟩, .fail e)⟩) ∨
    (∃ p, parse cmd = some p ∧ (analyzeStmts p rs.sem).2 = .ok () ∧
      ((runtimeEvalT cfg rs cmd).live cfg.fuel ω 0).result =
        (⟨(analyzeStmts p rs.sem).1, ((evalStmtsT cfg p rs.ev).ends cfg.fuel ω 0).1.1⟩,
          ((evalStmtsT cfg p rs.ev).ends cfg.fuel ω 0).1.2.toEvalResult)) := by
  unfold runtimeEvalT
  cases hp : parse cmd with
  | none => exact .inl ⟨rfl, rfl⟩
  | some p =>
    right
    dsimp only
    cases ha : analyzeStmts p rs.sem with
    | mk sem r =>
      cases r with
      | error e => exact .inl ⟨p, e, rfl, by rw [ha], by rw [ha]; rfl⟩
      | ok u =>
        refine .inr ⟨p, rfl, by rw [ha], ?_⟩
        dsimp only
        rw [live_bind, ha]
        rfl

/-- besides the warnings, an entry that was evaluated leads on as without them -/
theorem procLine_besides (err : List ErrLine) (l : Lived (RState × EvalResult)) :
    ∃ err', (procLine err l).1 = (⟨(afterLine err l.result).1.rs, err'⟩, (afterLine err l.result).2) ∧
      besides err' = (afterLine (besides err) l.result).1.err := by
  obtain ⟨t, log, rs, r⟩ := l
  have e : besides (err ++ warningLines log) = besides err := by rw [besides_append, besides_lines, List.append_nil]
  cases r with
  | ok => exact ⟨_, rfl, e⟩
  | quit => exact ⟨_, rfl, e⟩
  | fail f =>
    cases f with
    | err er => exact ⟨_, rfl, by rw [besides_append, e]; rfl⟩
    | panic => exact ⟨_, rfl, by rw [besides_append, e]; rfl⟩
    | diverge => exact ⟨_, rfl, e⟩

theorem println_besides (rs : RState) (err : List ErrLine) (s : Str) (x : ProcStatus) :
    ∃ err', (Proc.println ⟨rs, err⟩ s x) = (⟨(Proc.println ⟨rs, []⟩ s x).1.rs, err'⟩, (Proc.println ⟨rs, []⟩ s x).2) ∧
      besides err' = besides err ++ (Proc.println ⟨rs, []⟩ s x).1.err := by
  unfold Proc.println
  cases rs.ev.println s with
  | mk ev b =>
    cases b
    · exact ⟨_, rfl, by rw [besides_append]; rfl⟩
    · exact ⟨_, rfl, by simp⟩

section
variable (cfg : Cfg) (hb : cfg.build.ovfChecks = false) (hi : cfg.interactive = true)

/-- running an accepted entry, by the rules -/
theorem entry_goes (hb : cfg.build.ovfChecks = false) (ω : Live) {rs : RState} (hs : Able rs) {p : List Stmt} {cmd : Str} (hp : parse cmd = some p)
    (ha : AcceptedL (defined rs.sem.vars) False p) {r : (State × IRes) × Nat}
    (hr : (evalStmtsT cfg p rs.ev).ends cfg.fuel ω 0 = r) :
    r.1.2 = .fail .diverge ∨ ∃ h, LGoesAll cfg ω p rs.ev 0 r.1.1 h ∧ Comes r r.1.1 h ∧ NoJump h ∧ r.1.1.vars ≠ [] ∧
      GoodVars r.1.1.vars := by
  have hlit := parse_literals hp
  have hk := stmts_kept cfg hb ω p hlit (acceptedL_sound _ _ p ha) rs.ev hs.good hs.ne 0
  have hg := stmts_goes cfg ω p hlit rs.ev hs.good 0
  rw [hr] at hk hg
  rcases hg with (h | h) | ⟨h, h1, h2⟩
  · exact absurd h hk.1
  · exact .inl h
  · exact .inr ⟨h, h1, h2, goesAll_noJump h1 _ ha, ne_of_length hk.2 hs.ne, goesAll_good cfg ω h1 hs.good hlit⟩

include hb hi in
theorem goes_true (ω : Live) : LGoesAll cfg ω = GoesAll ω True True := by
  have hw : Cfg.wraps cfg = True := by simp [Cfg.wraps, hb]
  have hin : (cfg.interactive = true) = True := by simp [hi]
  unfold LGoesAll
  rw [hw, hin]

include hb hi in
/-- one event, by the rules -/
theorem step_live (ω : Live) (p : Proc) (hs : Able p.rs) (e : ReplEvent) (hh : (procStepL cfg ω p e).1.2 ≠ .hung) :
    Able (procStepL cfg ω p e).1.1.rs ∧ ∃ l, besides (procStepL cfg ω p e).1.1.err = besides p.err ++ l ∧
      LiveHappens True entryText ω (defined p.rs.sem.vars) p.rs.ev e (defined (procStepL cfg ω p e).1.1.rs.sem.vars)
        (procStepL cfg ω p e).1.1.rs.ev l (procStepL cfg ω p e).1.2 := by
  obtain ⟨rs, err⟩ := p
  cases e with
  | interrupted => exact ⟨hs, [.hint], besides_append .., .idle (by simp) .interrupted⟩
  | eof =>
    have h := println_rule rs.ev s!' "quit"
    have hv := println_vars rs.ev s!' "quit"
    simp only [procStepL, procStep, Proc.println]
    generalize rs.ev.println s!' "quit" = r at h hv
    obtain ⟨ev, b⟩ := r
    cases b with
    | true => exact ⟨hs.vars hv, [], by simp, .idle (by simp) (.eof h)⟩
    | false => exact ⟨hs.vars hv, [.panicked], besides_append .., .idle (by simp) (.eofFull h)⟩
  | otherError =>
    have h := println_rule rs.ev s!' "quit"
    have hv := println_vars rs.ev s!' "quit"
    simp only [procStepL, procStep, Proc.println]
    generalize rs.ev.println s!' "quit" = r at h hv
    obtain ⟨ev, b⟩ := r
    cases b with
    | true => exact ⟨hs.vars hv, [.logged], besides_append .., .idle (by simp) (.readError h)⟩
    | false =>
      refine ⟨hs.vars hv, [.logged, .panicked], ?_, .idle (by simp) (.readErrorFull h)⟩
      simp only [besides_append, List.append_assoc]
      rfl
  | line s =>
    have hl0 : procStepL cfg ω ⟨rs, err⟩ (.line s) =
      procLine err ((runtimeEvalT cfg rs (fixupInput (stripComments s))).live cfg.fuel ω 0) := rfl
    rw [hl0] at hh ⊢
    obtain ⟨err', hpl, he'⟩ := procLine_besides err ((runtimeEvalT cfg rs (fixupInput (stripComments s))).live cfg.fuel ω 0)
    rw [hpl] at hh ⊢
    dsimp only at hh ⊢
    rw [he']
    rcases runtimeT_cases cfg ω rs (fixupInput (stripComments s)) with ⟨hp, he⟩ | ⟨p, e, hp, her, he⟩ | ⟨p, hp, hok, he⟩
    · rw [he]
      obtain ⟨m, hu, hm⟩ := unread_text hp
      refine ⟨hs, [.error (some m)], ?_, .idle ?_ (.unreadable hu)⟩
      · rw [← hm]; rfl
      · intro s' p' h1 h2
        cases h1
        exact (unread_no hu h2).elim
    · rw [he]
      have ha := analyzed_stmts p rs.sem hs.sess.semNe
      obtain ⟨x, rfl, -⟩ := ha.err e her
      refine ⟨⟨(gained_length ha.gained).trans hs.one, ha.depth.trans hs.depth, hs.ne, hs.good⟩, [.error x.text], rfl, ?_⟩
      have hl := learns p _ hs.sess.semNe hs.depth
      rcases C83_accepted_or_refused (defined rs.sem.vars) p with hacc | ⟨m, hm⟩
      · rw [(accepted_session hs.sess p).2 hacc] at her
        simp at her
      · obtain ⟨y, h1, h2⟩ := (refused_session hs.sess p m).1 hm
        dsimp only at h1
        rw [her] at h1
        simp only [Except.error.injEq, Fail.err.injEq] at h1
        subst h1
        rw [h2]
        refine .idle ?_ (.refused (spells_iff.2 hp) hm hl)
        intro s' p' h1 h2 h3
        cases h1
        cases spells_unique (spells_iff.2 hp) h2
        exact (C83_refused_unique _ _ _ _ hm hm).2 h3
    · rw [he] at hh ⊢
      have hacc := (accepted_session hs.sess p).1 hok
      have hl := learns p _ hs.sess.semNe hs.depth
      have ha := analyzed_stmts p rs.sem hs.sess.semNe
      have hgo := entry_goes cfg hb ω hs hp hacc rfl
      generalize (evalStmtsT cfg p rs.ev).ends cfg.fuel ω 0 = r at hh hgo
      obtain ⟨⟨σ₁, x⟩, t⟩ := r
      dsimp only at hh hgo ⊢
      rcases hgo with rfl | ⟨h, h1, h2, h3, h4, h5⟩
      · exact absurd rfl hh
      · rw [goes_true cfg hb hi] at h1
        have hab : Able ⟨(analyzeStmts p rs.sem).1, σ₁⟩ :=
          ⟨(gained_length ha.gained).trans hs.one, ha.depth.trans hs.depth, h4, h5⟩
        cases h with
        | done t =>
          simp only [Comes, Prod.mk.injEq] at h2
          obtain ⟨⟨-, rfl⟩, rfl⟩ := h2
          exact ⟨hab, [], (List.append_nil _).symm, .runs (spells_iff.2 hp) hacc hl h1⟩
        | brk t => exact absurd rfl (h3.1 t)
        | cont t => exact absurd rfl (h3.2 t)
        | quit =>
          simp only [Comes, Prod.mk.injEq] at h2
          obtain ⟨-, rfl⟩ := h2
          exact ⟨hab, [], (List.append_nil _).symm, .quits (spells_iff.2 hp) hacc hl h1⟩
        | failed m =>
          obtain ⟨er, h2, rfl⟩ := h2
          simp only [Prod.mk.injEq] at h2
          obtain ⟨-, rfl⟩ := h2
          exact ⟨hab, [.error er.text], rfl, .fails (spells_iff.2 hp) hacc hl h1⟩

include hb hi in
theorem run_live : ∀ (ts : List LiveTick) (p : Proc), Able p.rs → (procRunL cfg p ts).1.2 ≠ .hung →
    ∃ l, besides (procRunL cfg p ts).1.1.err = besides p.err ++ l ∧
      LiveConverses True entryText (defined p.rs.sem.vars) p.rs.ev ts (defined (procRunL cfg p ts).1.1.rs.sem.vars)
        (procRunL cfg p ts).1.1.rs.ev l (procRunL cfg p ts).1.2
  | [], p, _, _ => ⟨[], by simp [procRunL], .waits⟩
  | t :: ts, p, hs, hh => by
    have hs' : Able (p.meets t.drift).rs := hs.vars rfl
    have h := step_live cfg hb hi t.world (p.meets t.drift) hs' t.event
    simp only [procRunL] at hh ⊢
    generalize procStepL cfg t.world (p.meets t.drift) t.event = r at h hh
    obtain ⟨⟨p₁, r⟩, log⟩ := r
    cases r with
    | running =>
      simp only at hh ⊢
      obtain ⟨h1, l, h2, h3⟩ := h (by simp)
      obtain ⟨l', h4, h5⟩ := run_live ts p₁ h1 hh
      refine ⟨l ++ l', ?_, .next h3 h5⟩
      rw [h4, h2]
      simp [Proc.meets]
    | over =>
      obtain ⟨-, l, h2, h3⟩ := h (by simp)
      exact ⟨l, h2, .ends h3 (by simp)⟩
    | panicked =>
      obtain ⟨-, l, h2, h3⟩ := h (by simp)
      exact ⟨l, h2, .ends h3 (by simp)⟩
    | hung => exact absurd rfl hh

/-! ### what the rules say comes, given enough steps -/

/-- an entry that was run leads on like this -/
theorem ran_line {ω : Live} {rs : RState} (hs : Able rs) {s : Str} {p : List Stmt}
    (hp : Spells (entryText s) p) (ha : AcceptedL (defined rs.sem.vars) False p) {σ' : State} {h : How}
    (hg : LGoesAll cfg ω p rs.ev 0 σ' h) : ∃ n, ∀ k, n ≤ k → ∃ x t, Comes ((σ', x), t) σ' h ∧
      ∀ err, ∃ err', (procStepL (cfg.steps k) ω ⟨rs, err⟩ (.line s)).1 =
        (⟨⟨(analyzeStmts p rs.sem).1, σ'⟩, err'⟩, (afterLine [] (rs, x.toEvalResult)).2) ∧
        besides err' = besides err ++ (afterLine [] (rs, x.toEvalResult)).1.err := by
  have hlit := entry_lits s p hp
  obtain ⟨n, hn⟩ := goesAll_comes cfg ω hg hs.good hlit
  refine ⟨n, fun k hk => ?_⟩
  have hc := hn k hk
  dsimp only at hc
  have hp : parse (fixupInput (stripComments s)) = some p := spells_iff.1 hp
  rcases runtimeT_cases (cfg.steps k) ω rs (fixupInput (stripComments s)) with ⟨h0, _⟩ | ⟨q', e', h0, her, _⟩ | ⟨q', h0, hok, he⟩
  · rw [hp] at h0; cases h0
  · rw [hp] at h0; cases h0
    rw [(accepted_session hs.sess p).2 ha] at her
    simp at her
  · rw [hp] at h0; cases h0
    have hf : (cfg.steps k).fuel = k := rfl
    rw [hf] at he
    generalize (evalStmtsT (cfg.steps k) p rs.ev).ends k ω 0 = r at hc he
    obtain ⟨⟨σ₁, x⟩, t⟩ := r
    have hσ : σ₁ = σ' := by
      cases h with
      | done t => simp only [Comes, Prod.mk.injEq] at hc; exact hc.1.1
      | brk t => simp only [Comes, Prod.mk.injEq] at hc; exact hc.1.1
      | cont t => simp only [Comes, Prod.mk.injEq] at hc; exact hc.1.1
      | quit => simp only [Comes, Prod.mk.injEq] at hc; exact hc.1
      | failed m => obtain ⟨er, h2, -⟩ := hc; simp only [Prod.mk.injEq] at h2; exact h2.1
    subst hσ
    refine ⟨x, t, hc, fun err => ?_⟩
    obtain ⟨err', hpl, he'⟩ := procLine_besides err ((runtimeEvalT (cfg.steps k) rs (fixupInput (stripComments s))).live k ω 0)
    refine ⟨err', ?_, ?_⟩
    · refine Eq.trans hpl ?_
      rw [he]
      cases x.toEvalResult with
      | ok => rfl
      | quit => rfl
      | fail f => cases f <;> rfl
    · rw [he', he]
      cases x.toEvalResult with
      | ok => exact (List.append_nil _).symm
      | quit => exact (List.append_nil _).symm
      | fail f =>
        cases f with
        | diverge => exact (List.append_nil _).symm
        | _ => rfl

include hb hi in
/-- an event of which the rules say what it does -/
theorem happens_comes {ω : Live} {rs : RState} (hs : Able rs) {e : ReplEvent} {D' : Names} {σ' : State} {l : List ErrLine}
    {r : ProcStatus} (h : LiveHappens True entryText ω (defined rs.sem.vars) rs.ev e D' σ' l r) :
    ∃ n rs', Able rs' ∧ defined rs'.sem.vars = D' ∧ rs'.ev = σ' ∧ ∀ k, n ≤ k → ∀ err, ∃ err',
      (procStepL (cfg.steps k) ω ⟨rs, err⟩ e).1 = (⟨rs', err'⟩, r) ∧ besides err' = besides err ++ l := by
  have said : ∀ {σ'} {b : Bool}, Outputs quitLine rs.ev σ' (if b then .done else .failed) →
      rs.ev.println s!' "quit" = (σ', b) := by
    intro σ' b ho
    have h := println_rule rs.ev s!' "quit"
    have hu := outputs_unique (show Outputs (s!' "quit" ++ ['\n']) rs.ev σ' _ from ho) h
    generalize rs.ev.println s!' "quit" = z at hu
    obtain ⟨z, c⟩ := z
    obtain ⟨rfl, hu⟩ := hu
    cases b <;> cases c <;> simp_all
  have run : ∀ {s p σ' h}, Spells (entryText s) p → AcceptedL (defined rs.sem.vars) False p →
      Learns (defined rs.sem.vars) p D' → GoesAll ω True True p rs.ev 0 σ' h → (∀ x t, Comes ((σ', x), t) σ' h → (afterLine [] (rs, x.toEvalResult)).2 = r ∧
        (afterLine [] (rs, x.toEvalResult)).1.err = l) → ∃ n rs', Able rs' ∧ defined rs'.sem.vars = D' ∧ rs'.ev = σ' ∧ ∀ k, n ≤ k → ∀ err, ∃ err',
      (procStepL (cfg.steps k) ω ⟨rs, err⟩ (.line s)).1 = (⟨rs', err'⟩, r) ∧ besides err' = besides err ++ l := by
    intro s p σ' h hp ha hle hg hx
    rw [← goes_true cfg hb hi] at hg
    obtain ⟨n, hn⟩ := ran_line cfg hs hp ha hg
    have hl := learns p _ hs.sess.semNe hs.depth
    have han := analyzed_stmts p rs.sem hs.sess.semNe
    refine ⟨n, ⟨(analyzeStmts p rs.sem).1, σ'⟩, ?_, learns_unique hl hle, rfl, fun k hk err => ?_⟩
    · obtain ⟨x, t, hc, hk⟩ := hn n (Nat.le_refl n)
      refine ⟨(gained_length han.gained).trans hs.one, han.depth.trans hs.depth, ?_, goesAll_good cfg ω hg hs.good (entry_lits _ _ hp)⟩
      obtain ⟨m, hm⟩ := goesAll_comes cfg ω hg hs.good (entry_lits _ _ hp)
      have h1 := stmts_kept (cfg.steps m) hb ω p (entry_lits _ _ hp) (acceptedL_sound _ _ p ha) rs.ev hs.good hs.ne 0
      have h2 := hm m (Nat.le_refl m)
      dsimp only at h2
      have hf : (cfg.steps m).fuel = m := rfl
      rw [hf] at h1
      generalize (evalStmtsT (cfg.steps m) p rs.ev).ends m ω 0 = z at h1 h2
      obtain ⟨⟨σ₁, y⟩, t₁⟩ := z
      have hσ : σ₁ = σ' := by
        cases h with
        | done t => simp only [Comes, Prod.mk.injEq] at h2; exact h2.1.1
        | brk t => simp only [Comes, Prod.mk.injEq] at h2; exact h2.1.1
        | cont t => simp only [Comes, Prod.mk.injEq] at h2; exact h2.1.1
        | quit => simp only [Comes, Prod.mk.injEq] at h2; exact h2.1
        | failed m => obtain ⟨er, h2, -⟩ := h2; simp only [Prod.mk.injEq] at h2; exact h2.1
      subst hσ
      exact ne_of_length h1.2 hs.ne
    · obtain ⟨x, t, hc, hk⟩ := hn k hk
      obtain ⟨h1, h2⟩ := hx x t hc
      obtain ⟨err', h3, h4⟩ := hk err
      rw [h1] at h3
      rw [h2] at h4
      exact ⟨err', h3, h4⟩
  cases h with
  | runs hp ha hle hg =>
    refine run hp ha hle hg fun x t hc => ?_
    simp only [Comes, Prod.mk.injEq] at hc
    obtain ⟨⟨-, rfl⟩, -⟩ := hc
    exact ⟨rfl, rfl⟩
  | quits hp ha hle hg =>
    refine run hp ha hle hg fun x t hc => ?_
    simp only [Comes, Prod.mk.injEq] at hc
    obtain ⟨-, rfl⟩ := hc
    exact ⟨rfl, rfl⟩
  | fails hp ha hle hg =>
    refine run hp ha hle hg fun x t hc => ?_
    obtain ⟨er, h2, rfl⟩ := hc
    simp only [Prod.mk.injEq] at h2
    obtain ⟨-, rfl⟩ := h2
    exact ⟨rfl, rfl⟩
  | idle hidle h =>
    cases h with
    | interrupted => exact ⟨0, rs, hs, rfl, rfl, fun k _ err => ⟨_, rfl, besides_append ..⟩⟩
    | eof ho =>
      refine ⟨0, ⟨rs.sem, σ'⟩, hs.vars (outputs_vars ho), rfl, rfl, fun k _ err => ⟨err, ?_, by simp⟩⟩
      simp only [procStepL, procStep, Proc.println]
      rw [said (b := true) ho]
    | eofFull ho =>
      refine ⟨0, ⟨rs.sem, σ'⟩, hs.vars (outputs_vars ho), rfl, rfl, fun k _ err => ⟨err ++ [.panicked], ?_, besides_append ..⟩⟩
      simp only [procStepL, procStep, Proc.println]
      rw [said (b := false) ho]
    | readError ho =>
      refine ⟨0, ⟨rs.sem, σ'⟩, hs.vars (outputs_vars ho), rfl, rfl, fun k _ err => ⟨err ++ [.logged], ?_, besides_append ..⟩⟩
      simp only [procStepL, procStep, Proc.println]
      rw [said (b := true) ho]
    | readErrorFull ho =>
      refine ⟨0, ⟨rs.sem, σ'⟩, hs.vars (outputs_vars ho), rfl, rfl, fun k _ err => ⟨err ++ [.logged] ++ [.panicked], ?_, ?_⟩⟩
      · simp only [procStepL, procStep, Proc.println]
        rw [said (b := false) ho]
      · simp only [besides_append, List.append_assoc]
        rfl
    | @unreadable s m hp =>
      refine ⟨0, rs, hs, rfl, rfl, fun k _ err => ?_⟩
      obtain ⟨m', hu, hm⟩ := unread_text (unread_iff.2 ⟨_, hp⟩)
      cases unread_unique hp hu
      have hp : parse (fixupInput (stripComments s)) = none := unread_iff.2 ⟨_, hp⟩
      have hm : (parseError (fixupInput (stripComments s))).text = some m := hm
      refine ⟨err ++ [.error (some m)], ?_, besides_append ..⟩
      have : runtimeEvalT (cfg.steps k) rs (fixupInput (stripComments s)) = .ret (rs, .fail (.err (parseError (fixupInput (stripComments s))))) := by
        unfold runtimeEvalT
        rw [hp]
      simp only [procStepL, this]
      simp [procLine, T.live, warningLines, hm]
    | @refused s q _ m hp hm hle =>
      have hp : parse (fixupInput (stripComments s)) = some q := spells_iff.1 hp
      obtain ⟨y, h1, h2⟩ := (refused_session hs.sess q _).1 hm
      dsimp only at h1
      have han := analyzed_stmts q rs.sem hs.sess.semNe
      refine ⟨0, ⟨(analyzeStmts q rs.sem).1, rs.ev⟩,
        ⟨(gained_length han.gained).trans hs.one, han.depth.trans hs.depth, hs.ne, hs.good⟩,
        learns_unique (learns q _ hs.sess.semNe hs.depth) hle, rfl, fun k _ err => ⟨err ++ [.error (some m)], ?_, besides_append ..⟩⟩
      have : runtimeEvalT (cfg.steps k) rs (fixupInput (stripComments s)) =
          .ret (⟨(analyzeStmts q rs.sem).1, rs.ev⟩, .fail (.err y)) := by
        unfold runtimeEvalT
        rw [hp]
        dsimp only
        generalize analyzeStmts q rs.sem = z at h1
        obtain ⟨sem, z⟩ := z
        simp only at h1
        subst h1
        rfl
      simp only [procStepL, this]
      simp [procLine, T.live, warningLines, h2]
    | runs hp ha _ _ => exact absurd ha (hidle _ _ rfl hp)
    | fails hp ha _ _ _ => exact absurd ha (hidle _ _ rfl hp)
    | quits hp ha _ _ => exact absurd ha (hidle _ _ rfl hp)

include hb hi in
/-- a conversation by the rules -/
theorem converses_comes {D D' : Names} {σ σ' : State} {ts : List LiveTick} {l : List ErrLine} {r : ProcStatus}
    (h : LiveConverses True entryText D σ ts D' σ' l r) : ∀ rs : RState, Able rs → defined rs.sem.vars = D → rs.ev = σ →
    ∃ n rs', rs'.ev = σ' ∧ ∀ k, n ≤ k → ∀ err, ∃ err',
      (procRunL (cfg.steps k) ⟨rs, err⟩ ts).1 = (⟨rs', err'⟩, r) ∧ besides err' = besides err ++ l := by
  induction h with
  | waits => exact fun rs _ _ he => ⟨0, rs, he, fun k _ err => ⟨err, rfl, by simp⟩⟩
  | @next D σ t ts D₁ σ₁ l D' σ' ls r hh _ ih =>
    rintro rs hs rfl rfl
    have hs' : Able (Proc.meets ⟨rs, []⟩ t.drift).rs := hs.vars rfl
    obtain ⟨n, rs₁, h1, h2, h3, h4⟩ := happens_comes cfg hb hi hs' hh
    obtain ⟨m, rs', h5, h6⟩ := ih rs₁ h1 h2 h3
    refine ⟨max n m, rs', h5, fun k hk err => ?_⟩
    obtain ⟨err₁, h7, h8⟩ := h4 k (by omega) err
    obtain ⟨err', h9, h10⟩ := h6 k (by omega) err₁
    refine ⟨err', ?_, by rw [h10, h8, List.append_assoc]⟩
    have h7 : (procStepL (cfg.steps k) t.world (Proc.meets ⟨rs, err⟩ t.drift) t.event).1 = _ := h7
    rw [procRunL]
    generalize procStepL (cfg.steps k) t.world (Proc.meets ⟨rs, err⟩ t.drift) t.event = z at h7
    obtain ⟨z, log⟩ := z
    dsimp only at h7
    subst h7
    exact h9
  | @ends D σ t ts D' σ' l r hh hne =>
    rintro rs hs rfl rfl
    have hs' : Able (Proc.meets ⟨rs, []⟩ t.drift).rs := hs.vars rfl
    obtain ⟨n, rs₁, h1, h2, h3, h4⟩ := happens_comes cfg hb hi hs' hh
    refine ⟨n, rs₁, h3, fun k hk err => ?_⟩
    obtain ⟨err₁, h7, h8⟩ := h4 k hk err
    refine ⟨err₁, ?_, h8⟩
    have h7 : (procStepL (cfg.steps k) t.world (Proc.meets ⟨rs, err⟩ t.drift) t.event).1 = _ := h7
    rw [procRunL]
    generalize procStepL (cfg.steps k) t.world (Proc.meets ⟨rs, err⟩ t.drift) t.event = z at h7
    obtain ⟨z, log⟩ := z
    dsimp only at h7
    subst h7
    cases r with
    | running => exact absurd rfl hne
    | _ => rfl

end

end Btrd
