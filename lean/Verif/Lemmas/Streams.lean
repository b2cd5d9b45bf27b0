/-
The process against the rules of `Spec/Streams`.
-/
import Verif.Spec.Streams
import Verif.Props.World
import Verif.Props.Steps
import Verif.Lemmas.Process

namespace Btrd
open Spec

theorem println_rule (σ : State) (s : Str) :
    Outputs (s ++ ['\n']) σ (σ.println s).1 (if (σ.println s).2 then .done else .failed) := by
  have h := write_rule σ (s ++ ['\n'])
  have hk : (σ.write (s ++ ['\n'])).2 = .ok ∨ ∃ f, (σ.write (s ++ ['\n'])).2 = .fail f := by
    unfold State.write
    split
    · exact .inl rfl
    · exact .inr ⟨_, rfl⟩
  unfold State.println
  generalize σ.write (s ++ ['\n']) = r at h hk
  obtain ⟨σ', r⟩ := r
  simp only at hk
  rcases hk with rfl | ⟨f, rfl⟩ <;> exact h

theorem sess_ev {rs : RState} (h : Sess rs) {ev : State} (hv : ev.vars = rs.ev.vars) : Sess ⟨rs.sem, ev⟩ :=
  ⟨h.one, h.depth, by rw [hv]; exact h.ne, by rw [hv]; exact h.good, by rw [hv]; exact h.known⟩

theorem println_vars (σ : State) (s : Str) : (σ.println s).1.vars = σ.vars := outputs_vars (println_rule σ s)

/-- one event, by the rules -/
theorem step_happens (cfg : Cfg) (hb : cfg.build.ovfChecks = false) (hi : cfg.interactive = true) (p : Proc) (hs : Sess p.rs)
    (e : ReplEvent) (hh : (procStep cfg p e).2 ≠ .hung) :
    Sess (procStep cfg p e).1.rs ∧ ∃ l, (procStep cfg p e).1.err = p.err ++ l ∧
      Happens True entryText cfg.host (defined p.rs.sem.vars) p.rs.ev e (defined (procStep cfg p e).1.rs.sem.vars)
        (procStep cfg p e).1.rs.ev l (procStep cfg p e).2 := by
  obtain ⟨rs, err⟩ := p
  cases e with
  | interrupted => exact ⟨hs, [.hint], rfl, .interrupted⟩
  | eof =>
    have h := println_rule rs.ev s!' "quit"
    have hv := println_vars rs.ev s!' "quit"
    simp only [procStep, Proc.println]
    generalize rs.ev.println s!' "quit" = r at h hv
    obtain ⟨ev, b⟩ := r
    cases b with
    | true => exact ⟨sess_ev hs hv, [], by simp, .eof h⟩
    | false => exact ⟨sess_ev hs hv, [.panicked], rfl, .eofFull h⟩
  | otherError =>
    have h := println_rule rs.ev s!' "quit"
    have hv := println_vars rs.ev s!' "quit"
    simp only [procStep, Proc.println]
    generalize rs.ev.println s!' "quit" = r at h hv
    obtain ⟨ev, b⟩ := r
    cases b with
    | true => exact ⟨sess_ev hs hv, [.logged], rfl, .readError h⟩
    | false => exact ⟨sess_ev hs hv, [.logged, .panicked], by simp, .readErrorFull h⟩
  | line s =>
    have hsess := sess_step cfg rs (fixupInput (stripComments s)) hs
    have hnp := runtimeEval_no_panic cfg hb rs hs (fixupInput (stripComments s))
    have hw : (cfg.build.ovfChecks = false) = True := by simp [hb]
    have hin : (cfg.interactive = true) = True := by simp [hi]
    rcases runtimeEval_cases cfg rs (fixupInput (stripComments s)) with ⟨hp, he⟩ | ⟨p, e, hp, her, he⟩ | ⟨p, hp, hok, he⟩
    · simp only [procStep, he]
      obtain ⟨m, h1, h2⟩ := unread_text hp
      rw [h2]
      exact ⟨hs, _, rfl, .unreadable h1⟩
    · rw [he] at hsess
      have ha := analyzed_stmts p rs.sem hs.semNe
      obtain ⟨x, rfl, -⟩ := ha.err e her
      simp only [procStep, he]
      refine ⟨hsess, _, rfl, ?_⟩
      have hl := learns p _ hs.semNe hs.depth
      rcases C83_accepted_or_refused (defined rs.sem.vars) p with hacc | ⟨m, hm⟩
      · rw [(accepted_session hs p).2 hacc] at her
        simp at her
      · obtain ⟨y, h1, h2⟩ := (refused_session hs p m).1 hm
        rw [her] at h1
        simp only [Except.error.injEq, Fail.err.injEq] at h1
        subst h1
        rw [h2]
        exact .refused (spells_iff.2 hp) hm hl
    · rw [he] at hsess hnp
      have hacc := (accepted_session hs p).1 hok
      have hl := learns p _ hs.semNe hs.depth
      have hk := accepted_kind cfg p _ hacc rs.ev
      have hlit := parse_literals hp
      simp only [procStep, he] at hh ⊢
      have htold := stmts_told (cfg := cfg) p rs.ev
      have hrule := stmts_rule cfg p rs.ev
      simp only [evalProgram] at hsess hnp hh ⊢
      generalize hr : evalStmts cfg p rs.ev = r at hsess hnp hh htold hrule hk ⊢
      obtain ⟨σ₁, r⟩ := r
      simp only at hsess hnp hh htold hrule hk ⊢
      have tr : ∀ {o}, RunsAll (world cfg) p rs.ev σ₁ o → RunsAll (theWorld cfg.host True True) p rs.ev σ₁ o := by
        intro o h
        have := runsAll_alike (alike cfg) h hs.good hlit
        rwa [manual, Cfg.wraps, hw, hin] at this
      cases r with
      | ok => exact ⟨hsess, [], by simp [IRes.toEvalResult], .runs (spells_iff.2 hp) hacc hl (tr (hrule (by simp)))⟩
      | quit => exact ⟨hsess, [], by simp [IRes.toEvalResult], .quits (spells_iff.2 hp) hacc hl (tr (hrule (by simp)))⟩
      | brk => simp [kind] at hk
      | cont => simp [kind] at hk
      | fail f =>
        cases f with
        | err er =>
          have := failsAll_alike (alike cfg) (alikeC cfg) (htold er.text ⟨er, rfl, rfl⟩) hs.good hlit
          rw [manual, manualC, Cfg.wraps, hw, hin] at this
          exact ⟨hsess, _, rfl, .fails (spells_iff.2 hp) hacc hl (tr (hrule (by simp))) this⟩
        | panic => simp [IRes.toEvalResult] at hnp
        | diverge => simp [IRes.toEvalResult] at hh

theorem run_converses (cfg : Cfg) (hb : cfg.build.ovfChecks = false) (hi : cfg.interactive = true) :
    ∀ (ts : List Tick) (p : Proc), Sess p.rs → (procRun cfg p ts).2 ≠ .hung →
    ∃ l, (procRun cfg p ts).1.err = p.err ++ l ∧
      Converses True entryText (defined p.rs.sem.vars) p.rs.ev ts (defined (procRun cfg p ts).1.rs.sem.vars)
        (procRun cfg p ts).1.rs.ev l (procRun cfg p ts).2
  | [], p, _, _ => ⟨[], by simp [procRun], .waits⟩
  | t :: ts, p, hs, hh => by
    have hs' : Sess (p.meets t.drift).rs := sess_ev hs rfl
    have h := step_happens { cfg with host := t.host } hb hi (p.meets t.drift) hs' t.event
    simp only [procRun] at hh ⊢
    generalize procStep { cfg with host := t.host } (p.meets t.drift) t.event = r at h hh
    obtain ⟨p₁, r⟩ := r
    cases r with
    | running =>
      simp only at hh ⊢
      obtain ⟨h1, l, h2, h3⟩ := h (by simp)
      obtain ⟨l', h4, h5⟩ := run_converses cfg hb hi ts p₁ h1 hh
      refine ⟨l ++ l', ?_, .next h3 h5⟩
      rw [h4, h2]
      simp [Proc.meets]
    | over =>
      obtain ⟨-, l, h2, h3⟩ := h (by simp)
      exact ⟨l, h2, .ends h3 (by simp)⟩
    | panicked =>
      obtain ⟨-, l, h2, h3⟩ := h (by simp)
      exact ⟨l, h2, .ends h3 (by simp)⟩
    | hung => exact absurd rfl hh

/-! ### the rules leave no choice -/

section
variable {wraps : Prop} {cleaned : Str → Str}

/-- a build that wraps around if this holds -/
noncomputable def cfgOf (wraps : Prop) (h : Host) : Cfg :=
  ⟨⟨open Classical in decide (¬ wraps)⟩, h, true, 0⟩

theorem alike_of (wraps : Prop) (h : Host) : Alike (world (cfgOf wraps h)) (theWorld h wraps True) := by
  have := alike (cfgOf wraps h)
  have h1 : Cfg.wraps (cfgOf wraps h) = wraps := by simp [Cfg.wraps, cfgOf]
  have h2 : ((cfgOf wraps h).interactive = true) = True := by simp [cfgOf]
  rw [manual, h1, h2] at this
  exact this

theorem alikeC_of (wraps : Prop) (h : Host) : AlikeC (complaints (cfgOf wraps h)) (theComplaints h wraps) := by
  have := alikeC (cfgOf wraps h)
  have h1 : Cfg.wraps (cfgOf wraps h) = wraps := by simp [Cfg.wraps, cfgOf]
  rw [manualC, h1] at this
  exact this

theorem the_runs_unique {h : Host} {p : List Stmt} {σ a b : State} {o o' : Outcome} (hg : GoodVars σ.vars) (hl : allE Lits p)
    (h1 : RunsAll (theWorld h wraps True) p σ a o) (h2 : RunsAll (theWorld h wraps True) p σ b o') : a = b ∧ o = o' :=
  runsAll_unique (runsAll_alike (alike_of wraps h).symm h1 hg hl) (runsAll_alike (alike_of wraps h).symm h2 hg hl)

theorem the_fails_unique {h : Host} {p : List Stmt} {σ : State} {m m' : Option Str} (hg : GoodVars σ.vars) (hl : allE Lits p)
    (h1 : FailsAll (theWorld h wraps True) (theComplaints h wraps) p σ m)
    (h2 : FailsAll (theWorld h wraps True) (theComplaints h wraps) p σ m') : m = m' :=
  failsAll_unique (failsAll_alike (alike_of wraps h).symm (alikeC_of wraps h).symm h1 hg hl)
    (failsAll_alike (alike_of wraps h).symm (alikeC_of wraps h).symm h2 hg hl)

theorem happens_good {h : Host} (hp : ∀ s p, Spells (cleaned s) p → allE Lits p) {D D' : Names} {σ σ' : State} {e : ReplEvent}
    {l : List ErrLine} {r : ProcStatus} (hh : Happens wraps cleaned h D σ e D' σ' l r) (hg : GoodVars σ.vars) :
    GoodVars σ'.vars := by
  cases hh with
  | interrupted => exact hg
  | eof ho => rw [outputs_vars ho]; exact hg
  | eofFull ho => rw [outputs_vars ho]; exact hg
  | readError ho => rw [outputs_vars ho]; exact hg
  | readErrorFull ho => rw [outputs_vars ho]; exact hg
  | unreadable _ => exact hg
  | refused _ _ _ => exact hg
  | runs h1 _ _ h4 => exact runsAll_good (alike_of wraps h).symm h4 hg (hp _ _ h1)
  | fails h1 _ _ h4 _ => exact runsAll_good (alike_of wraps h).symm h4 hg (hp _ _ h1)
  | quits h1 _ _ h4 => exact runsAll_good (alike_of wraps h).symm h4 hg (hp _ _ h1)

theorem happens_unique {h : Host} (hp : ∀ s p, Spells (cleaned s) p → allE Lits p) {D D₁ D₂ : Names} {σ σ₁ σ₂ : State}
    {e : ReplEvent} {l₁ l₂ : List ErrLine} {r₁ r₂ : ProcStatus} (hg : GoodVars σ.vars)
    (h₁ : Happens wraps cleaned h D σ e D₁ σ₁ l₁ r₁) (h₂ : Happens wraps cleaned h D σ e D₂ σ₂ l₂ r₂) :
    D₁ = D₂ ∧ σ₁ = σ₂ ∧ l₁ = l₂ ∧ r₁ = r₂ := by
  cases h₁ with
  | interrupted => cases h₂; exact ⟨rfl, rfl, rfl, rfl⟩
  | eof ho =>
    cases h₂ with
    | eof ho' => obtain ⟨rfl, -⟩ := outputs_unique ho ho'; exact ⟨rfl, rfl, rfl, rfl⟩
    | eofFull ho' => exact absurd (outputs_unique ho ho').2 (by simp)
  | eofFull ho =>
    cases h₂ with
    | eof ho' => exact absurd (outputs_unique ho ho').2 (by simp)
    | eofFull ho' => obtain ⟨rfl, -⟩ := outputs_unique ho ho'; exact ⟨rfl, rfl, rfl, rfl⟩
  | readError ho =>
    cases h₂ with
    | readError ho' => obtain ⟨rfl, -⟩ := outputs_unique ho ho'; exact ⟨rfl, rfl, rfl, rfl⟩
    | readErrorFull ho' => exact absurd (outputs_unique ho ho').2 (by simp)
  | readErrorFull ho =>
    cases h₂ with
    | readError ho' => exact absurd (outputs_unique ho ho').2 (by simp)
    | readErrorFull ho' => obtain ⟨rfl, -⟩ := outputs_unique ho ho'; exact ⟨rfl, rfl, rfl, rfl⟩
  | unreadable hp1 =>
    cases h₂ with
    | unreadable hp2 => cases unread_unique hp1 hp2; exact ⟨rfl, rfl, rfl, rfl⟩
    | refused hp2 _ _ => exact (unread_no hp1 hp2).elim
    | runs hp2 _ _ _ => exact (unread_no hp1 hp2).elim
    | fails hp2 _ _ _ _ => exact (unread_no hp1 hp2).elim
    | quits hp2 _ _ _ => exact (unread_no hp1 hp2).elim
  | refused hp1 hm hl =>
    cases h₂ with
    | unreadable hp2 => exact (unread_no hp2 hp1).elim
    | refused hp2 hm' hl' =>
      cases spells_unique hp1 hp2
      cases learns_unique hl hl'
      cases (C83_refused_unique _ _ _ _ hm hm').1
      exact ⟨rfl, rfl, rfl, rfl⟩
    | runs hp2 ha _ _ => cases spells_unique hp1 hp2; exact absurd ha (C83_refused_unique _ _ _ _ hm hm).2
    | fails hp2 ha _ _ _ => cases spells_unique hp1 hp2; exact absurd ha (C83_refused_unique _ _ _ _ hm hm).2
    | quits hp2 ha _ _ => cases spells_unique hp1 hp2; exact absurd ha (C83_refused_unique _ _ _ _ hm hm).2
  | runs hp1 ha hl hr =>
    cases h₂ with
    | unreadable hp2 => exact (unread_no hp2 hp1).elim
    | refused hp2 hm _ => cases spells_unique hp1 hp2; exact absurd ha (C83_refused_unique _ _ _ _ hm hm).2
    | runs hp2 _ hl' hr' =>
      cases spells_unique hp1 hp2
      cases learns_unique hl hl'
      obtain ⟨rfl, -⟩ := the_runs_unique hg (hp _ _ hp1) hr hr'
      exact ⟨rfl, rfl, rfl, rfl⟩
    | fails hp2 _ _ hr' _ =>
      cases spells_unique hp1 hp2
      exact absurd (the_runs_unique hg (hp _ _ hp1) hr hr').2 (by simp)
    | quits hp2 _ _ hr' =>
      cases spells_unique hp1 hp2
      exact absurd (the_runs_unique hg (hp _ _ hp1) hr hr').2 (by simp)
  | fails hp1 ha hl hr hf =>
    cases h₂ with
    | unreadable hp2 => exact (unread_no hp2 hp1).elim
    | refused hp2 hm _ => cases spells_unique hp1 hp2; exact absurd ha (C83_refused_unique _ _ _ _ hm hm).2
    | runs hp2 _ _ hr' =>
      cases spells_unique hp1 hp2
      exact absurd (the_runs_unique hg (hp _ _ hp1) hr hr').2 (by simp)
    | fails hp2 _ hl' hr' hf' =>
      cases spells_unique hp1 hp2
      cases learns_unique hl hl'
      obtain ⟨rfl, -⟩ := the_runs_unique hg (hp _ _ hp1) hr hr'
      cases the_fails_unique hg (hp _ _ hp1) hf hf'
      exact ⟨rfl, rfl, rfl, rfl⟩
    | quits hp2 _ _ hr' =>
      cases spells_unique hp1 hp2
      exact absurd (the_runs_unique hg (hp _ _ hp1) hr hr').2 (by simp)
  | quits hp1 ha hl hr =>
    cases h₂ with
    | unreadable hp2 => exact (unread_no hp2 hp1).elim
    | refused hp2 hm _ => cases spells_unique hp1 hp2; exact absurd ha (C83_refused_unique _ _ _ _ hm hm).2
    | runs hp2 _ _ hr' =>
      cases spells_unique hp1 hp2
      exact absurd (the_runs_unique hg (hp _ _ hp1) hr hr').2 (by simp)
    | fails hp2 _ _ hr' _ =>
      cases spells_unique hp1 hp2
      exact absurd (the_runs_unique hg (hp _ _ hp1) hr hr').2 (by simp)
    | quits hp2 _ hl' hr' =>
      cases spells_unique hp1 hp2
      cases learns_unique hl hl'
      obtain ⟨rfl, -⟩ := the_runs_unique hg (hp _ _ hp1) hr hr'
      exact ⟨rfl, rfl, rfl, rfl⟩

theorem converses_unique (hp : ∀ s p, Spells (cleaned s) p → allE Lits p) {D D₁ : Names} {σ σ₁ : State} {ts : List Tick}
    {l₁ : List ErrLine} {r₁ : ProcStatus} (h₁ : Converses wraps cleaned D σ ts D₁ σ₁ l₁ r₁) :
    GoodVars σ.vars → ∀ {D₂ σ₂ l₂ r₂}, Converses wraps cleaned D σ ts D₂ σ₂ l₂ r₂ →
    D₁ = D₂ ∧ σ₁ = σ₂ ∧ l₁ = l₂ ∧ r₁ = r₂ := by
  induction h₁ with
  | waits =>
    intro _ D₂ σ₂ l₂ r₂ h₂
    cases h₂
    exact ⟨rfl, rfl, rfl, rfl⟩
  | next hh _ ih =>
    intro hg D₂ σ₂ l₂ r₂ h₂
    cases h₂ with
    | next hh' h' =>
      obtain ⟨rfl, rfl, rfl, -⟩ := happens_unique hp (show GoodVars (drifted _ _).vars from hg) hh hh'
      obtain ⟨rfl, rfl, rfl, rfl⟩ := ih (happens_good hp hh hg) h'
      exact ⟨rfl, rfl, rfl, rfl⟩
    | ends hh' hne =>
      exact absurd (happens_unique hp (show GoodVars (drifted _ _).vars from hg) hh hh').2.2.2.symm hne
  | ends hh hne =>
    intro hg D₂ σ₂ l₂ r₂ h₂
    cases h₂ with
    | next hh' h' => exact absurd (happens_unique hp (show GoodVars (drifted _ _).vars from hg) hh hh').2.2.2 hne
    | ends hh' _ => exact happens_unique hp (show GoodVars (drifted _ _).vars from hg) hh hh'

end

/-! ### enough steps -/

section
variable {S : Fail → Prop} {cfg cfg' : Cfg}

/-- where the process is after these failures -/
def fatal : Fail → ProcStatus
  | .panic => .panicked
  | _ => .hung

theorem apx_step (hc : Finer S cfg cfg') (hS : ∀ f, S f → f = .panic ∨ f = .diverge) (p : Proc) (e : ReplEvent) :
    procStep cfg p e = procStep cfg' p e ∨ ∃ f, S f ∧ (procStep cfg p e).2 = fatal f := by
  cases e with
  | line s =>
    rw [procStep_line, procStep_line]
    rcases apx_runtime hc p.rs (fixupInput (stripComments s)) with h | ⟨f, hf, h⟩
    · left; rw [h]
    · right
      refine ⟨f, hf, ?_⟩
      generalize runtimeEval cfg p.rs (fixupInput (stripComments s)) = r at h
      obtain ⟨rs', r⟩ := r
      simp only at h
      subst h
      rcases hS f hf with rfl | rfl <;> rfl
  | interrupted => exact .inl rfl
  | eof => exact .inl rfl
  | otherError => exact .inl rfl

theorem finer_host (hc : Finer S cfg cfg') (h : Host) : Finer S { cfg with host := h } { cfg' with host := h } :=
  ⟨hc.build, hc.fuel, rfl, hc.interactive⟩

theorem apx_run (hc : Finer S cfg cfg') (hS : ∀ f, S f → f = .panic ∨ f = .diverge) : ∀ (ts : List Tick) (p : Proc),
    procRun cfg p ts = procRun cfg' p ts ∨ ∃ f, S f ∧ (procRun cfg p ts).2 = fatal f
  | [], p => .inl rfl
  | t :: ts, p => by
    rw [procRun, procRun]
    rcases apx_step (finer_host hc t.host) hS (p.meets t.drift) t.event with h | ⟨f, hf, h⟩
    · rw [h]
      generalize procStep { cfg' with host := t.host } (p.meets t.drift) t.event = r
      obtain ⟨q, x⟩ := r
      cases x with
      | running => exact apx_run hc hS ts q
      | over => exact .inl rfl
      | panicked => exact .inl rfl
      | hung => exact .inl rfl
    · right
      refine ⟨f, hf, ?_⟩
      generalize procStep { cfg with host := t.host } (p.meets t.drift) t.event = r at h
      obtain ⟨q, x⟩ := r
      simp only at h
      subst h
      rcases hS f hf with rfl | rfl <;> rfl

end

theorem step_more (cfg : Cfg) (n n' : Nat) (h : n ≤ n') (p : Proc) (e : ReplEvent)
    (hd : (procStep (cfg.steps n) p e).2 ≠ .hung) : procStep (cfg.steps n') p e = procStep (cfg.steps n) p e := by
  rcases apx_step (finer_steps cfg h) (fun f hf => .inr hf) p e with h | ⟨f, rfl, h⟩
  · exact h.symm
  · exact absurd h hd

theorem run_more (cfg : Cfg) (n n' : Nat) (h : n ≤ n') (p : Proc) (ts : List Tick)
    (hd : (procRun (cfg.steps n) p ts).2 ≠ .hung) : procRun (cfg.steps n') p ts = procRun (cfg.steps n) p ts := by
  rcases apx_run (finer_steps cfg h) (fun f hf => .inr hf) ts p with h | ⟨f, rfl, h⟩
  · exact h.symm
  · exact absurd h hd

theorem procPrintln_not_hung (p : Proc) (s : Str) (x : ProcStatus) (hx : x ≠ .hung) : (p.println s x).2 ≠ .hung := by
  unfold Proc.println
  generalize p.rs.ev.println s = r
  obtain ⟨ev, b⟩ := r
  cases b
  · simp
  · exact hx

/-- an event of which the rules say what it does is over in enough steps -/
theorem happens_ends (cfg : Cfg) (hb : cfg.build.ovfChecks = false) (hi : cfg.interactive = true) (p : Proc) (hs : Sess p.rs)
    {e : ReplEvent} {D' : Names} {σ' : State} {l : List ErrLine} {r : ProcStatus}
    (h : Happens True entryText cfg.host (defined p.rs.sem.vars) p.rs.ev e D' σ' l r) :
    ∃ n, (procStep (cfg.steps n) p e).2 ≠ .hung := by
  have hw : (cfg.build.ovfChecks = false) = True := by simp [hb]
  have hin : (cfg.interactive = true) = True := by simp [hi]
  obtain ⟨rs, err⟩ := p
  have back : ∀ {q σ' o}, parse (fixupInput (stripComments (match e with | .line s => s | _ => []))) = some q →
      RunsAll (theWorld cfg.host True True) q rs.ev σ' o → RunsAll (world cfg) q rs.ev σ' o := by
    intro q σ' o hq hr
    refine runsAll_alike (alike cfg).symm ?_ hs.good (parse_literals hq)
    rw [manual, Cfg.wraps, hw, hin]
    exact hr
  have settled : ∀ {s q}, parse (fixupInput (stripComments s)) = some q → AcceptedL (defined rs.sem.vars) False q →
      ∀ n, (evalStmts (cfg.steps n) q rs.ev).2 ≠ .fail .diverge → (procStep (cfg.steps n) ⟨rs, err⟩ (.line s)).2 ≠ .hung := by
    intro s q hq ha n hn
    rcases runtimeEval_cases (cfg.steps n) rs (fixupInput (stripComments s)) with ⟨h0, _⟩ | ⟨q', e', h0, her, _⟩ | ⟨q', h0, hok, he⟩
    · rw [hq] at h0; cases h0
    · rw [hq] at h0; cases h0
      rw [(accepted_session hs q).2 ha] at her
      simp at her
    · rw [hq] at h0; cases h0
      rw [procStep_line]
      dsimp only
      rw [he]
      dsimp only [evalProgram]
      generalize (evalStmts (cfg.steps n) q rs.ev).1 = a
      generalize (evalStmts (cfg.steps n) q rs.ev).2 = x at hn
      cases x with
      | ok => simp [IRes.toEvalResult, afterLine]
      | quit => simp [IRes.toEvalResult, afterLine]
      | brk => simp [IRes.toEvalResult, afterLine]
      | cont => simp [IRes.toEvalResult, afterLine]
      | fail f => cases f <;> simp_all [IRes.toEvalResult, afterLine]
  cases h with
  | interrupted => exact ⟨0, by simp [procStep]⟩
  | eof _ => exact ⟨0, procPrintln_not_hung _ _ _ (by simp)⟩
  | eofFull _ => exact ⟨0, procPrintln_not_hung _ _ _ (by simp)⟩
  | readError _ => exact ⟨0, procPrintln_not_hung _ _ _ (by simp)⟩
  | readErrorFull _ => exact ⟨0, procPrintln_not_hung _ _ _ (by simp)⟩
  | unreadable hp =>
    rename_i s m
    refine ⟨0, ?_⟩
    have hp : parse (fixupInput (stripComments s)) = none := unread_iff.2 ⟨_, hp⟩
    rw [procStep_line]
    simp [runtimeEval, hp, afterLine]
  | refused hp hm hle =>
    rename_i s q m
    refine ⟨0, ?_⟩
    have hp : parse (fixupInput (stripComments s)) = some q := spells_iff.1 hp
    obtain ⟨y, h1, h2⟩ := (refused_session hs q _).1 hm
    rw [procStep_line]
    dsimp only [runtimeEval]
    simp only [hp]
    generalize analyzeStmts q rs.sem = z at h1
    obtain ⟨sem, z⟩ := z
    simp only at h1
    subst h1
    simp [afterLine]
  | runs hp ha _ hr =>
    rename_i s q
    have hp := spells_iff.1 hp
    obtain ⟨n, hn⟩ := (meets_stmts (back hp hr)).2 (by simp)
    refine ⟨n, settled hp ha n ?_⟩
    have := kind_done (hn n (Nat.le_refl n)).2
    dsimp only at this
    rw [this]; simp
  | quits hp ha _ hr =>
    rename_i s q
    have hp := spells_iff.1 hp
    obtain ⟨n, hn⟩ := (meets_stmts (back hp hr)).2 (by simp)
    refine ⟨n, settled hp ha n ?_⟩
    have := kind_quit (hn n (Nat.le_refl n)).2
    dsimp only at this
    rw [this]; simp
  | fails hp ha hle hru hf =>
    rename_i s q m
    have hp := spells_iff.1 hp
    have hf' : FailsAll (world cfg) (complaints cfg) q rs.ev m := by
      refine failsAll_alike (alike cfg).symm (alikeC cfg).symm ?_ hs.good (parse_literals hp)
      rw [manual, manualC, Cfg.wraps, hw, hin]
      exact hf
    obtain ⟨n, hn⟩ := C83_fails cfg rs hs (fixupInput (stripComments s)) q m hp ha hf'
    refine ⟨n, ?_⟩
    obtain ⟨er, h1, -⟩ := hn n (Nat.le_refl n)
    rw [procStep_line]
    dsimp only
    generalize runtimeEval (cfg.steps n) rs (fixupInput (stripComments s)) = z at h1
    obtain ⟨rs', z⟩ := z
    simp only at h1
    subst h1
    simp [afterLine]

theorem entry_lits : ∀ s p, Spells (entryText s) p → allE Lits p := fun _ _ hp => parse_literals (spells_iff.1 hp)

/-- a conversation by the rules is over in enough steps -/
theorem converses_ends (cfg : Cfg) (hb : cfg.build.ovfChecks = false) (hi : cfg.interactive = true) {D D' : Names}
    {σ σ' : State} {ts : List Tick} {l : List ErrLine} {r : ProcStatus} (h : Converses True entryText D σ ts D' σ' l r) :
    ∀ p : Proc, Sess p.rs → defined p.rs.sem.vars = D → p.rs.ev = σ → ∃ n, (procRun (cfg.steps n) p ts).2 ≠ .hung := by
  induction h with
  | waits => exact fun p _ _ _ => ⟨0, by simp [procRun]⟩
  | @next D σ t ts D₁ σ₁ l D' σ' ls r hh _ ih =>
    rintro p hs rfl rfl
    have hs' : Sess (p.meets t.drift).rs := sess_ev hs rfl
    obtain ⟨n, hn⟩ := happens_ends { cfg with host := t.host } hb hi (p.meets t.drift) hs' hh
    obtain ⟨h1, l', h2, h3⟩ := step_happens (Cfg.steps { cfg with host := t.host } n) hb hi (p.meets t.drift) hs' t.event hn
    obtain ⟨e1, e2, e3, e4⟩ := happens_unique entry_lits hs'.good hh h3
    obtain ⟨m, hm⟩ := ih (procStep (Cfg.steps { cfg with host := t.host } n) (p.meets t.drift) t.event).1 h1 e1.symm e2.symm
    refine ⟨max n m, ?_⟩
    have h5 := step_more { cfg with host := t.host } n (max n m) (Nat.le_max_left _ _) _ _ hn
    have h6 := run_more cfg m (max n m) (Nat.le_max_right _ _) _ _ hm
    rw [procRun]
    have hst : { cfg.steps (max n m) with host := t.host } = Cfg.steps { cfg with host := t.host } (max n m) := rfl
    rw [hst, h5]
    generalize procStep (Cfg.steps { cfg with host := t.host } n) (p.meets t.drift) t.event = z at e4 hm h6
    obtain ⟨q, x⟩ := z
    simp only at e4
    subst e4
    dsimp only at hm h6 ⊢
    rw [h6]
    exact hm
  | @ends D σ t ts D' σ' l r hh hne =>
    rintro p hs rfl rfl
    have hs' : Sess (p.meets t.drift).rs := sess_ev hs rfl
    obtain ⟨n, hn⟩ := happens_ends { cfg with host := t.host } hb hi (p.meets t.drift) hs' hh
    obtain ⟨h1, l', h2, h3⟩ := step_happens (Cfg.steps { cfg with host := t.host } n) hb hi (p.meets t.drift) hs' t.event hn
    obtain ⟨-, -, -, e4⟩ := happens_unique entry_lits hs'.good hh h3
    refine ⟨n, ?_⟩
    rw [procRun]
    have hst : { cfg.steps n with host := t.host } = Cfg.steps { cfg with host := t.host } n := rfl
    rw [hst]
    generalize procStep (Cfg.steps { cfg with host := t.host } n) (p.meets t.drift) t.event = z at e4 hn
    obtain ⟨q, x⟩ := z
    simp only at e4 hn
    rw [e4] at hne
    cases x with
    | running => exact absurd rfl hne
    | over => simp
    | panicked => simp
    | hung => exact absurd rfl hn

end Btrd
