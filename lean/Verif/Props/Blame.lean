/-
C19: what is to blame for an accepted entry that reads an unassigned variable. The five gaps shown in
Props/Analysis are all there are.
-/
import Verif.Lemmas.Slips
import Verif.Props.Analysis
import Verif.Props.Session
import Verif.Props.Unread

namespace Btrd
open Spec

theorem ordinary_notUnknown (x : Str) : Ordinary fun f => f ≠ .err (.unknownVar x) where
  err := by intro e he h; injection h with h; rw [h] at he; simp at he
  diverge := by simp

theorem known_enough (cfg : Cfg) (x : Str) (p : List Stmt) (st : State) (hst : st.vars ≠ [])
    (hp : StrictL (butFor x (defined st.vars)) p) : (evalProgram cfg p st).2 ≠ .fail (.err (.unknownVar x)) := by
  have h2 := onlyI_stmts (cfg := cfg) (ordinary_notUnknown x) (.inl (by simp)) p _ st
    (allE_mono (fun e _ => .inl (by simp)) p (allE_true p)) hp
    ⟨fun y hy => by
      by_cases hyx : y = x
      · exact .inl (hy hyx)
      · exact .inr fun h => hyx (by injection h with h; injection h), .inl (by simp), hst⟩
  intro hx
  simp only [evalProgram] at hx
  generalize (evalStmts cfg p st).2 = r at h2 hx
  cases r <;> simp [IRes.toEvalResult] at hx
  subst hx
  exact h2 _ rfl rfl

/-- **C19, partial**: what is to blame. If an accepted program fails with "Unknown variable x", then `x`
did not exist when it started, the program reads `x`, and either it reads `x` in one of the three places
where the analyzer is lax (`Spec.SlipsL`), or the analyzer knew `x` from an earlier entry. -/
theorem C19_blame_partial (cfg : Cfg) (rs : RState) (p : List Stmt) (x : Str) (hsem : rs.sem.vars ≠ [])
    (hev : rs.ev.vars ≠ []) (hok : (analyzeStmts p rs.sem).2 = .ok ())
    (hf : (evalProgram cfg p rs.ev).2 = .fail (.err (.unknownVar x))) :
    rs.ev.vars.get x = none ∧ x ∈ readsL p ∧ (SlipsL x p ∨ rs.sem.vars.get x ≠ none) := by
  have ha := (C18_accepts_iff p rs.sem hsem).1 hok
  have h1 : rs.ev.vars.get x = none := by
    apply Classical.byContradiction
    intro hx
    refine known_enough cfg x p rs.ev hev ?_ hf
    have : butFor x (defined rs.ev.vars) = fun _ => True := by
      funext y
      simp only [butFor, eq_iff_iff, iff_true]
      rintro rfl
      exact hx
    rw [this]
    exact strictL_all p
  have h2 : SlipsL x p ∨ x ∈ readsL p ∧ rs.sem.vars.get x ≠ none := by
    apply Classical.byContradiction
    intro hn
    rw [not_or] at hn
    exact known_enough cfg x p rs.ev hev
      (slipsL_strict x p (defined rs.ev.vars) _ (fun hr hd => absurd ⟨hr, hd⟩ hn.2) ha hn.1) hf
  refine ⟨h1, ?_, h2.imp_right (·.2)⟩
  rcases h2 with h | h
  · exact slipsL_reads x p h
  · exact h.1

/-- one entry: if afterwards the analyzer knows a variable that does not exist, that was so before, or the
entry assigns it and did not run to its end -/
theorem blame_step (cfg : Cfg) (rs : RState) (text : Str) (x : Str) (hs : Sess rs)
    (hk : (runtimeEval cfg rs text).1.sem.vars.get x ≠ none)
    (hl : (runtimeEval cfg rs text).1.ev.vars.get x = none) :
    (rs.sem.vars.get x ≠ none ∧ rs.ev.vars.get x = none) ∨
    (∃ q, Spells text q ∧ x ∈ gainsL q) ∧ (runtimeEval cfg rs text).2 ≠ .ok := by
  rcases runtimeEval_cases cfg rs text with ⟨-, he⟩ | ⟨p, e, hp, -, he⟩ | ⟨p, hp, hok, he⟩ <;> rw [he] at hk hl ⊢
  · exact .inl ⟨hk, hl⟩
  · have ha := analyzed_stmts p rs.sem hs.semNe
    rcases ha.atMost x hk with h | h
    · exact .inl ⟨h, hl⟩
    · exact .inr ⟨⟨p, spells_iff.2 hp, h⟩, by simp⟩
  · have ha := analyzed_stmts p rs.sem hs.semNe
    have hg : rs.ev.vars.get x = none := by
      apply Classical.byContradiction
      intro hn
      exact gained_defined (evalStmts_rel (gained_closed cfg) p (allT_true p) rs.ev) (show defined rs.ev.vars x from hn) hl
    rcases ha.atMost x hk with h | h
    · exact .inl ⟨h, hg⟩
    · refine .inr ⟨⟨p, spells_iff.2 hp, h⟩, fun ho => ?_⟩
      have h2 := congrFun (evalStmts_defined cfg p rs.ev (by
        simp only [evalProgram] at ho
        generalize (evalStmts cfg p rs.ev).2 = r at ho
        cases r <;> simp [IRes.toEvalResult] at ho
        rfl)) x
      have : defined (evalStmts cfg p rs.ev).1.vars x := by rw [h2]; exact .inr h
      exact this hl

/-- an earlier entry that was answered with an error and assigns `x` at its outermost level -/
def Blamed (cfg : Cfg) (rs : RState) (x : Str) (events : List ReplEvent) : Prop :=
  ∃ e₁ s e₂, events = e₁ ++ .line s :: e₂ ∧ (∃ q, Spells (entryText s) q ∧ x ∈ gainsL q) ∧
    ∃ e, (runtimeEval cfg (replRun cfg rs e₁).1 (entryText s)).2 = .fail (.err e)

theorem blamed_later {cfg : Cfg} {rs rs' : RState} {x : Str} {e : ReplEvent} {es : List ReplEvent}
    (h : replStep cfg rs e = (rs', .running)) (hb : Blamed cfg rs' x es) : Blamed cfg rs x (e :: es) := by
  obtain ⟨e₁, s, e₂, rfl, hq, er, he⟩ := hb
  refine ⟨e :: e₁, s, e₂, rfl, hq, er, ?_⟩
  rw [replRun, h]
  exact he

theorem blamed_session (cfg : Cfg) (x : Str) : ∀ (events : List ReplEvent) (rs : RState), Sess rs →
    (replRun cfg rs events).2 = .running → (replRun cfg rs events).1.sem.vars.get x ≠ none →
    (replRun cfg rs events).1.ev.vars.get x = none →
    (rs.sem.vars.get x ≠ none ∧ rs.ev.vars.get x = none) ∨ Blamed cfg rs x events := by
  intro events
  induction events with
  | nil => intro rs _ _ hk hl; exact .inl ⟨hk, hl⟩
  | cons e es ih =>
    intro rs hs hr hk hl
    cases hst : replStep cfg rs e with
    | mk rs' status =>
      cases status with
      | exited => rw [replRun, hst] at hr; simp at hr
      | crashed f => rw [replRun, hst] at hr; simp at hr
      | running =>
        rw [replRun, hst] at hr hk hl
        dsimp only at hr hk hl
        cases e with
        | line t =>
          have h1 := replStep_line cfg rs t
          rw [hst] at h1
          obtain ⟨h1, h2⟩ := Prod.mk.inj h1
          have hs' : Sess rs' := by rw [h1]; exact sess_step cfg rs _ hs
          rcases ih rs' hs' hr hk hl with h | h
          · rw [h1] at h
            rcases blame_step cfg rs _ x hs h.1 h.2 with h | ⟨hq, hn⟩
            · exact .inl h
            · refine .inr ⟨[], t, es, rfl, hq, ?_⟩
              show ∃ e, (runtimeEval cfg rs (fixupInput (stripComments t))).2 = .fail (.err e)
              generalize (runtimeEval cfg rs (fixupInput (stripComments t))).2 = r at h2 hn
              cases r with
              | ok => exact absurd rfl hn
              | quit => simp at h2
              | fail f =>
                cases f with
                | err e => exact ⟨e, rfl⟩
                | panic => simp at h2
                | diverge => simp at h2
          · exact .inr (blamed_later hst h)
        | interrupted =>
          have : rs = rs' := by simpa [replStep] using hst
          subst this
          exact (ih rs hs hr hk hl).imp_right (blamed_later hst)
        | eof => simp [replStep] at hst
        | otherError =>
          have : rs = rs' := by simpa [replStep] using hst
          subst this
          exact (ih rs hs hr hk hl).imp_right (blamed_later hst)

/-- **C19, partial**: the five gaps are all there are. Whenever, in a session, an entry that the analyzer
accepts fails with "Unknown variable x", either the entry itself reads `x` in one of the three lax places,
or an earlier entry was answered with an error and assigns `x` at its outermost level. Missing: the
analyzer should have rejected the entry. -/
theorem C19_ways_partial (cfg : Cfg) (room : Option Nat) (events : List ReplEvent) (s : Str) (p : List Stmt) (x : Str)
    (hr : (replRun cfg (RState.new cfg room) events).2 = .running) (hp : Spells (entryText s) p)
    (hok : (analyzeStmts p (replRun cfg (RState.new cfg room) events).1.sem).2 = .ok ())
    (hf : (runtimeEval cfg (replRun cfg (RState.new cfg room) events).1 (entryText s)).2 = .fail (.err (.unknownVar x))) :
    SlipsL x p ∨
    ∃ e₁ s' e₂ q e, events = e₁ ++ .line s' :: e₂ ∧ Spells (entryText s') q ∧ x ∈ gainsL q ∧
      (runtimeEval cfg (replRun cfg (RState.new cfg room) e₁).1 (entryText s')).2 = .fail (.err e) := by
  have hs := session cfg room events
  have hp' := spells_iff.1 hp
  have hf' : (evalProgram cfg p (replRun cfg (RState.new cfg room) events).1.ev).2 = .fail (.err (.unknownVar x)) := by
    rcases runtimeEval_cases cfg (replRun cfg (RState.new cfg room) events).1 (entryText s) with
      ⟨h, -⟩ | ⟨q, e, h, he, -⟩ | ⟨q, h, he, hv⟩
    · rw [h] at hp'; simp at hp'
    · rw [h] at hp'; injection hp' with hp'; subst hp'
      rw [hok] at he; simp at he
    · rw [h] at hp'; injection hp' with hp'; subst hp'
      rw [hv] at hf; exact hf
  obtain ⟨h1, -, h | h⟩ := C19_blame_partial cfg _ p x hs.semNe hs.ne hok hf'
  · exact .inl h
  · rcases blamed_session cfg x events _ (sess_initial cfg room) hr h h1 with h | h
    · exact absurd (((C19_agreement_partial cfg room).1 x).1 h.1) (by simp [h.2])
    · obtain ⟨e₁, s', e₂, he, ⟨q, hq, hg⟩, e, hr⟩ := h
      exact .inr ⟨e₁, s', e₂, q, e, he, hq, hg, hr⟩

/-- **C19**, exactly: a variable the analyzer knows and the evaluator lacks is the one thing an entry
naming a single variable can fall over. In every session the entry `x;` is accepted and then fails with
"Unknown variable x" iff the analyzer knows `x` and no value has been given to it. -/
theorem C19_exact_name (cfg : Cfg) (room : Option Nat) (events : List ReplEvent) (x : Str) (rs : RState)
    (hrs : rs = (replRun cfg (RState.new cfg room) events).1) :
    ((analyzeStmts [.expr (.ident x)] rs.sem).2 = .ok () ∧
      (evalProgram cfg [.expr (.ident x)] rs.ev).2 = .fail (.err (.unknownVar x))) ↔
    rs.sem.vars.get x ≠ none ∧ rs.ev.vars.get x = none := by
  have hs := session cfg room events
  rw [← hrs] at hs
  rw [C18_accepts_iff _ _ hs.semNe]
  simp only [AcceptedL, Accepted, Spec.Reads, Expr.Sound, Expr.uses, List.mem_singleton, forall_eq, true_and, and_true]
  refine and_congr_right fun hk => ⟨fun h => ?_, fun h => ?_⟩
  · exact (C19_blame_partial cfg rs _ x hs.semNe hs.ne
      ((C18_accepts_iff _ _ hs.semNe).2 (by
        simp only [AcceptedL, Accepted, Spec.Reads, Expr.Sound, Expr.uses, List.mem_singleton, forall_eq, true_and, and_true]
        exact hk)) h).1
  · simp [evalProgram, evalStmts, evalStmt, evalExprStmt, evalExpr, h, orErr, IRes.toEvalResult]

/-- a script has no earlier entries: an accepted script that fails with "Unknown variable x" reads `x` in
one of the three lax places -/
theorem C19_script_ways_partial (cfg : Cfg) (room : Option Nat) (p : List Stmt) (x : Str)
    (hok : (analyzeStmts p (RState.new cfg room).sem).2 = .ok ())
    (hf : (evalProgram cfg p (RState.new cfg room).ev).2 = .fail (.err (.unknownVar x))) : SlipsL x p := by
  obtain ⟨h1, -, h | h⟩ := C19_blame_partial cfg _ p x (sess_initial cfg room).semNe (sess_initial cfg room).ne hok hf
  · exact h
  · exact absurd (((C19_agreement_partial cfg room).1 x).1 h) (by simp [h1])

/-- both ways happen: the entry `x = x;` reads `x` in a lax place -/
example : SlipsL s!' "x" [.assign (.ident s!' "x") (.ident s!' "x")] := by
  simp [SlipsL, Slips, Expr.uses]

/-- and after the entry `x = 1 / 0`, answered with an error, the entry `x;` fails though it reads `x` in
no lax place -/
example : slipsThrough [s!' "x = 1 / 0"] s!' "x;" = true ∧ ¬ SlipsL s!' "x" [.expr (.ident s!' "x")] :=
  ⟨C19_false_failed_line, by simp [SlipsL, Slips]⟩

end Btrd
