/-
C104: statements can be exchanged for others that mean the same.
-/
import Verif.Lemmas.KeptScopes
import Verif.Props.Exchange

namespace Btrd
open Spec

/-! ### programs -/

theorem place_same {p p' : List Stmt} (h : SameEffect p p') : InPlace True p p' :=
  ⟨fun a _ => h.checked a, fun cfg st hu fuel ω t _ => h.evaluated cfg st hu fuel ω t⟩

theorem place_stands {p p' : List Stmt} (h : StandsIn p p') : InPlace False p p' :=
  ⟨fun a hc => by
    rcases hc with hc | ⟨u, hu⟩
    · exact hc.elim
    · exact h.checked a hu,
   fun cfg st hu fuel ω t hc => h.evaluated cfg st hu fuel ω t (hc.resolve_left id)⟩

theorem place_end {p p' : List Stmt} (h : EndsIn p p') : InPlaceEnd False p p' :=
  ⟨fun a hc => by
    rcases hc with hc | ⟨u, hu⟩
    · exact hc.elim
    · rw [h.checked a hu, hu],
   fun cfg st hu fuel ω t hc => h.evaluated cfg st hu fuel ω t (hc.resolve_left id)⟩

section
variable {S : Prop} {R B : List Stmt → List Stmt → Prop} (hR : ∀ p p', R p p' → InPlace S p p')
  (hB : ∀ p p', B p p' → InPlaceEnd S p p')

include hR hB in
theorem entry_rewritten (cfg : Cfg) (rs : RState) (hu : Usual rs.ev) {t t' : Str} {p p' : List Stmt} (ht : Spells t p) (ht' : Spells t' p')
    (h : RewrittenProg R B p p') :
    Along (fun r : RState × EvalResult => S ∨ ∀ f, r.2 ≠ .fail f) (runtimeEvalT cfg rs t) (runtimeEvalT cfg rs t') := by
  unfold runtimeEvalT
  rw [spells_iff.1 ht, spells_iff.1 ht']
  dsimp only
  obtain ⟨ha, he⟩ := prog_rewritten hR hB h
  have ha := ha rs.sem
  generalize analyzeStmts p rs.sem = a at ha
  generalize analyzeStmts p' rs.sem = b at ha
  obtain ⟨a, r⟩ := a
  cases r with
  | ok _ =>
    rw [ha (.inr ⟨_, rfl⟩)]
    refine Along.bind (he cfg (parse_literals (spells_iff.1 ht)) rs.ev hu) (fun _ => Along.refl _) (fun a fuel ω n hq => ?_)
    obtain ⟨st, r⟩ := a
    rcases hq with hq | hq
    · exact .inl hq
    · refine .inr fun f hf => ?_
      dsimp only at hf
      subst hf
      exact hq f rfl
  | error e =>
    intro fuel ω n hq
    rcases hq with hq | hq
    · rw [ha (.inl hq)]
    · exact absurd rfl (hq e)

end

/-- **C104** Statements may be exchanged for others that mean the same, anywhere and any number of times in a program: in
any interpreter and any world that changes meanwhile, both programs make the same requests at the same moments with the
same warnings, and end with the same state, output and result, be it a success or an error. -/
theorem C104_entry (cfg : Cfg) (rs : RState) (hu : Usual rs.ev) (t t' : Str) (p p' : List Stmt) (ht : Spells t p) (ht' : Spells t' p')
    (h : RewrittenProg SameEffect SameEffect p p') (fuel : Nat) (ω : Live) (n : Nat) :
    (runtimeEvalT cfg rs t').live fuel ω n = (runtimeEvalT cfg rs t).live fuel ω n :=
  entry_rewritten (fun _ _ h => place_same h) (fun _ _ h => (place_same h).atEnd) cfg rs hu ht ht' h fuel ω n (.inl trivial)

/-- **C104** For statements that stand in for others it is enough to look at the runs without an error: if a program ends
without one, then the program with the other statements does all the same. -/
theorem C104_entry_stands (cfg : Cfg) (rs : RState) (hu : Usual rs.ev) (t t' : Str) (p p' : List Stmt) (ht : Spells t p) (ht' : Spells t' p')
    (h : RewrittenProg StandsIn EndsIn p p') (fuel : Nat) (ω : Live) (n : Nat)
    (hok : ∀ f, ((runtimeEvalT cfg rs t).live fuel ω n).result.2 ≠ .fail f) :
    (runtimeEvalT cfg rs t').live fuel ω n = (runtimeEvalT cfg rs t).live fuel ω n :=
  entry_rewritten (fun _ _ h => place_stands h) (fun _ _ h => place_end h) cfg rs hu ht ht' h fuel ω n (.inr hok)

/-- **C104** The same for scripts: output, standard error, exit status, requests. -/
theorem C104_script (cfg : Cfg) (room : Option Nat) (ω : Live) (s s' : Str) (p p' : List Stmt)
    (hs : Spells (stripComments s) p) (hs' : Spells (stripComments s') p') (h : RewrittenProg SameEffect SameEffect p p') :
    scriptMainL cfg room ω (some (encoded s')) = scriptMainL cfg room ω (some (encoded s)) := by
  simp only [scriptMainL, decoded]
  rw [C104_entry _ _ (usual_new _ _) _ _ p p' hs hs' h]

/-- **C104** A script that succeeds does the same with statements that stand in for its own. -/
theorem C104_script_stands (cfg : Cfg) (room : Option Nat) (ω : Live) (s s' : Str) (p p' : List Stmt)
    (hs : Spells (stripComments s) p) (hs' : Spells (stripComments s') p') (h : RewrittenProg StandsIn EndsIn p p')
    (hok : (scriptMainL cfg room ω (some (encoded s))).1.exit = .success) :
    scriptMainL cfg room ω (some (encoded s')) = scriptMainL cfg room ω (some (encoded s)) := by
  simp only [scriptMainL, decoded] at hok ⊢
  rw [C104_entry_stands _ _ (usual_new _ _) _ _ p p' hs hs' h]
  intro f hf
  rw [hf] at hok
  cases f <;> simp [scriptExit] at hok

theorem step_rewritten (cfg : Cfg) (ω : Live) (p : Proc) (hu : Usual p.rs.ev) {e e' : ReplEvent}
    (he : RewrittenEvent SameEffect SameEffect entryText e e') : procStepL cfg ω p e' = procStepL cfg ω p e := by
  cases he with
  | same e => rfl
  | program hs hs' h =>
    exact congrArg (procLine p.err) (C104_entry cfg p.rs hu _ _ _ _ hs hs' h cfg.fuel ω 0)

theorem run_rewritten (cfg : Cfg) : ∀ {ts ts' : List LiveTick}, List.Forall₂ (RewrittenTick SameEffect SameEffect entryText) ts ts' →
    ∀ p, Usual p.rs.ev → procRunL cfg p ts' = procRunL cfg p ts
  | _, _, .nil, p, _ => rfl
  | t :: ts, t' :: ts', .cons ht hts, p, hu => by
    have hu : AllVars Good (p.meets t.drift).rs.ev.vars := hu
    have hu' := lasting_step good_lasting (fun _ h => h) cfg t.world (p.meets t.drift) t.event hu
    rw [procRunL, procRunL, ht.drift, ht.world, step_rewritten cfg t.world _ hu ht.event]
    generalize procStepL cfg t.world (p.meets t.drift) t.event = a at hu'
    obtain ⟨⟨a, x⟩, la⟩ := a
    cases x
    · dsimp only
      rw [run_rewritten cfg hts a hu']
    all_goals rfl

/-- **C104** The same for sessions, entry by entry: output, standard error, exit status, requests and warnings. -/
theorem C104_session (cfg : Cfg) (room : Option Nat) (editor saved : Bool) (ts ts' : List LiveTick)
    (h : List.Forall₂ (RewrittenTick SameEffect SameEffect entryText) ts ts') :
    replMainL cfg room editor saved ts' = replMainL cfg room editor saved ts := by
  cases editor
  · rfl
  · have hu : Usual (procStart cfg room).1.rs.ev := C101_usual cfg room []
    simp only [replMainL, if_true]
    generalize procStart cfg room = st at hu
    obtain ⟨p, x⟩ := st
    cases x
    · dsimp only
      rw [run_rewritten _ h _ hu]
    all_goals rfl

/-! ### what means the same -/

theorem effect_same {p p' : List Stmt} (hc : ∀ a, analyzeStmts p' a = analyzeStmts p a)
    (he : ∀ cfg st, SubS True (evalStmtsT cfg p st) (evalStmtsT cfg p' st)) : SameEffect p p' :=
  ⟨hc, fun cfg st _ fuel ω t => he cfg st fuel ω t (.inl trivial)⟩

theorem same_stands {p p' : List Stmt} (h : SameEffect p p') : StandsIn p p' :=
  ⟨fun a _ => h.checked a, fun cfg st hu fuel ω t _ => h.evaluated cfg st hu fuel ω t⟩

theorem stands_ends {p p' : List Stmt} (h : StandsIn p p') : EndsIn p p' :=
  ⟨fun a ha => by rw [h.checked a ha, ha], h.evaluated⟩

theorem stands {p p' : List Stmt} (hc : ∀ a, (analyzeStmts p a).2 = .ok () → analyzeStmts p' a = analyzeStmts p a)
    (he : ∀ cfg st, SubS False (evalStmtsT cfg p st) (evalStmtsT cfg p' st)) : StandsIn p p' :=
  ⟨hc, fun cfg st _ fuel ω t h => he cfg st fuel ω t (.inr h)⟩

theorem ends {p p' : List Stmt} (hc : ∀ a, (analyzeStmts p a).2 = .ok () → (analyzeStmts p' a).2 = .ok ())
    (he : ∀ cfg st, SubS False (evalStmtsT cfg p st) (evalStmtsT cfg p' st)) : EndsIn p p' :=
  ⟨hc, fun cfg st _ fuel ω t h => he cfg st fuel ω t (.inr h)⟩

theorem check_single (s : Stmt) (a : AState) : analyzeStmts [s] a = analyzeStmt s a := by
  rw [analyzeStmts]
  obtain ⟨b, r⟩ := analyzeStmt s a
  cases r <;> rfl

/-- what a check in a scope of its own gives -/
theorem scoped_result (d : Nat) (a : AState) {f : AState → AState × R Unit} (hi : Inner f) :
    scopedA d a f = (a, (f ⟨a.vars.push, a.loopDepth + d⟩).2) := by
  refine Prod.ext (outer_scope d hi a) ?_
  obtain ⟨s, h⟩ := hi Scope.empty a.vars (a.loopDepth + d)
  unfold scopedA
  rw [show a.vars.push = Scope.empty :: a.vars from rfl]
  simp only [h, Vars.pop]

/-- what the check of an `if` gives -/
theorem check_ite (c : Expr) (t f : List Stmt) (a : AState) : analyzeStmt (.ite c t f) a =
    (a, match analyzeExpr a.vars.push c with
      | .ok _ => (andThenA (analyzeStmts t ⟨a.vars.push, a.loopDepth⟩) (analyzeStmts f)).2
      | .error e => .error e) := by
  rw [analyzeStmt]
  refine (scoped_result 0 a (inner_if (g := fun a => analyzeExpr a.vars c) (inner_then (inner_stmts t) (inner_stmts f)))).trans ?_
  dsimp only [Nat.add_zero]
  cases analyzeExpr a.vars.push c <;> rfl

/-- what the check of a `while` gives -/
theorem check_while (c : Expr) (b : List Stmt) (a : AState) : analyzeStmt (.while c b) a =
    (a, match analyzeExpr a.vars.push c with
      | .ok _ => (analyzeStmts b ⟨a.vars.push, a.loopDepth + 1⟩).2
      | .error e => .error e) := by
  rw [analyzeStmt]
  refine (scoped_result 1 a (inner_if (g := fun a => analyzeExpr a.vars c) (inner_stmts b))).trans ?_
  dsimp only
  cases analyzeExpr a.vars.push c <;> rfl

theorem then_nil (r : AState × R Unit) : andThenA r (analyzeStmts []) = r := by
  obtain ⟨a, r⟩ := r
  cases r <;> rfl

/-- an empty scope inside is no scope -/
theorem push_get {T : Type} (vs : Vars T) (x : Str) : vs.push.get x = vs.get x := rfl

theorem check_push (vs : Vars Unit) (e : Expr) : analyzeExpr vs.push e = analyzeExpr vs e :=
  analyze_depends (push_get vs) e

theorem merge_pushed {T : Type} : ∀ vs : Vars T, vs ≠ [] → mergeAt 0 vs.push = vs
  | [], h => absurd rfl h
  | s :: r, _ => rfl

/-- the statements of a program in another scope are accepted as they are -/
theorem checks_push (p : List Stmt) (vs : Vars Unit) (h : vs ≠ []) (d : Nat) :
    (analyzeStmts p ⟨vs.push, d⟩).2 = (analyzeStmts p ⟨vs, d⟩).2 := by
  have := checks_merge p 0 ⟨vs.push, d⟩
  unfold mergeA at this
  dsimp only at this
  rw [merge_pushed vs h] at this
  rw [this]
  rfl

/-- the end of a scope -/
def leave (r : State × IRes) : State × IRes :=
  match r.1.vars.pop with
  | .ok vs => ({ r.1 with vars := vs }, r.2)
  | .error e => (r.1, .fail e)

theorem scope_eq (st : State) (body : State → T (State × IRes)) :
    inScopeT st body = (body { st with vars := st.vars.push }).bind fun r => .ret (leave r) := rfl

/-- leaving two scopes, or leaving one that was made of two -/
theorem leave_merged (r : State × IRes) (d : Nat) (h : r.1.vars.length = d + 2) : leave (mergeRun 0 r) = leave (leave r) := by
  obtain ⟨⟨sink, vars, fs⟩, r⟩ := r
  match vars, h with
  | s :: t :: vs, _ => rfl

theorem condition_and (cfg : Cfg) (st : State) (a b : Expr) :
    evalCondT cfg st (.bin .land a b) = evalCondT cfg st a >>= fun x => if x then evalCondT cfg st b else E.of (.ok false) := by
  have : ∀ e, evalCondT cfg st e = theBool (evalExprT cfg st e) := fun _ => rfl
  simp only [this, evalExprT, land_eq, theBool_bind]
  refine bind_congr _ fun x => ?_
  cases x
  · rfl
  · simp only [if_true, theBool_bind, theBool_of]
    exact ebind_pure _

theorem into_bind {α β : Type} (x : E α) (f : α → E β) (st : State) (k : β → T (State × IRes)) :
    (x >>= f).into st k = x.into st fun a => (f a).into st k := by
  refine (tbind_assoc (α := R α) _ _ x).trans ?_
  refine congrArg (fun f => T.bind (α := R α) f x) (funext fun r => ?_)
  cases r <;> rfl

/-- the same computation, and what follows it -/
theorem sub_into {α : Type} {S : Prop} (x : E α) {st st' : State} {k k' : α → T (State × IRes)} {g g' : State × IRes → T (State × IRes)}
    (he : ∀ e, SubS S (g (st, .fail e)) (g' (st', .fail e))) (hk : ∀ a, SubS S ((k a).bind g) ((k' a).bind g')) :
    SubS S ((x.into st k).bind g) ((x.into st' k').bind g') := by
  refine cast (congr (congrArg (SubS S) (tbind_assoc (α := R α) _ _ x).symm) (tbind_assoc (α := R α) _ _ x).symm) ?_
  refine Along.bind (α := R α) (P := fun _ => True) (fun _ _ _ _ => rfl) (fun r => ?_) fun _ _ _ _ _ => trivial
  cases r with
  | ok a => exact hk a
  | error e => exact he e

theorem live_equal {x y : T (State × IRes)} (h : x = y) : SubS True y x := h ▸ Along.refl _

/-- two ways to go on that agree on the ends there can be -/
theorem along_known {x : T (State × IRes)} {S : Prop} {Q : State × IRes → Prop} (hx : Leads Q x) {f g : State × IRes → T (State × IRes)}
    (hf : ∀ r, Q r → SubS S (f r) (g r)) : SubS S (x.bind f) (x.bind g) :=
  Along.bindKnown (P := fun _ => True) hx (fun _ _ _ _ => rfl) hf fun _ _ _ _ _ => trivial

theorem along_same {α : Type} {S : Prop} (x : T α) {f g : α → T (State × IRes)} (hf : ∀ r, SubS S (f r) (g r)) :
    SubS S (x.bind f) (x.bind g) :=
  Along.bind (P := fun _ => True) (fun _ _ _ _ => rfl) hf fun _ _ _ _ _ => trivial

/-- **C104** An `if` that is all there is in an `if` is an `if` with both conditions. -/
theorem C104_nested_if (a b : Expr) (A : List Stmt) :
    SameEffect [.ite a [.ite b A []] []] [.ite (.bin .land a b) A []] := by
  refine effect_same (fun k => ?_) fun cfg st => ?_
  · rw [check_single, check_single, check_ite, check_ite, check_single, check_ite]
    simp only [then_nil, check_push]
    rw [checks_push A k.vars.push (by simp [Vars.push])]
    rw [analyzeExpr]
    cases analyzeExpr k.vars a with
    | ok _ => rfl
    | error e => rfl
  · rw [eval_single, eval_single, evalStmtT, evalStmtT, scope_eq, scope_eq]
    generalize hst : ({ st with vars := st.vars.push } : State) = st1
    rw [condition_and, into_bind]
    refine sub_into _ (fun _ => Along.refl _) fun x => ?_
    cases x
    · exact Along.refl _
    · simp only [if_true]
      rw [eval_single, evalStmtT, scope_eq, evalStmtsT]
      generalize hst2 : ({ st1 with vars := st1.vars.push } : State) = st2
      have hm : st1 = mergeSt 0 st2 := by subst hst hst2; rfl
      have hl : st2.vars.length = st.vars.length + 2 := by subst hst hst2; rfl
      rw [show evalCondT cfg st2 b = evalCondT cfg st1 b by rw [hm, cond_merge], tbind_assoc]
      refine sub_into _ (fun _ => by subst hst hst2; exact Along.refl _) fun x => ?_
      cases x
      · subst hst hst2; exact Along.refl _
      · simp only [if_true]
        rw [hm, stmts_merge]
        unfold mergeT
        rw [tbind_assoc]
        refine along_known (stmts_level cfg A st2) fun r hr => ?_
        show SubS True (T.ret (leave (leave r))) (T.ret (leave (mergeRun 0 r)))
        rw [leave_merged r st.vars.length (hr.trans hl)]
        exact Along.refl _

theorem into_seq {α : Type} (x : E α) (st : State) (k : α → T (State × IRes)) {g : State × IRes → T (State × IRes)}
    (hg : ∀ e, g (st, .fail e) = .ret (st, .fail e)) : (x.into st k).bind g = x.into st fun a => (k a).bind g := by
  refine (tbind_assoc (α := R α) _ _ x).trans ?_
  refine congrArg (fun f => T.bind (α := R α) f x) (funext fun r => ?_)
  cases r with
  | ok a => rfl
  | error e => exact hg e

theorem into_of {α : Type} (a : α) (st : State) (k : α → T (State × IRes)) : (E.of (.ok a)).into st k = k a := rfl

theorem then_of (a : AState) (f : AState → AState × R Unit) : andThenA (a, .ok ()) f = f a := rfl

theorem into_congr {α : Type} (x : E α) (st : State) {k k' : α → T (State × IRes)} (h : ∀ a, k a = k' a) :
    x.into st k = x.into st k' := by
  rw [funext h]

/-- an `if` without anything that could stay -/
theorem eval_quick (cfg : Cfg) (c : Expr) (st : State) (t f : List Stmt) (rt rf : IRes)
    (ht : ∀ st, evalStmtsT cfg t st = .ret (st, rt)) (hf : ∀ st, evalStmtsT cfg f st = .ret (st, rf)) :
    evalStmtT cfg (.ite c t f) st = (evalCondT cfg st c).into st fun b => .ret (st, if b then rt else rf) := by
  rw [evalStmtT, scope_eq]
  have hc : evalCondT cfg { st with vars := st.vars.push } c = evalCondT cfg st c :=
    cond_depends (st := st) (st' := { st with vars := st.vars.push }) cfg (fun x => push_get st.vars x) rfl c
  rw [hc]
  refine (tbind_assoc (α := R Bool) _ _ _).trans ?_
  refine congrArg (fun f => T.bind (α := R Bool) f (evalCondT cfg st c)) (funext fun r => ?_)
  cases r with
  | error e => rfl
  | ok b =>
    cases b
    · dsimp only
      rw [if_neg (by simp), hf]
      rfl
    · dsimp only
      rw [if_pos rfl, ht]
      rfl

theorem cond_bool (cfg : Cfg) (st : State) (b : Bool) : evalCondT cfg st (.bool b) = E.of (.ok b) := by
  unfold evalCondT
  rw [evalExprT]
  rfl

theorem eval_brk (cfg : Cfg) (st : State) : evalStmtsT cfg [.brk] st = .ret (st, .brk) := by
  rw [eval_single, evalStmtT]

theorem loop_true (cfg : Cfg) (c : Expr) (A : List Stmt) : ∀ (n : Nat) (st : State),
    whileLoopT (fun st => evalCondT cfg st (.bool true)) (evalStmtsT cfg (.ite c [] [.brk] :: A)) n st =
      whileLoopT (fun st => evalCondT cfg st c) (evalStmtsT cfg A) n st
  | 0, st => rfl
  | n + 1, st => by
    rw [whileLoopT, whileLoopT, cond_bool, into_of, if_pos rfl, eval_cons, eval_quick cfg c st [] [.brk] .ok .brk (fun _ => by rw [evalStmtsT]) (eval_brk cfg),
      into_seq (g := onwards (evalStmtsT cfg A)) _ st _ (fun e => onwards_fail _ st e)]
    refine (into_seq _ _ _ (g := fun r => match r with
      | (st', .ok) => whileLoopT (fun st => evalCondT cfg st (.bool true)) (evalStmtsT cfg (.ite c [] [.brk] :: A)) n st'
      | (st', .cont) => whileLoopT (fun st => evalCondT cfg st (.bool true)) (evalStmtsT cfg (.ite c [] [.brk] :: A)) n st'
      | (st', .brk) => .ret (st', .ok)
      | (st', r) => .ret (st', r)) (fun _ => rfl)).trans ?_
    refine into_congr _ st fun b => ?_
    cases b
    · rfl
    · simp only [if_true]
      show T.bind _ (evalStmtsT cfg A st) = T.bind _ (evalStmtsT cfg A st)
      refine congrArg (fun f => T.bind f _) (funext fun r => ?_)
      obtain ⟨st', r⟩ := r
      cases r <;> first | rfl | exact loop_true cfg c A n st'

/-- **C104** A `while` loop is an endless loop that is left where the condition does not hold. -/
theorem C104_while_true (c : Expr) (A : List Stmt) :
    SameEffect [.while c A] [.while (.bool true) (.ite c [] [.brk] :: A)] := by
  refine effect_same (fun k => ?_) fun cfg st => ?_
  · rw [check_single, check_single, check_while, check_while, analyzeStmts, check_ite]
    simp only [analyzeExpr, check_push]
    cases analyzeExpr k.vars c with
    | error e => rfl
    | ok _ =>
      have hj : (andThenA (analyzeStmts [] ⟨k.vars.push.push, k.loopDepth + 1⟩) (analyzeStmts [.brk])).2 = .ok () := by
        rw [analyzeStmts, then_of, check_single, analyzeStmt, ensure, if_pos (by simp)]
      dsimp only
      rw [hj]
      rfl
  · rw [eval_single, eval_single, evalStmtT, evalStmtT, scope_eq, scope_eq, loop_true]
    exact Along.refl _

theorem then_ok {r : AState × R Unit} {f : AState → AState × R Unit} (h : (andThenA r f).2 = .ok ()) : r.2 = .ok () := by
  obtain ⟨a, r⟩ := r
  cases r with
  | ok u => rfl
  | error e => cases h

theorem ite_bool (cfg : Cfg) (b : Bool) (A B : List Stmt) (st : State) :
    evalStmtT cfg (.ite (.bool b) A B) st = inScopeT st (evalStmtsT cfg (if b then A else B)) := by
  rw [evalStmtT, scope_eq, scope_eq, cond_bool]
  cases b <;> rfl

/-- **C104** The second block of an `if` whose condition is `true` may be left out. -/
theorem C104_if_true (A B : List Stmt) : StandsIn [.ite (.bool true) A B] [.ite (.bool true) A []] := by
  refine stands (fun k h => ?_) fun cfg st => ?_
  · rw [check_single, check_ite] at h ⊢
    rw [check_single, check_ite]
    simp only [analyzeExpr, then_nil] at h ⊢
    rw [h, then_ok h]
  · rw [eval_single, eval_single, ite_bool, ite_bool]
    exact Along.refl _

/-- **C104** What never runs may be left out: a block after `if false` or `while false`. -/
theorem C104_never (A : List Stmt) : StandsIn [.ite (.bool false) A []] [] ∧ StandsIn [.while (.bool false) A] [] := by
  constructor
  · refine stands (fun k h => ?_) fun cfg st => ?_
    · rw [check_single, check_ite] at h ⊢
      rw [analyzeStmts]
      exact Prod.ext rfl h.symm
    · rw [eval_single, ite_bool, scope_eq, if_neg (by simp), evalStmtsT, evalStmtsT]
      exact Along.refl _
  · refine stands (fun k h => ?_) fun cfg st => ?_
    · rw [check_single, check_while] at h ⊢
      rw [analyzeStmts]
      exact Prod.ext rfl h.symm
    · rw [eval_single, evalStmtT, scope_eq, evalStmtsT]
      generalize cfg.fuel = n
      cases n with
      | zero =>
        intro fuel ω t h
        rcases h with h | h
        · exact h.elim
        · exact absurd rfl (h .diverge)
      | succ n =>
        rw [whileLoopT, cond_bool]
        exact Along.refl _

/-- **C104** What follows a `break`, `continue` or `quit` in a block may be left out. -/
theorem C104_unreachable (j : Stmt) (hj : j = .brk ∨ j = .cont ∨ j = .quit) (q : List Stmt) : EndsIn (j :: q) [j] := by
  refine ends (fun k h => ?_) fun cfg st => ?_
  · rw [analyzeStmts] at h
    rw [check_single]
    exact then_ok h
  · rw [eval_single, eval_cons]
    rcases hj with rfl | rfl | rfl <;> rw [evalStmtT] <;> exact Along.refl _

theorem overwrite_self (x : Str) (v : Value) : ∀ {vs w : Vars Value}, vs.get x = some v → Vars.overwrite vs x v = some w → w = vs
  | [], w, _, h => by cases h
  | s :: vs, w, hg, h => by
    rw [Vars.overwrite] at h
    rw [Vars.get] at hg
    cases hs : s x with
    | some u =>
      rw [hs] at h hg
      cases h
      cases hg
      congr 1
      funext y
      unfold Scope.set
      by_cases hy : y = x
      · subst hy; simp [hs]
      · simp [hy]
    | none =>
      rw [hs] at h hg
      dsimp only at h hg
      cases ho : Vars.overwrite vs x v with
      | none => rw [ho] at h; cases h
      | some w' =>
        rw [ho] at h
        cases h
        rw [overwrite_self x v hg ho]

/-- **C104** At the end of a block, `x = x;` may be left out. (Not elsewhere: see `C104_not_self`.) -/
theorem C104_self_assign (x : Str) : EndsIn [.assign (.ident x) (.ident x)] [] := by
  refine ends (fun k _ => by rw [analyzeStmts]) fun cfg st => ?_
  rw [eval_single, evalStmtT, evalStmtsT]
  unfold evalAssignT
  rw [evalExprT]
  cases hg : st.vars.get x with
  | none =>
    intro fuel ω t h
    rcases h with h | h
    · exact h.elim
    · exact absurd rfl (h _)
  | some v =>
    have hi : st.vars.insert x v = .ok st.vars := by
      unfold Vars.insert
      cases ho : Vars.overwrite st.vars x v with
      | none =>
        rw [overwrite_none] at ho
        rw [get_eq_read] at hg
        rw [bound_of_read hg] at ho
        cases ho
      | some w => rw [overwrite_self x v hg ho]
    show SubS False ((E.of (st.vars.insert x v)).into st _) _
    rw [hi]
    exact Along.refl _

/-- **C104** A program with statements exchanged for others that mean the same means the same, provided that the integers
in it fit (as they do in every program that is read): so one exchange may follow another. -/
theorem C104_inside (p p' : List Stmt) (h : RewrittenProg SameEffect SameEffect p p')
    (hp : allE (fun e => ∀ i ∈ e.literals, Spec.Fits i) p) : SameEffect p p' := by
  obtain ⟨h1, h2⟩ := prog_rewritten (fun _ _ h => place_same h) (fun _ _ h => (place_same h).atEnd) h
  exact ⟨fun a => h1 a (.inl trivial), fun cfg st hu fuel ω t => h2 cfg hp st hu fuel ω t (.inl trivial)⟩

theorem effect_trans {p q r : List Stmt} (h : SameEffect p q) (h' : SameEffect q r) : SameEffect p r :=
  ⟨fun a => (h'.checked a).trans (h.checked a), fun cfg st hu fuel ω t => (h'.evaluated cfg st hu fuel ω t).trans (h.evaluated cfg st hu fuel ω t)⟩

theorem effect_symm {p q : List Stmt} (h : SameEffect p q) : SameEffect q p :=
  ⟨fun a => (h.checked a).symm, fun cfg st hu fuel ω t => (h.evaluated cfg st hu fuel ω t).symm⟩

/-- the negated condition -/
theorem condition_not (cfg : Cfg) (st : State) (c : Expr) :
    Sub False (evalCondT cfg st c >>= fun b => E.of (.ok (!b))) (evalCondT cfg st (.un .not (.paren c))) := by
  have h := sub_not cfg.build (evalExprT cfg st c)
  have e : evalCondT cfg st (.un .not (.paren c)) = theBool (unopT cfg.build .not (evalExprT cfg st c)) := by
    unfold evalCondT
    rw [evalExprT, evalExprT]
    rfl
  rw [e]
  exact h

theorem appended {D : Names} {loop : Prop} : ∀ {p q : List Stmt},
    AcceptedL D loop (p ++ q) ↔ AcceptedL D loop p ∧ AcceptedL (D.with (gainsL p)) loop q
  | [], q => by
    have : D.with (gainsL []) = D := funext fun x => propext ⟨fun h => h.resolve_right (by simp [gainsL]), .inl⟩
    rw [this]
    exact ⟨fun h => ⟨trivial, h⟩, fun h => h.2⟩
  | s :: p, q => by
    have : D.with (gainsL (s :: p)) = (D.with s.gains).with (gainsL p) := funext fun x => by
      simp [Names.with, gainsL, or_assoc]
    rw [this]
    show Accepted D loop s ∧ AcceptedL (D.with s.gains) loop (p ++ q) ↔ (Accepted D loop s ∧ AcceptedL (D.with s.gains) loop p) ∧ _
    rw [appended (p := p), and_assoc]

theorem turned_round (cfg : Cfg) (c : Expr) (A B : List Stmt) (st : State) :
    SubS False (evalStmtsT cfg [.ite c A B] st) (evalStmtsT cfg [.ite (.un .not (.paren c)) B A] st) := by
  rw [eval_single, eval_single, evalStmtT, evalStmtT, scope_eq, scope_eq]
  refine Along.bind (P := CountsS False) ?_ (fun _ => Along.refl _) (fun a fuel ω t h => ?_)
  · refine cast (congrArg (fun y => SubS False y _) ?_) ((condition_not cfg _ c).into _ fun b => Along.refl _)
    rw [into_bind]
    refine into_congr _ _ fun b => ?_
    cases b <;> rfl
  · obtain ⟨st', r⟩ := a
    rcases h with h | h
    · exact h.elim
    · refine .inr fun f hf => ?_
      dsimp only at hf
      subst hf
      unfold leave at h
      dsimp only at h
      cases hp : st'.vars.pop with
      | ok vs => rw [hp] at h; exact h f rfl
      | error e => rw [hp] at h; exact h e rfl

/-- **C104** An `if` without a second block may be turned round. -/
theorem C104_no_else (c : Expr) (A : List Stmt) : StandsIn [.ite c A []] [.ite (.un .not (.paren c)) [] A] := by
  refine stands (fun k _ => ?_) fun cfg st => turned_round cfg c A [] st
  rw [check_single, check_single, check_ite, check_ite]
  simp only [then_nil, analyzeExpr]
  rw [analyzeStmts]
  rfl

/-- **C104** And so may one with a second block, if the first assigns no new names in its outermost level. (Not otherwise:
see `C104_not_swap`.) -/
theorem C104_swap (c : Expr) (A B : List Stmt) (hA : gainsL A = []) :
    StandsIn [.ite c A B] [.ite (.un .not (.paren c)) B A] := by
  refine stands (fun k h => ?_) fun cfg st => turned_round cfg c A B st
  rw [check_single, check_ite] at h ⊢
  rw [check_single, check_ite, analyzeExpr, analyzeExpr]
  cases hc : analyzeExpr k.vars.push c with
  | error e => rw [hc] at h
  | ok u =>
    rw [hc] at h
    refine Prod.ext rfl ?_
    dsimp only at h ⊢
    rw [h]
    rw [← analyze_append] at h ⊢
    have hne : (⟨k.vars.push, k.loopDepth⟩ : AState).vars ≠ [] := by simp [Vars.push]
    rw [C18_accepts_iff _ _ hne] at h ⊢
    have h2 := appended.1 h
    refine appended.2 ⟨?_, acceptedL_mono (fun x hx => .inl hx) _ h2.1⟩
    have := h2.2
    rw [hA] at this
    exact acceptedL_mono (fun x hx => hx.resolve_right (by simp)) _ this

/-! ### one round of a loop -/

theorem along_trans {α : Type} {P : α → Prop} {x y z : T α} (h : Along P x y) (h' : Along P y z) : Along P x z := by
  intro fuel ω t hp
  have e := h fuel ω t hp
  rw [← e] at hp ⊢
  exact h' fuel ω t hp

theorem leads_and {α : Type} {Q Q' : α → Prop} {x : T α} (h : Leads Q x) (h' : Leads Q' x) : Leads (fun a => Q a ∧ Q' a) x := by
  induction h with
  | ret h => cases h' with | ret h' => exact .ret ⟨h, h'⟩
  | warn w _ ih => cases h' with | warn _ h' => exact .warn w (ih h')
  | search a _ ih => cases h' with | search _ h' => exact .search a fun r hr => ih r hr (h' r hr)
  | bytes i j _ ih => cases h' with | bytes _ _ h' => exact .bytes i j fun r hr => ih r hr (h' r hr)
  | opens p _ ih => cases h' with | opens _ h' => exact .opens p fun r => ih r (h' r)

/-- a loop that ends within so many rounds does so within more -/
theorem loop_more (c : State → E Bool) (body : State → T (State × IRes)) : ∀ (n : Nat) (st : State),
    SubS False (whileLoopT c body n st) (whileLoopT c body (n + 1) st)
  | 0, st => fun _ _ _ h => by
    rcases h with h | h
    · exact h.elim
    · exact absurd rfl (h .diverge)
  | n + 1, st => by
    rw [whileLoopT]
    conv => rhs; rw [whileLoopT]
    refine (Sub.refl _).into st fun b => ?_
    cases b
    · exact Along.refl _
    · simp only [if_true]
      refine along_same _ fun r => ?_
      obtain ⟨st', r⟩ := r
      cases r <;> first | exact Along.refl _ | exact loop_more c body n st'

theorem leave_fails {a : State × IRes} (h : CountsS False (leave a)) : CountsS False a := by
  obtain ⟨st', r⟩ := a
  rcases h with h | h
  · exact h.elim
  · refine .inr fun f hf => ?_
    dsimp only at hf
    subst hf
    unfold leave at h
    dsimp only at h
    cases hp : st'.vars.pop with
    | ok vs => rw [hp] at h; exact h f rfl
    | error e => rw [hp] at h; exact h e rfl

theorem unrolled (cfg : Cfg) (c : Expr) (A : List Stmt) (hA : NoJumps A) (st : State) :
    SubS False (evalStmtsT cfg [.while c A] st) (evalStmtsT cfg [.ite c (A ++ [.while c A]) []] st) := by
  rw [eval_single, eval_single, evalStmtT, evalStmtT, scope_eq, scope_eq]
  generalize hst : ({ st with vars := st.vars.push } : State) = st1
  have hl1 : st1.vars.length = st.vars.length + 1 := by subst hst; rfl
  rw [eval_append]
  have hk : evalStmtsT cfg [.while c A] = fun st =>
      (whileLoopT (fun st => evalCondT cfg st c) (evalStmtsT cfg A) cfg.fuel { st with vars := st.vars.push }).bind
        fun r => .ret (leave r) := funext fun st => by rw [eval_single, evalStmtT, scope_eq]
  rw [hk]
  have hm := fun m st => while_merge (cond := fun st => evalCondT cfg st c) (body := evalStmtsT cfg A) (n := 0) (fun st => cond_merge cfg 0 st c) (fun st => stmts_merge cfg A 0 st) m st
  have hlev := fun m (st : State) => level_while (c := fun st => evalCondT cfg st c) (stmts_level cfg A) m st rfl
  generalize cfg.fuel = n at *
  cases n with
  | zero =>
    intro fuel ω t h
    rcases h with h | h
    · exact h.elim
    · subst hst
      exact absurd rfl (h .diverge)
  | succ n =>
    conv => lhs; rw [whileLoopT]
    refine sub_into _ (fun _ => Along.refl _) fun x => ?_
    cases x
    · rw [if_neg (by simp), if_neg (by simp), evalStmtsT]
      exact Along.refl _
    · simp only [if_true]
      rw [tbind_assoc, tbind_assoc]
      refine along_known (leads_and (stmts_straight cfg A hA st1) (stmts_level cfg A st1)) fun r hr => ?_
      obtain ⟨st2, r⟩ := r
      have hl2 : st2.vars.length = st1.vars.length := hr.2
      cases r with
      | brk => exact absurd rfl hr.1.1
      | cont => exact absurd rfl hr.1.2
      | quit => exact Along.refl _
      | fail f => exact Along.refl _
      | ok =>
        show SubS False ((whileLoopT _ _ n st2).bind _) (((whileLoopT _ _ (n + 1) { st2 with vars := st2.vars.push }).bind _).bind _)
        refine along_trans (y := (whileLoopT (fun st => evalCondT cfg st c) (evalStmtsT cfg A) (n + 1) st2).bind fun r => .ret (leave r)) ?_ ?_
        · exact Along.bind (loop_more _ _ n st2) (fun _ => Along.refl _) fun a _ _ _ h => leave_fails h
        · have hne : st2.vars ≠ [] := by
            intro h
            rw [h, hl1] at hl2
            cases hl2
          have hs : st2 = mergeSt 0 { st2 with vars := st2.vars.push } := by
            unfold mergeSt
            dsimp only
            rw [merge_pushed _ hne]
          have hlv := hlev (n + 1) { st2 with vars := st2.vars.push }
          conv => lhs; rw [hs, hm]
          unfold mergeT
          rw [tbind_assoc, tbind_assoc]
          refine along_known hlv fun r hr => ?_
          show SubS False (T.ret (leave (mergeRun 0 r))) (T.ret (leave (leave r)))
          have : r.1.vars.length = st.vars.length + 2 := by
            rw [hr]
            show st2.vars.length + 1 = _
            rw [hl2, hl1]
          rw [leave_merged r _ this]
          exact Along.refl _

/-- **C104** The first round of a `while` loop may be written out, if its body has no `break` or `continue` of its own. -/
theorem C104_unroll (c : Expr) (A : List Stmt) (hA : NoJumps A) :
    StandsIn [.while c A] [.ite c (A ++ [.while c A]) []] := by
  refine stands (fun k h => ?_) fun cfg st => unrolled cfg c A hA st
  rw [check_single, check_while] at h
  rw [check_single, check_single, check_ite, check_while, then_nil, analyze_append]
  refine Prod.ext rfl ?_
  dsimp only at h ⊢
  rw [h]
  cases hc : analyzeExpr k.vars.push c with
  | error e => rw [hc] at h; cases h
  | ok u =>
    rw [hc] at h
    dsimp only at h ⊢
    have hne : ∀ d, (⟨k.vars.push, d⟩ : AState).vars ≠ [] := fun d => by simp [Vars.push]
    rw [C18_accepts_iff _ _ (hne _)] at h
    have h1 := acceptedL_anywhere (loop' := 0 < k.loopDepth) A hA h
    rw [← analyze_append, C18_accepts_iff _ _ (hne _)]
    refine appended.2 ⟨h1, ⟨?_, ?_⟩, trivial⟩
    · exact ((analyzeExpr_iff _ c).1 hc).mono fun x hx => .inl hx
    · rw [show (0 < k.loopDepth + 1) = True by simp] at h
      exact acceptedL_mono (fun x hx => .inl hx) _ h

/-! ### what does not -/

/-- was it accepted? -/
def accepted (r : AState × R Unit) : Bool := match r.2 with | .ok _ => true | .error _ => false

theorem accepted_ok {r : AState × R Unit} (h : accepted r = true) : r.2 = .ok () := by
  unfold accepted at h
  split at h
  · assumption
  · cases h

/-- **C104** `if` blocks can not always be turned round: what the first assigns, the second may read for all the checks
know, but not the other way round. -/
theorem C104_not_swap : ¬ StandsIn
    [.ite (.bool true) [.assign (.ident ['x']) (.int 1)] [.print (.ident ['x'])]]
    [.ite (.un .not (.paren (.bool true))) [.print (.ident ['x'])] [.assign (.ident ['x']) (.int 1)]] := by
  intro h
  have ha : accepted (analyzeStmts [.ite (.bool true) [.assign (.ident ['x']) (.int 1)] [.print (.ident ['x'])]] AState.new) = true := by
    decide +kernel
  have hb : accepted (analyzeStmts [.ite (.un .not (.paren (.bool true))) [.print (.ident ['x'])] [.assign (.ident ['x']) (.int 1)]]
      AState.new) = false := by decide +kernel
  rw [h.checked _ (accepted_ok ha), ha] at hb
  cases hb

/-- **C104** A block after `if true` is not the same as its statements: its names end with it. -/
theorem C104_not_flat : ¬ StandsIn [.ite (.bool true) [.assign (.ident ['x']) (.int 1)] []] [.assign (.ident ['x']) (.int 1)] := by
  intro h
  have h1 := h.checked AState.new (accepted_ok (by decide +kernel))
  have h1 := congrArg (fun r => (r.1.vars.get ['x']).isSome) h1
  revert h1
  decide +kernel

/-- **C104** `x = x;` can not be left out where something follows: it makes the name known to the checks. -/
theorem C104_not_self : ¬ StandsIn [.assign (.ident ['x']) (.ident ['x'])] [] := by
  intro h
  have h1 := h.checked AState.new (accepted_ok (by decide +kernel))
  have h1 := congrArg (fun r => (r.1.vars.get ['x']).isSome) h1
  revert h1
  decide +kernel

/-- **C104** A round of a loop with a `break` of its own can not be written out: outside a loop it is refused. -/
theorem C104_not_unroll : ¬ StandsIn [.while (.bool true) [.brk]] [.ite (.bool true) [.brk, .while (.bool true) [.brk]] []] := by
  intro h
  have hb : accepted (analyzeStmts [.ite (.bool true) [.brk, .while (.bool true) [.brk]] []] AState.new) = false := by decide +kernel
  rw [h.checked AState.new (accepted_ok (by decide +kernel))] at hb
  revert hb
  decide +kernel

/-! ### the hypotheses can be met -/

set_option maxRecDepth 100000 in
/-- two programs that mean the same: a loop with nested `if`s, and an endless one with an `if` with two conditions -/
theorem endless_spelled : ∃ p p',
    Spells s!' "x = 0; while x < 5 { x = x + 1; if x > 1 { if x < 4 { print x; } } }" p ∧
    Spells s!' "x = 0; while true { if x < 5 { } else { break; } x = x + 1; if x > 1 && x < 4 { print x; } }" p' ∧
    RewrittenProg SameEffect SameEffect p p' := by
  refine ⟨[.assign (.ident ['x']) (.int 0), .while (.bin .lt (.ident ['x']) (.int 5))
      [.assign (.ident ['x']) (.bin .plus (.ident ['x']) (.int 1)),
       .ite (.bin .gt (.ident ['x']) (.int 1)) [.ite (.bin .lt (.ident ['x']) (.int 4)) [.print (.ident ['x'])] []] []]],
    [.assign (.ident ['x']) (.int 0), .while (.bool true)
      [.ite (.bin .lt (.ident ['x']) (.int 5)) [] [.brk],
       .assign (.ident ['x']) (.bin .plus (.ident ['x']) (.int 1)),
       .ite (.bin .land (.bin .gt (.ident ['x']) (.int 1)) (.bin .lt (.ident ['x']) (.int 4))) [.print (.ident ['x'])] []]],
    spells_iff.2 (by with_unfolding_all rfl), spells_iff.2 (by with_unfolding_all rfl), ?_⟩
  refine .cons (.same _) (.here (p := [_]) (p' := [_]) (q := []) (q' := []) ?_ .nil)
  refine effect_trans (C104_inside _ _ (.cons (.while _ (.prog (.cons (.same _)
    (.here (p := [_]) (p' := [_]) (q := []) (q' := []) (C104_nested_if _ _ _) .nil)))) .nil) ?_) (C104_while_true _ _)
  simp [allE, Stmt.AllE, Expr.literals, Spec.Fits]

example (cfg : Cfg) (ω : Live) :
    scriptMainL cfg none ω (some (encoded s!' "x = 0; while true { if x < 5 { } else { break; } x = x + 1; if x > 1 && x < 4 { print x; } }")) =
      scriptMainL cfg none ω (some (encoded s!' "x = 0; while x < 5 { x = x + 1; if x > 1 { if x < 4 { print x; } } }")) := by
  obtain ⟨p, p', h1, h2, h3⟩ := endless_spelled
  have e1 : stripComments s!' "x = 0; while x < 5 { x = x + 1; if x > 1 { if x < 4 { print x; } } }" =
      s!' "x = 0; while x < 5 { x = x + 1; if x > 1 { if x < 4 { print x; } } }" := by decide +kernel
  have e2 : stripComments s!' "x = 0; while true { if x < 5 { } else { break; } x = x + 1; if x > 1 && x < 4 { print x; } }" =
      s!' "x = 0; while true { if x < 5 { } else { break; } x = x + 1; if x > 1 && x < 4 { print x; } }" := by decide +kernel
  exact C104_script cfg none ω _ _ p p' (by rw [e1]; exact h1) (by rw [e2]; exact h2) h3

set_option maxRecDepth 100000 in
/-- two programs of which the second stands in for the first: without what never runs and what changes nothing -/
theorem tidied_spelled : ∃ p p',
    Spells s!' "x = 3; while x > 0 { if x == 2 { print x; x = 0; continue; print 7; } x = x - 1; x = x; } if false { x = 9; }" p ∧
    Spells s!' "x = 3; while x > 0 { if x == 2 { print x; x = 0; continue; } x = x - 1; }" p' ∧
    RewrittenProg StandsIn EndsIn p p' := by
  refine ⟨[.assign (.ident ['x']) (.int 3), .while (.bin .gt (.ident ['x']) (.int 0))
      [.ite (.bin .eq (.ident ['x']) (.int 2)) [.print (.ident ['x']), .assign (.ident ['x']) (.int 0), .cont, .print (.int 7)] [],
       .assign (.ident ['x']) (.bin .minus (.ident ['x']) (.int 1)),
       .assign (.ident ['x']) (.ident ['x'])],
      .ite (.bool false) [.assign (.ident ['x']) (.int 9)] []],
    [.assign (.ident ['x']) (.int 3), .while (.bin .gt (.ident ['x']) (.int 0))
      [.ite (.bin .eq (.ident ['x']) (.int 2)) [.print (.ident ['x']), .assign (.ident ['x']) (.int 0), .cont] [],
       .assign (.ident ['x']) (.bin .minus (.ident ['x']) (.int 1))]],
    spells_iff.2 (by with_unfolding_all rfl), spells_iff.2 (by with_unfolding_all rfl), ?_⟩
  refine .cons (.same _) (.cons (.while _ (.last (q := [_, _]) (q' := [_, _]) (.cons (.ifOnly _
    (.last (q := [_, _]) (q' := [_, _]) (.cons (.same _) (.cons (.same _) .nil)) (C104_unreachable _ (by simp) _)))
    (.cons (.same _) .nil)) (C104_self_assign _))) (.here (p := [_]) (p' := []) (q := []) (q' := []) (C104_never _).1 .nil))

set_option maxRecDepth 100000 in
example (cfg : Cfg) (rs : RState) (hu : Usual rs.ev) (ω : Live) (n : Nat)
    (h : ∀ f, ((runtimeEvalT cfg rs s!' "x = 3; while x > 0 { if x == 2 { print x; x = 0; continue; print 7; } x = x - 1; x = x; } if false { x = 9; }").live
      cfg.fuel ω n).result.2 ≠ .fail f) :
    (runtimeEvalT cfg rs s!' "x = 3; while x > 0 { if x == 2 { print x; x = 0; continue; } x = x - 1; }").live cfg.fuel ω n =
      (runtimeEvalT cfg rs s!' "x = 3; while x > 0 { if x == 2 { print x; x = 0; continue; print 7; } x = x - 1; x = x; } if false { x = 9; }").live cfg.fuel ω n := by
  obtain ⟨p, p', h1, h2, h3⟩ := tidied_spelled
  exact C104_entry_stands cfg rs hu _ _ p p' h1 h2 h3 cfg.fuel ω n h

set_option maxRecDepth 100000 in
/-- it ends without an error -/
example : (runtimeEvalT { demo with fuel := 10 } (RState.new demo none)
    s!' "x = 3; while x > 0 { if x == 2 { print x; x = 0; continue; print 7; } x = x - 1; x = x; } if false { x = 9; }").live 10 (Live.steady demo.host) 0 |>.result.2 = .ok := by
  decide +kernel

end Btrd
