/-
A program and the same with some statements replaced, side by side.
-/
import Verif.Spec.Rewrite
import Verif.Lemmas.Merge

namespace Btrd
open Spec

set_option linter.unusedSectionVars false

/-! ### what the checks do to the scopes -/

theorem overwrite_unit (x : Str) : ∀ {vs w : Vars Unit}, vs.overwrite x () = some w → w = vs
  | [], w, h => by cases h
  | s :: vs, w, h => by
    rw [Vars.overwrite] at h
    cases hs : s x with
    | some u =>
      rw [hs] at h
      cases h
      congr 1
      funext y
      unfold Scope.set
      by_cases hy : y = x
      · subst hy; simp [hs]
      · simp [hy]
    | none =>
      rw [hs] at h
      dsimp only at h
      cases ho : Vars.overwrite vs x () with
      | none => rw [ho] at h; cases h
      | some w' =>
        rw [ho] at h
        cases h
        rw [overwrite_unit x ho]

/-- a check that adds names to the innermost scope only -/
def Inner (f : AState → AState × R Unit) : Prop := ∀ s vs d, ∃ s', (f ⟨s :: vs, d⟩).1 = ⟨s' :: vs, d⟩

/-- a check that adds no names -/
def Outer (f : AState → AState × R Unit) : Prop := ∀ a, (f a).1 = a

theorem Outer.inner {f : AState → AState × R Unit} (h : Outer f) : Inner f := fun s vs d => ⟨s, h _⟩

theorem inner_declare (x : Str) : Inner (fun a => a.declare x) := by
  intro s vs d
  dsimp only [AState.declare]
  unfold Vars.insert
  cases ho : Vars.overwrite (s :: vs) x () with
  | none => exact ⟨_, rfl⟩
  | some w =>
    rw [overwrite_unit x ho]
    exact ⟨s, rfl⟩

theorem inner_then {g f : AState → AState × R Unit} (hg : Inner g) (hf : Inner f) : Inner (fun a => andThenA (g a) f) := by
  intro s vs d
  obtain ⟨s', h⟩ := hg s vs d
  dsimp only
  generalize g ⟨s :: vs, d⟩ = q at h
  obtain ⟨b, r⟩ := q
  dsimp only at h
  subst h
  cases r with
  | ok _ => exact hf s' vs d
  | error e => exact ⟨s', rfl⟩

theorem inner_if {g : AState → R Unit} {f : AState → AState × R Unit} (hf : Inner f) :
    Inner (fun a => match g a with | .ok _ => f a | .error e => (a, .error e)) := by
  intro s vs d
  dsimp only
  cases g ⟨s :: vs, d⟩ with
  | ok _ => exact hf s vs d
  | error e => exact ⟨s, rfl⟩

theorem outer_scope (n : Nat) {f : AState → AState × R Unit} (hf : Inner f) : Outer (fun a => scopedA n a f) := by
  intro a
  obtain ⟨s, h⟩ := hf Scope.empty a.vars (a.loopDepth + n)
  unfold scopedA
  dsimp only
  rw [show a.vars.push = Scope.empty :: a.vars from rfl]
  generalize f ⟨Scope.empty :: a.vars, a.loopDepth + n⟩ = q at h ⊢
  obtain ⟨b, r⟩ := q
  dsimp only at h
  subst h
  simp [Vars.pop]

mutual
theorem inner_stmt : ∀ s : Stmt, Inner (analyzeStmt s)
  | .assign l r => by
    cases l
    case ident x =>
      intro s vs d
      rw [analyzeStmt]
      exact inner_then (inner_declare x) (f := fun a => (a, analyzeExpr a.vars r)) (Outer.inner fun _ => rfl) s vs d
    all_goals
      refine Outer.inner fun a => ?_
      rw [analyzeStmt.eq_def]
      dsimp only
      split <;> rfl
  | .ite c t f => by
    refine Outer.inner fun a => ?_
    rw [analyzeStmt]
    exact outer_scope 0 (inner_if (g := fun a => analyzeExpr a.vars c) (inner_then (inner_stmts t) (inner_stmts f))) a
  | .while c b => by
    refine Outer.inner fun a => ?_
    rw [analyzeStmt]
    exact outer_scope 1 (inner_if (g := fun a => analyzeExpr a.vars c) (inner_stmts b)) a
  | .for x r b => by
    refine Outer.inner fun a => ?_
    rw [analyzeStmt]
    refine outer_scope 1 ?_ a
    cases x
    case ident x => exact inner_then (inner_declare x) (inner_if (g := fun a => analyzeExpr a.vars r) (inner_stmts b))
    all_goals exact Outer.inner fun _ => rfl
  | .brk => Outer.inner fun a => by rw [analyzeStmt]
  | .cont => Outer.inner fun a => by rw [analyzeStmt]
  | .help => Outer.inner fun a => by rw [analyzeStmt]
  | .quit => Outer.inner fun a => by rw [analyzeStmt]
  | .filesystem e => Outer.inner fun a => by rw [analyzeStmt.eq_def]; dsimp only; split <;> rfl
  | .print e => Outer.inner fun a => by rw [analyzeStmt]
  | .expr e => Outer.inner fun a => by rw [analyzeStmt]
theorem inner_stmts : ∀ p : List Stmt, Inner (analyzeStmts p)
  | [] => Outer.inner fun a => by rw [analyzeStmts]
  | s :: p => by
    intro sc vs d
    rw [analyzeStmts]
    exact inner_then (inner_stmt s) (inner_stmts p) sc vs d
end

/-! ### sequences -/

theorem andThenA_assoc (r : AState × R Unit) (f g : AState → AState × R Unit) :
    andThenA (andThenA r f) g = andThenA r fun a => andThenA (f a) g := by
  obtain ⟨a, r⟩ := r
  cases r <;> rfl

theorem analyze_append : ∀ (p q : List Stmt) (a : AState), analyzeStmts (p ++ q) a = andThenA (analyzeStmts p a) (analyzeStmts q)
  | [], q, a => by rw [List.nil_append, analyzeStmts]; rfl
  | s :: p, q, a => by
    rw [List.cons_append, analyzeStmts, analyzeStmts, andThenA_assoc]
    exact congrArg (andThenA _) (funext fun a => analyze_append p q a)

/-- what follows a statement that ended normally -/
def onwards (k : State → T (State × IRes)) (r : State × IRes) : T (State × IRes) :=
  match r with
  | (st, .ok) => k st
  | (st, r) => .ret (st, r)

theorem eval_cons (cfg : Cfg) (s : Stmt) (p : List Stmt) (st : State) :
    evalStmtsT cfg (s :: p) st = (evalStmtT cfg s st).bind (onwards (evalStmtsT cfg p)) := by
  rw [evalStmtsT]
  refine congrArg (fun f => T.bind f _) (funext fun r => ?_)
  obtain ⟨a, r⟩ := r
  cases r <;> rfl

theorem eval_append (cfg : Cfg) : ∀ (p q : List Stmt) (st : State),
    evalStmtsT cfg (p ++ q) st = (evalStmtsT cfg p st).bind (onwards (evalStmtsT cfg q))
  | [], q, st => by rw [List.nil_append, evalStmtsT]; rfl
  | s :: p, q, st => by
    rw [List.cons_append, eval_cons, eval_cons, tbind_assoc]
    refine congrArg (fun f => T.bind f _) (funext fun r => ?_)
    obtain ⟨a, r⟩ := r
    cases r <;> first | rfl | exact eval_append cfg p q a

theorem eval_single (cfg : Cfg) (s : Stmt) (st : State) : evalStmtsT cfg [s] st = evalStmtT cfg s st := by
  rw [eval_cons]
  refine tbind_ret _ (fun r => ?_) _
  obtain ⟨a, r⟩ := r
  cases r <;> first | rfl | (simp only [onwards]; rw [evalStmtsT])

/-! ### programs -/

/-- one run of statements may be put in the place of the other; all runs count if `S`, else those without an error -/
structure InPlace (S : Prop) (p p' : List Stmt) : Prop where
  checked : ∀ a, SameCheck S (analyzeStmts p a) (analyzeStmts p' a)
  evaluated : ∀ cfg st, Usual st → SubS S (evalStmtsT cfg p st) (evalStmtsT cfg p' st)

/-- the same at the end of a block -/
structure InPlaceEnd (S : Prop) (p p' : List Stmt) : Prop where
  checked : ∀ a, Counts S (analyzeStmts p a).2 → (analyzeStmts p' a).2 = (analyzeStmts p a).2
  evaluated : ∀ cfg st, Usual st → SubS S (evalStmtsT cfg p st) (evalStmtsT cfg p' st)

section
variable {S : Prop} {R B : List Stmt → List Stmt → Prop} (hR : ∀ p p', R p p' → InPlace S p p')
  (hB : ∀ p p', B p p' → InPlaceEnd S p p')

theorem InPlace.atEnd {p p' : List Stmt} (h : InPlace S p p') : InPlaceEnd S p p' :=
  ⟨fun a hc => by rw [h.checked a hc], h.evaluated⟩

/-- a block whose end may differ, in a scope of its own -/
theorem check_block (d : Nat) (a : AState) {f f' : AState → AState × Btrd.R Unit} (hi : Inner f) (hi' : Inner f')
    (hf : ∀ a, Counts S (f a).2 → (f' a).2 = (f a).2) : SameCheck S (scopedA d a f) (scopedA d a f') := by
  intro hc
  have e1 : (scopedA d a f).2 = (f ⟨a.vars.push, a.loopDepth + d⟩).2 := by
    obtain ⟨s, h⟩ := hi Scope.empty a.vars (a.loopDepth + d)
    unfold scopedA
    rw [show a.vars.push = Scope.empty :: a.vars from rfl]
    simp only [h, Vars.pop]
  have e2 : (scopedA d a f').2 = (f' ⟨a.vars.push, a.loopDepth + d⟩).2 := by
    obtain ⟨s, h⟩ := hi' Scope.empty a.vars (a.loopDepth + d)
    unfold scopedA
    rw [show a.vars.push = Scope.empty :: a.vars from rfl]
    simp only [h, Vars.pop]
  refine Prod.ext ?_ ?_
  · exact (outer_scope d hi' a).trans (outer_scope d hi a).symm
  · rw [e1] at hc ⊢
    rw [e2]
    exact hf _ hc

/-- a check, and a block after it -/
theorem counts_if {g : AState → Btrd.R Unit} {f f' : AState → AState × Btrd.R Unit}
    (hf : ∀ a, Counts S (f a).2 → (f' a).2 = (f a).2) (a : AState)
    (hc : Counts S (match g a with | .ok _ => f a | .error e => (a, Except.error e) : AState × Btrd.R Unit).2) :
    (match g a with | .ok _ => f' a | .error e => (a, Except.error e) : AState × Btrd.R Unit).2 =
      (match g a with | .ok _ => f a | .error e => (a, Except.error e) : AState × Btrd.R Unit).2 := by
  cases hg : g a with
  | ok _ => rw [hg] at hc; exact hf a hc
  | error e => rfl

theorem counts_then {r r' : AState × Btrd.R Unit} {f f' : AState → AState × Btrd.R Unit} (h : SameCheck S r r')
    (hf : ∀ a, Counts S (f a).2 → (f' a).2 = (f a).2) (hc : Counts S (andThenA r f).2) :
    (andThenA r' f').2 = (andThenA r f).2 := by
  obtain ⟨a, r⟩ := r
  cases r with
  | ok _ => rw [h (.inr ⟨_, rfl⟩)]; exact hf a hc
  | error e => rw [h hc]; rfl

theorem onwards_fail (k : State → T (State × IRes)) (st : State) (e : Fail) : onwards k (st, .fail e) = .ret (st, .fail e) := rfl

theorem onwards_along {k k' : State → T (State × IRes)} (h : ∀ st, Usual st → SubS S (k st) (k' st)) :
    ∀ a : State × IRes, Usual a.1 → SubS S (onwards k a) (onwards k' a) := by
  intro a ha
  obtain ⟨a, r⟩ := a
  cases r <;> first | exact Along.refl _ | exact h a ha

theorem allE_append {P : Expr → Prop} : ∀ {p q : List Stmt}, allE P (p ++ q) → allE P p ∧ allE P q
  | [], q, h => ⟨trivial, h⟩
  | s :: p, q, h => ⟨⟨h.1, (allE_append h.2).1⟩, (allE_append h.2).2⟩

include hR hB in
mutual
theorem stmt_rewritten : ∀ {s s' : Stmt}, RewrittenStmt R B s s' →
    (∀ a, SameCheck S (analyzeStmt s a) (analyzeStmt s' a)) ∧
    ∀ cfg, s.AllE SmallLits → ∀ st, Usual st → SubS S (evalStmtT cfg s st) (evalStmtT cfg s' st)
  | _, _, .same s => ⟨fun _ _ => rfl, fun _ _ _ _ => Along.refl _⟩
  | _, _, .ite c (t := t) (t' := t') (f := f) (f' := f') ht hf => by
    obtain ⟨h1, h2⟩ := prog_rewritten ht
    obtain ⟨h3, h4⟩ := block_rewritten hf
    refine ⟨fun a => ?_, fun cfg hs st hu => ?_⟩
    · rw [analyzeStmt, analyzeStmt]
      exact check_block 0 a (inner_if (g := fun a => analyzeExpr a.vars c) (inner_then (inner_stmts t) (inner_stmts f)))
        (inner_if (g := fun a => analyzeExpr a.vars c) (inner_then (inner_stmts t') (inner_stmts f')))
        (counts_if (g := fun a => analyzeExpr a.vars c) fun a => counts_then (h1 a) h3)
    · rw [evalStmtT, evalStmtT]
      refine scope_exchanged st hu fun st hu => (Sub.refl _).into st fun b => ?_
      cases b
      · exact h4 cfg hs.2.2 st hu
      · exact h2 cfg hs.2.1 st hu
  | _, _, .ifOnly c (t := t) (t' := t') ht => by
    obtain ⟨h1, h2⟩ := block_rewritten ht
    have hn : ∀ p : List Stmt, (fun a => andThenA (analyzeStmts p a) (analyzeStmts [])) = analyzeStmts p := fun p => by
      funext a
      have := analyze_append p [] a
      rw [List.append_nil] at this
      exact this.symm
    refine ⟨fun a => ?_, fun cfg hs st hu => ?_⟩
    · rw [analyzeStmt, analyzeStmt]
      refine check_block 0 a (inner_if (g := fun a => analyzeExpr a.vars c) (inner_then (inner_stmts t) (inner_stmts [])))
        (inner_if (g := fun a => analyzeExpr a.vars c) (inner_then (inner_stmts t') (inner_stmts [])))
        (counts_if (g := fun a => analyzeExpr a.vars c) fun a hc => ?_)
      have e := congrFun (hn t) a
      have e' := congrFun (hn t') a
      rw [e] at hc ⊢
      rw [e']
      exact h1 a hc
    · rw [evalStmtT, evalStmtT]
      refine scope_exchanged st hu fun st hu => (Sub.refl _).into st fun b => ?_
      cases b
      · exact Along.refl _
      · exact h2 cfg hs.2.1 st hu
  | _, _, .while c (b := b) (b' := b') hb => by
    obtain ⟨h1, h2⟩ := block_rewritten hb
    refine ⟨fun a => ?_, fun cfg hs st hu => ?_⟩
    · rw [analyzeStmt, analyzeStmt]
      exact check_block 1 a (inner_if (g := fun a => analyzeExpr a.vars c) (inner_stmts b))
        (inner_if (g := fun a => analyzeExpr a.vars c) (inner_stmts b')) (counts_if (g := fun a => analyzeExpr a.vars c) h1)
    · rw [evalStmtT, evalStmtT]
      exact scope_exchanged st hu fun st hu => while_exchanged (leads_stmts good_lasting cfg _ hs.2)
        (fun _ _ => Sub.refl _) (h2 cfg hs.2) _ st hu
  | _, _, .for x r (b := b) (b' := b') hb => by
    obtain ⟨h1, h2⟩ := block_rewritten hb
    refine ⟨fun a => ?_, fun cfg hs st hu => ?_⟩
    · rw [analyzeStmt, analyzeStmt]
      cases x
      case ident x =>
        exact check_block 1 a (inner_then (inner_declare x) (inner_if (g := fun a => analyzeExpr a.vars r) (inner_stmts b)))
          (inner_then (inner_declare x) (inner_if (g := fun a => analyzeExpr a.vars r) (inner_stmts b')))
          (fun a => counts_then (fun _ => rfl) (counts_if (g := fun a => analyzeExpr a.vars r) h1))
      all_goals exact fun _ => rfl
    · rw [evalStmtT, evalStmtT]
      exact scope_exchanged st hu fun st hu => for_exchanged (S := S) (R := fun _ _ => False) (fun _ _ h => h.elim) cfg st hu x
        (.same r) hs.2.1 (leads_stmts good_lasting cfg _ hs.2.2) (h2 cfg hs.2.2)
theorem prog_rewritten : ∀ {p p' : List Stmt}, RewrittenProg R B p p' →
    (∀ a, SameCheck S (analyzeStmts p a) (analyzeStmts p' a)) ∧
    ∀ cfg, allE SmallLits p → ∀ st, Usual st → SubS S (evalStmtsT cfg p st) (evalStmtsT cfg p' st)
  | _, _, .nil => ⟨fun _ _ => rfl, fun _ _ _ _ => Along.refl _⟩
  | _, _, .cons (s := s) hs hp => by
    obtain ⟨h1, h2⟩ := stmt_rewritten hs
    obtain ⟨h3, h4⟩ := prog_rewritten hp
    refine ⟨fun a => ?_, fun cfg hl st hu => ?_⟩
    · rw [analyzeStmts, analyzeStmts]
      exact check_then (h1 a) h3
    · rw [eval_cons, eval_cons]
      exact Along.seq (leads_stmt good_lasting cfg s hl.1 st hu) (h2 cfg hl.1 st hu) (onwards_along (h4 cfg hl.2)) (onwards_fail _)
  | _, _, .here (p := p) (p' := p') h hq => by
    obtain ⟨h1, h2⟩ := hR _ _ h
    obtain ⟨h3, h4⟩ := prog_rewritten hq
    refine ⟨fun a => ?_, fun cfg hl st hu => ?_⟩
    · rw [analyze_append, analyze_append]
      exact check_then (h1 a) h3
    · obtain ⟨hl1, hl2⟩ := allE_append hl
      rw [eval_append, eval_append]
      exact Along.seq (leads_stmts good_lasting cfg p hl1 st hu) (h2 cfg st hu) (onwards_along (h4 cfg hl2)) (onwards_fail _)
theorem block_rewritten : ∀ {p p' : List Stmt}, RewrittenBlock R B p p' →
    (∀ a, Counts S (analyzeStmts p a).2 → (analyzeStmts p' a).2 = (analyzeStmts p a).2) ∧
    ∀ cfg, allE SmallLits p → ∀ st, Usual st → SubS S (evalStmtsT cfg p st) (evalStmtsT cfg p' st)
  | _, _, .prog hp => by
    obtain ⟨h1, h2⟩ := prog_rewritten hp
    exact ⟨fun a hc => by rw [h1 a hc], h2⟩
  | _, _, .last (q := q) hq h => by
    obtain ⟨h1, h2⟩ := prog_rewritten hq
    obtain ⟨h3, h4⟩ := hB _ _ h
    refine ⟨fun a hc => ?_, fun cfg hl st hu => ?_⟩
    · rw [analyze_append] at hc
      rw [analyze_append, analyze_append]
      exact counts_then (h1 a) h3 hc
    · obtain ⟨hl1, hl2⟩ := allE_append hl
      rw [eval_append, eval_append]
      exact Along.seq (leads_stmts good_lasting cfg q hl1 st hu) (h2 cfg hl1 st hu) (onwards_along (h4 cfg)) (onwards_fail _)
end

end

end Btrd
