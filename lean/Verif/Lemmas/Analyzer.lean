/-
The analyzer accepts exactly the programs of `Spec.AcceptedL`.
-/
import Verif.Model.Semantics
import Verif.Spec.Analysis
import Verif.Lemmas.Vars

namespace Btrd
open Spec

/-- the variables of a stack of scopes -/
def defined {T : Type} (vs : Vars T) : Names := fun x => vs.get x ≠ none

theorem knownStruct_iff (n : Str) : knownStruct n = true ↔ ∃ s ∈ structs, s.name = n := by
  simp [knownStruct]

mutual
theorem analyzeExpr_iff (vs : Vars Unit) : ∀ e : Expr, analyzeExpr vs e = .ok () ↔ Reads (defined vs) e
  | .ident x => by
    simp only [analyzeExpr, Reads, Expr.Sound, Expr.uses, defined, List.mem_singleton, forall_eq, true_and]
    cases vs.get x <;> simp [R.err]
  | .int _ => by simp [analyzeExpr, Reads, Expr.Sound, Expr.uses]
  | .bool _ => by simp [analyzeExpr, Reads, Expr.Sound, Expr.uses]
  | .str _ => by simp [analyzeExpr, Reads, Expr.Sound, Expr.uses]
  | .paren e => by simp only [analyzeExpr, analyzeExpr_iff vs e, Reads, Expr.Sound, Expr.uses]
  | .field e f => by
    have := analyzeExpr_iff vs e
    simp only [Reads] at this
    cases f <;> simp [analyzeExpr, this, Reads, Expr.Sound, Expr.uses, R.err]
  | .index e i => by
    have h1 := analyzeExpr_iff vs e
    have h2 := analyzeExpr_iff vs i
    simp only [Reads] at h1 h2
    simp only [analyzeExpr, Reads, Expr.Sound, Expr.uses, List.mem_append]
    cases hc : analyzeExpr vs e with
    | ok u => simp only [hc, true_iff] at h1; simp only [h2]; grind
    | error x => simp only [hc, reduceCtorEq, false_iff] at h1 ⊢; grind
  | .call f args => by
    have h1 := analyzeExpr_iff vs f
    have h2 := analyzeArgs_iff vs args
    simp only [Reads] at h1
    simp only [analyzeExpr, Reads, Expr.Sound, Expr.uses, List.mem_append]
    cases hc : analyzeExpr vs f with
    | ok u => simp only [hc, true_iff] at h1; simp only [h2]; grind
    | error x => simp only [hc, reduceCtorEq, false_iff] at h1 ⊢; grind
  | .bin _ l r => by
    have h1 := analyzeExpr_iff vs l
    have h2 := analyzeExpr_iff vs r
    simp only [Reads] at h1 h2
    simp only [analyzeExpr, Reads, Expr.Sound, Expr.uses, List.mem_append]
    cases hc : analyzeExpr vs l with
    | ok u => simp only [hc, true_iff] at h1; simp only [h2]; grind
    | error x => simp only [hc, reduceCtorEq, false_iff] at h1 ⊢; grind
  | .un _ e => by simp only [analyzeExpr, analyzeExpr_iff vs e, Reads, Expr.Sound, Expr.uses]
  | .cast ty e => by
    have h1 := analyzeExpr_iff vs e
    simp only [Reads] at h1
    cases ty with
    | ident n =>
      simp only [analyzeExpr, Reads, Expr.Sound, Expr.uses]
      by_cases hk : knownStruct n = true
      · have := (knownStruct_iff n).mp hk
        simp only [hk, if_true, h1]
        constructor
        · intro h; exact ⟨⟨⟨n, rfl, this⟩, h.1⟩, h.2⟩
        · intro h; exact ⟨h.1.2, h.2⟩
      · simp only [hk]
        simp only [Bool.false_eq_true, if_false, R.err, reduceCtorEq, false_iff]
        rintro ⟨⟨⟨m, hm, hs⟩, _⟩, _⟩
        injection hm with hm
        subst hm
        exact hk ((knownStruct_iff n).mpr hs)
    | _ => simp [analyzeExpr, Reads, Expr.Sound, R.err]
theorem analyzeArgs_iff (vs : Vars Unit) : ∀ es : List Expr,
    analyzeArgs vs es = .ok () ↔ SoundL es ∧ ∀ x ∈ usesL es, defined vs x
  | [] => by simp [analyzeArgs, SoundL, usesL]
  | e :: es => by
    have h1 := analyzeExpr_iff vs e
    have h2 := analyzeArgs_iff vs es
    simp only [Reads] at h1
    simp only [analyzeArgs, SoundL, usesL, List.mem_append]
    cases hc : analyzeExpr vs e with
    | ok u => simp only [hc, true_iff] at h1; simp only [h2]; grind
    | error x => simp only [hc, reduceCtorEq, false_iff] at h1 ⊢; grind
end

mutual
/-- analysing an expression reports an error, nothing else -/
theorem analyzeExpr_err (vs : Vars Unit) : ∀ (e : Expr) f, analyzeExpr vs e = .error f → ∃ x, f = .err x ∧ x ≠ .controlFlow
  | .ident x, f, h => by
    simp only [analyzeExpr] at h
    split at h
    · simp at h
    · injection h with h; exact ⟨_, h.symm, by simp⟩
  | .int _, f, h => by simp [analyzeExpr] at h
  | .bool _, f, h => by simp [analyzeExpr] at h
  | .str _, f, h => by simp [analyzeExpr] at h
  | .paren e, f, h => analyzeExpr_err vs e f (by simpa [analyzeExpr] using h)
  | .field e g, f, h => by
    simp only [analyzeExpr] at h
    split at h
    · exact analyzeExpr_err vs e f h
    · injection h with h; exact ⟨_, h.symm, by simp⟩
  | .index e i, f, h => by
    simp only [analyzeExpr] at h
    split at h
    · exact analyzeExpr_err vs i f h
    · rename_i x hx; injection h with h; subst h; exact analyzeExpr_err vs e _ hx
  | .call g args, f, h => by
    simp only [analyzeExpr] at h
    split at h
    · exact analyzeArgs_err vs args f h
    · rename_i x hx; injection h with h; subst h; exact analyzeExpr_err vs g _ hx
  | .bin _ l r, f, h => by
    simp only [analyzeExpr] at h
    split at h
    · exact analyzeExpr_err vs r f h
    · rename_i x hx; injection h with h; subst h; exact analyzeExpr_err vs l _ hx
  | .un _ e, f, h => analyzeExpr_err vs e f (by simpa [analyzeExpr] using h)
  | .cast ty e, f, h => by
    simp only [analyzeExpr] at h
    split at h
    · split at h
      · exact analyzeExpr_err vs e f h
      · injection h with h; exact ⟨_, h.symm, by simp⟩
    · injection h with h; exact ⟨_, h.symm, by simp⟩
theorem analyzeArgs_err (vs : Vars Unit) : ∀ (es : List Expr) f, analyzeArgs vs es = .error f → ∃ x, f = .err x ∧ x ≠ .controlFlow
  | [], f, h => by simp [analyzeArgs] at h
  | e :: es, f, h => by
    simp only [analyzeArgs] at h
    split at h
    · exact analyzeArgs_err vs es f h
    · rename_i x hx; injection h with h; subst h; exact analyzeExpr_err vs e _ hx
end

theorem gained_ne {T : Type} {a b : Vars T} (h : Gained a b) (ha : a ≠ []) : b ≠ [] := by
  cases a with
  | nil => simp at ha
  | cons s r => cases b with
    | nil => simp [Gained] at h
    | cons s' r' => simp

theorem defined_push {T : Type} (vs : Vars T) : defined vs.push = defined vs := by
  funext x; simp [defined, Vars.push, Vars.get, Scope.empty]

theorem defined_insert {T : Type} {vs vs' : Vars T} {k : Str} {v : T} (h : vs.insert k v = .ok vs') :
    defined vs' = (defined vs).with [k] := by
  funext x
  have := get_insert h
  by_cases hx : x = k
  · subst hx; simp [defined, Names.with, this.1]
  · simp [defined, Names.with, this.2 x hx, hx]

theorem gained_defined {T : Type} {a b : Vars T} (h : Gained a b) {x : Str} (hx : defined a x) : defined b x := by
  cases a with
  | nil => simp [defined, Vars.get] at hx
  | cons s r =>
    cases b with
    | nil => simp [Gained] at h
    | cons s' r' =>
      simp only [defined, Vars.get] at hx ⊢
      have h1 := h.1 x
      have h2 := h.2.get x
      cases hs' : s' x with
      | some v => simp
      | none => simp only [h1 hs', hs'] at hx ⊢; exact fun h => hx (h2.mpr h)

theorem sameDefined_defined {T : Type} {a b : Vars T} (h : SameDefined a b) : defined a = defined b := by
  funext x
  have := h.get x
  simp only [defined, ne_eq, this]

/-- everything the analyzer does to its state, and the verdict `ok` -/
structure Analyzed (a : AState) (gains : List Str) (A : Prop) (r : AState × R Unit) : Prop where
  gained : Gained a.vars r.1.vars
  depth : r.1.loopDepth = a.loopDepth
  verdict : r.2 = .ok () ↔ A
  err : ∀ f, r.2 = .error f → ∃ x, f = .err x ∧ x ≠ .controlFlow
  ok : r.2 = .ok () → defined r.1.vars = (defined a.vars).with gains
  atMost : ∀ x, defined r.1.vars x → defined a.vars x ∨ x ∈ gains

theorem with_nil (D : Names) : D.with [] = D := by funext x; simp [Names.with]

theorem with_with (D : Names) (l m : List Str) : (D.with l).with m = D.with (l ++ m) := by
  funext x; simp [Names.with, or_assoc]

theorem analyzed_expr (a : AState) (e : Expr) : Analyzed a [] (Reads (defined a.vars) e) (a, analyzeExpr a.vars e) :=
  ⟨Gained.refl _, rfl, analyzeExpr_iff _ _, analyzeExpr_err _ _, fun _ => (with_nil _).symm, fun _ h => .inl h⟩

theorem declare_eq (a : AState) (n : Str) (ha : a.vars ≠ []) :
    ∃ vs, a.declare n = (⟨vs, a.loopDepth⟩, .ok ()) ∧ a.vars.insert n () = .ok vs := by
  obtain ⟨vs, h⟩ := insert_ok a.vars n () ha
  exact ⟨vs, by simp [AState.declare, h], h⟩

theorem analyzed_scoped (d : Nat) (a : AState) (A : Prop) (gains : List Str) (body : AState → AState × R Unit)
    (hb : Analyzed ⟨a.vars.push, a.loopDepth + d⟩ gains A (body ⟨a.vars.push, a.loopDepth + d⟩)) :
    Analyzed a [] A (scopedA d a body) := by
  unfold scopedA
  generalize body ⟨a.vars.push, a.loopDepth + d⟩ = r at hb
  obtain ⟨h1, h2, h3, h4, h5, h6⟩ := hb
  simp only
  cases hv : r.1.vars with
  | nil => rw [hv] at h1; simp [Gained, Vars.push] at h1
  | cons s vs =>
    rw [hv] at h1
    have hs : SameDefined a.vars vs := h1.2
    simp only [Vars.pop]
    refine ⟨hs.gained, by simp only [h2]; omega, h3, h4, fun _ => ?_, fun x hx => ?_⟩
    · rw [with_nil]; exact (sameDefined_defined hs).symm
    · left; rw [sameDefined_defined hs]; exact hx

/-- `andThenA` composes -/
theorem Analyzed.andThen {a : AState} {g g' : List Str} {A A' : Prop} {r : AState × R Unit}
    {f : AState → AState × R Unit} (h : Analyzed a g A r)
    (hf : r.2 = .ok () → Analyzed r.1 g' A' (f r.1)) :
    Analyzed a (g ++ g') (A ∧ A') (andThenA r f) := by
  obtain ⟨h1, h2, h3, h4, h5, h6⟩ := h
  obtain ⟨a', r⟩ := r
  unfold andThenA
  simp only at *
  cases r with
  | ok u =>
    obtain ⟨k1, k2, k3, k4, k5, k6⟩ := hf rfl
    refine ⟨h1.trans k1, k2.trans h2, ?_, k4, fun h => ?_, fun x hx => ?_⟩
    · rw [k3]; simp [h3.mp rfl]
    · rw [k5 h, h5 rfl, with_with]
    · rcases k6 x hx with h | h
      · rcases h6 x h with h | h
        · exact .inl h
        · exact .inr (by simp [h])
      · exact .inr (by simp [h])
  | error e =>
    refine ⟨h1, h2, ?_, h4, by simp, fun x hx => ?_⟩
    · have : ¬ A := fun hA => by simpa using h3.mpr hA
      simp [this]
    · rcases h6 x hx with h | h
      · exact .inl h
      · exact .inr (by simp [h])

theorem Analyzed.congr {a : AState} {g g' : List Str} {A A' : Prop} {r : AState × R Unit}
    (h : Analyzed a g A r) (hg : g = g') (hA : A ↔ A') : Analyzed a g' A' r := by
  subst hg
  exact ⟨h.gained, h.depth, h.verdict.trans hA, h.err, h.ok, h.atMost⟩

theorem analyzed_ensure (a : AState) (x : Err) (hx : x ≠ .controlFlow) :
    Analyzed a [] (0 < a.loopDepth) (a, ensure (decide (a.loopDepth > 0)) x) := by
  refine ⟨Gained.refl _, rfl, ?_, ?_, fun _ => (with_nil _).symm, fun _ h => .inl h⟩
  · by_cases h : 0 < a.loopDepth <;> simp [ensure, h, R.err]
  · intro f
    by_cases h : 0 < a.loopDepth
    · simp [ensure, h]
    · simp only [ensure, gt_iff_lt, h, decide_false, Bool.false_eq_true, if_false, R.err, Except.error.injEq]
      rintro rfl; exact ⟨_, rfl, hx⟩

theorem analyzed_trivial (a : AState) : Analyzed a [] True (a, .ok ()) :=
  ⟨Gained.refl _, rfl, by simp, by simp, fun _ => (with_nil _).symm, fun _ h => .inl h⟩

theorem analyzed_refused (a : AState) (x : Err) (hx : x ≠ .controlFlow) : Analyzed a [] False (a, R.err x) :=
  ⟨Gained.refl _, rfl, by simp [R.err], fun f h => by injection h with h; exact ⟨_, h.symm, hx⟩,
    fun h => by simp [R.err] at h, fun _ h => .inl h⟩

/-- a declaration -/
theorem analyzed_declare (a : AState) (n : Str) (ha : a.vars ≠ []) : Analyzed a [n] True (a.declare n) := by
  obtain ⟨vs, h, hi⟩ := declare_eq a n ha
  rw [h]
  refine ⟨insert_gained hi, rfl, by simp, by simp, fun _ => defined_insert hi, fun x hx => ?_⟩
  have hx : defined vs x := hx
  rw [defined_insert hi] at hx
  exact hx

/-- an expression, then the rest -/
theorem analyzed_exprThen (a : AState) (e : Expr) (f : AState → AState × R Unit) (g : List Str) (A : Prop)
    (hf : Analyzed a g A (f a)) :
    Analyzed a g (Reads (defined a.vars) e ∧ A)
      (match analyzeExpr a.vars e with | .ok _ => f a | .error e => (a, .error e)) := by
  have h := (analyzed_expr a e).andThen (f := f) (fun _ => hf)
  have he : andThenA (a, analyzeExpr a.vars e) f =
      (match analyzeExpr a.vars e with | .ok _ => f a | .error e => (a, .error e)) := by
    unfold andThenA; cases analyzeExpr a.vars e <;> rfl
  rw [he] at h
  simpa using h

mutual
theorem analyzed_stmt : ∀ (s : Stmt) (a : AState), a.vars ≠ [] →
    Analyzed a s.gains (Accepted (defined a.vars) (0 < a.loopDepth) s) (analyzeStmt s a)
  | .assign l r, a, ha => by
    by_cases hl : ∃ x, l = .ident x
    · obtain ⟨x, rfl⟩ := hl
      simp only [analyzeStmt, Stmt.gains, Accepted]
      have h := (analyzed_declare a x ha).andThen (f := fun a => (a, analyzeExpr a.vars r))
        (fun _ => analyzed_expr _ r)
      refine h.congr (by simp) ?_
      obtain ⟨vs, hd, hi⟩ := declare_eq a x ha
      rw [hd]
      simp only [true_and, defined_insert hi]
    · have e1 : analyzeStmt (.assign l r) a =
          (match analyzeExpr a.vars l with | .ok _ => (a, analyzeExpr a.vars r) | .error e => (a, .error e)) := by
        cases l <;> first | (simp only [analyzeStmt]; cases analyzeExpr a.vars _ <;> rfl) | exact absurd ⟨_, rfl⟩ hl
      have e2 : (Stmt.assign l r).gains = [] := by
        cases l <;> first | rfl | exact absurd ⟨_, rfl⟩ hl
      have e3 : Accepted (defined a.vars) (0 < a.loopDepth) (.assign l r) =
          (Reads (defined a.vars) l ∧ Reads (defined a.vars) r) := by
        cases l <;> first | (simp only [Accepted]; done) | exact absurd ⟨_, rfl⟩ hl
      rw [e1, e2, e3]
      exact analyzed_exprThen a l (fun a => (a, analyzeExpr a.vars r)) [] _ (analyzed_expr a r)
  | .ite c t f, a, ha => by
    simp only [analyzeStmt, Stmt.gains, Accepted]
    refine analyzed_scoped 0 a _ (gainsL t ++ gainsL f) _ ?_
    have hp : (⟨a.vars.push, a.loopDepth + 0⟩ : AState).vars ≠ [] := by simp [Vars.push]
    have h1 := analyzed_stmts t ⟨a.vars.push, a.loopDepth + 0⟩ hp
    have h2 := h1.andThen (f := analyzeStmts f)
      (A' := AcceptedL ((defined a.vars).with (gainsL t)) (0 < a.loopDepth) f) (g' := gainsL f)
      (fun hok => by
        have h3 := analyzed_stmts f (analyzeStmts t ⟨a.vars.push, a.loopDepth + 0⟩).1 (gained_ne h1.gained hp)
        rw [h1.ok hok, h1.depth, defined_push] at h3
        exact h3)
    have h3 := analyzed_exprThen ⟨a.vars.push, a.loopDepth + 0⟩ c
      (fun a => andThenA (analyzeStmts t a) (analyzeStmts f)) _ _ h2
    simp only [defined_push, Nat.zero_lt_succ, Nat.add_zero] at h3 ⊢
    revert h3
    cases analyzeExpr a.vars.push c <;> exact id
  | .while c b, a, ha => by
    simp only [analyzeStmt, Stmt.gains, Accepted]
    refine analyzed_scoped 1 a _ (gainsL b) _ ?_
    have hp : (⟨a.vars.push, a.loopDepth + 1⟩ : AState).vars ≠ [] := by simp [Vars.push]
    have h1 := analyzed_stmts b ⟨a.vars.push, a.loopDepth + 1⟩ hp
    have h3 := analyzed_exprThen ⟨a.vars.push, a.loopDepth + 1⟩ c (analyzeStmts b) _ _ h1
    simp only [defined_push, Nat.zero_lt_succ, Nat.add_zero] at h3 ⊢
    revert h3
    cases analyzeExpr a.vars.push c <;> exact id
  | .for x r b, a, ha => by
    simp only [analyzeStmt, Stmt.gains, Accepted]
    by_cases hx : ∃ n, x = .ident n
    · obtain ⟨n, rfl⟩ := hx
      have hp : (⟨a.vars.push, a.loopDepth + 1⟩ : AState).vars ≠ [] := by simp [Vars.push]
      refine analyzed_scoped 1 a _ ([n] ++ gainsL b) _ ?_
      have h0 := analyzed_declare ⟨a.vars.push, a.loopDepth + 1⟩ n hp
      have h := h0.andThen (g' := gainsL b)
        (A' := Reads ((defined a.vars).with [n]) r ∧ AcceptedL ((defined a.vars).with [n]) True b)
        (f := fun a => match analyzeExpr a.vars r with | .ok _ => analyzeStmts b a | .error e => (a, .error e))
        (fun hok => by
          have hne := gained_ne h0.gained hp
          have h1 := analyzed_stmts b (AState.declare ⟨a.vars.push, a.loopDepth + 1⟩ n).1 hne
          have h2 := analyzed_exprThen _ r (analyzeStmts b) _ _ h1
          rw [h0.ok hok, h0.depth, defined_push] at h2
          simpa using h2)
      refine h.congr rfl ?_
      simp
    · cases x
      case ident n => exact absurd ⟨_, rfl⟩ hx
      all_goals
        refine (analyzed_scoped 1 a False [] _ (analyzed_refused _ _ (by simp))).congr rfl ?_
        simp
  | .brk, a, _ => by simp only [analyzeStmt, Stmt.gains, Accepted]; exact analyzed_ensure a _ (by simp)
  | .cont, a, _ => by simp only [analyzeStmt, Stmt.gains, Accepted]; exact analyzed_ensure a _ (by simp)
  | .help, a, _ => by simp only [analyzeStmt, Stmt.gains, Accepted]; exact analyzed_trivial a
  | .quit, a, _ => by simp only [analyzeStmt, Stmt.gains, Accepted]; exact analyzed_trivial a
  | .filesystem e, a, _ => by
    cases e <;> simp only [analyzeStmt, Stmt.gains, Accepted, Expr.str.injEq, exists_eq', reduceCtorEq, exists_false]
    case str => exact analyzed_trivial a
    all_goals exact analyzed_refused a _ (by simp)
  | .print e, a, _ => by simp only [analyzeStmt, Stmt.gains, Accepted]; exact analyzed_expr a e
  | .expr e, a, _ => by simp only [analyzeStmt, Stmt.gains, Accepted]; exact analyzed_expr a e
theorem analyzed_stmts : ∀ (p : List Stmt) (a : AState), a.vars ≠ [] →
    Analyzed a (gainsL p) (AcceptedL (defined a.vars) (0 < a.loopDepth) p) (analyzeStmts p a)
  | [], a, _ => by simp only [analyzeStmts, gainsL, List.flatMap_nil, AcceptedL]; exact analyzed_trivial a
  | s :: ss, a, ha => by
    simp only [analyzeStmts, gainsL, List.flatMap_cons, AcceptedL]
    have h1 := analyzed_stmt s a ha
    refine h1.andThen (fun hok => ?_)
    have h2 := analyzed_stmts ss (analyzeStmt s a).1 (gained_ne h1.gained ha)
    rw [h1.ok hok, h1.depth] at h2
    exact h2
end

end Btrd
