/-
A program and the program with other names for its variables, side by side.
-/
import Verif.Lemmas.Sim
import Verif.Lemmas.Pieces

namespace Btrd
open Spec

set_option linter.unusedSectionVars false

section
variable {X : Names} {ρ : Str → Str} (hρ : Distinguishes X ρ)

/-! ### variables -/

theorem vars_get {T : Type} {x : Str} (hx : X x) : ∀ {vs vs' : Vars T}, SameVars X ρ vs vs' → vs'.get (ρ x) = vs.get x
  | _, _, .nil => rfl
  | _, _, .cons h hs => by rw [Vars.get, Vars.get, h x hx, vars_get hx hs]

theorem vars_push {T : Type} {vs vs' : Vars T} (h : SameVars X ρ vs vs') : SameVars X ρ vs.push vs'.push :=
  .cons (fun _ _ => rfl) h

include hρ in
theorem scope_set {T : Type} {s s' : Scope T} (h : ∀ x, X x → s' (ρ x) = s x) {x : Str} (hx : X x) (v : T) :
    ∀ y, X y → s'.set (ρ x) v (ρ y) = s.set x v y := by
  intro y hy
  unfold Scope.set
  by_cases hyx : y = x
  · subst hyx; simp
  · rw [if_neg hyx, if_neg (fun hh => hyx (hρ _ _ hy hx hh)), h y hy]

/-- both nothing, or both something related -/
def Both {α β : Type} (Q : α → β → Prop) : Option α → Option β → Prop
  | none, none => True
  | some a, some b => Q a b
  | _, _ => False

include hρ in
theorem vars_overwrite {T : Type} {x : Str} (hx : X x) (v : T) : ∀ {vs vs' : Vars T}, SameVars X ρ vs vs' →
    Both (SameVars X ρ) (vs.overwrite x v) (vs'.overwrite (ρ x) v)
  | _, _, .nil => trivial
  | s :: vs, s' :: vs', .cons h hs => by
    rw [Vars.overwrite, Vars.overwrite, h x hx]
    cases s x with
    | some w => exact List.Forall₂.cons (scope_set hρ h hx v) hs
    | none =>
      have := vars_overwrite hx v hs
      dsimp only
      generalize Vars.overwrite vs x v = a at this
      generalize Vars.overwrite vs' (ρ x) v = b at this
      cases a <;> cases b <;> first | exact this.elim | trivial | exact List.Forall₂.cons h this

include hρ in
theorem vars_insert {T : Type} {x : Str} (hx : X x) (v : T) {vs vs' : Vars T} (h : SameVars X ρ vs vs') :
    Via ρ (SameVars X ρ) (vs.insert x v) (vs'.insert (ρ x) v) := by
  have := vars_overwrite hρ hx v h
  unfold Vars.insert
  generalize Vars.overwrite vs x v = a at this
  generalize Vars.overwrite vs' (ρ x) v = b at this
  cases a <;> cases b <;> first | exact this.elim | exact this | skip
  cases h with
  | nil => exact rfl
  | cons h hs => exact List.Forall₂.cons (scope_set hρ h hx v) hs

include hρ in
theorem vars_modify {T : Type} {f : T → R T} (hf : ∀ v, Only Nameless (f v)) {x : Str} (hx : X x) :
    ∀ {vs vs' : Vars T}, SameVars X ρ vs vs' →
      Both (Via ρ (SameVars X ρ)) (vs.modify f x) (vs'.modify f (ρ x))
  | _, _, .nil => trivial
  | s :: vs, s' :: vs', .cons h hs => by
    rw [Vars.modify, Vars.modify, h x hx]
    cases s x with
    | some w =>
      dsimp only
      cases hw : f w with
      | ok v => exact List.Forall₂.cons (scope_set hρ h hx v) hs
      | error e => exact (renameFail_nameless (hf w e hw)).symm
    | none =>
      have := vars_modify hf hx hs
      dsimp only
      generalize Vars.modify f vs x = a at this
      generalize Vars.modify f vs' (ρ x) = b at this
      cases a <;> cases b <;> first | exact this.elim | trivial | skip
      rename_i a b
      cases a <;> cases b <;> first | exact this.elim | exact this | exact List.Forall₂.cons h this

/-- two states of the evaluator -/
structure SameSt (X : Names) (ρ : Str → Str) (a b : State) : Prop where
  vars : SameVars X ρ a.vars b.vars
  fs : b.fs = a.fs
  sink : b.sink = a.sink

/-! ### expressions -/

mutual
theorem expr_rename (cfg : Cfg) {st st' : State} (h : SameSt X ρ st st') : ∀ e : Expr, (∀ x ∈ e.uses, X x) →
    SimE ρ Eq (evalExprT cfg st e) (evalExprT cfg st' (e.rename ρ))
  | .ident x, hx => by
    rw [Expr.rename, evalExprT, evalExprT, vars_get (hx x (by simp [Expr.uses])) h.vars]
    cases st.vars.get x with
    | some v => exact sim_pure (only_ok _)
    | none => exact sim_of rfl
  | .int _, _ => by rw [Expr.rename, evalExprT, evalExprT]; exact sim_pure (only_ok _)
  | .bool _, _ => by rw [Expr.rename, evalExprT, evalExprT]; exact sim_pure (only_ok _)
  | .str _, _ => by rw [Expr.rename, evalExprT, evalExprT]; exact sim_pure (only_ok _)
  | .paren e, hx => by rw [Expr.rename, evalExprT, evalExprT]; exact expr_rename cfg h e (by simpa [Expr.uses] using hx)
  | .field e f, hx => by
    rw [Expr.rename, evalExprT, evalExprT]
    exact sim_fieldOp (expr_rename cfg h e (by simpa [Expr.uses] using hx)) f
  | .index e i, hx => by
    simp only [Expr.uses, List.mem_append] at hx
    rw [Expr.rename, evalExprT, evalExprT]
    exact sim_indexOp (expr_rename cfg h e fun x hh => hx x (.inl hh)) (expr_rename cfg h i fun x hh => hx x (.inr hh))
  | .call f args, hx => by
    simp only [Expr.uses, List.mem_append] at hx
    rw [Expr.rename, evalExprT, evalExprT, h.fs]
    exact sim_callFn cfg _ (expr_rename cfg h f fun x hh => hx x (.inl hh)) (args_rename cfg h args fun x hh => hx x (.inr hh))
  | .bin op l r, hx => by
    simp only [Expr.uses, List.mem_append] at hx
    rw [Expr.rename, evalExprT, evalExprT]
    exact sim_binop op (expr_rename cfg h l fun x hh => hx x (.inl hh)) (expr_rename cfg h r fun x hh => hx x (.inr hh))
  | .un op e, hx => by
    rw [Expr.rename, evalExprT, evalExprT]
    exact sim_unop _ op (expr_rename cfg h e (by simpa [Expr.uses] using hx))
  | .cast ty e, hx => by
    rw [Expr.rename, evalExprT, evalExprT, h.fs]
    exact sim_castOp _ _ ty (expr_rename cfg h e (by simpa [Expr.uses] using hx))
theorem args_rename (cfg : Cfg) {st st' : State} (h : SameSt X ρ st st') : ∀ es : List Expr, (∀ x ∈ usesL es, X x) →
    SimArgs ρ (evalArgsT cfg st es) (evalArgsT cfg st' (renameL ρ es))
  | [], _ => by rw [renameL, evalArgsT, evalArgsT]; exact .nil
  | e :: es, hx => by
    simp only [usesL, List.mem_append] at hx
    rw [renameL, evalArgsT, evalArgsT]
    exact .cons (expr_rename cfg h e fun x hh => hx x (.inl hh)) (args_rename cfg h es fun x hh => hx x (.inr hh))
end

theorem cond_rename (cfg : Cfg) {st st' : State} (h : SameSt X ρ st st') (c : Expr) (hx : ∀ x ∈ c.uses, X x) :
    SimE ρ Eq (evalCondT cfg st c) (evalCondT cfg st' (c.rename ρ)) :=
  (expr_rename cfg h c hx).bindEq fun _ => sim_pure (only_asBoolean nameless _)

include hρ in
theorem lhs_rename (cfg : Cfg) {st st' : State} (h : SameSt X ρ st st') : ∀ (e : Expr) (f : Value → R Value),
    (∀ v, Only Nameless (f v)) → (∀ x ∈ e.uses, X x) →
    SimE ρ (SameVars X ρ) (modifyLhsT cfg st e f) (modifyLhsT cfg st' (e.rename ρ) f)
  | .ident x, f, hf, hx => by
    rw [Expr.rename, modifyLhsT, modifyLhsT, modifyLhs, modifyLhs] <;> try simp
    have := vars_modify hρ hf (hx x (by simp [Expr.uses])) h.vars
    generalize st.vars.modify f x = a at this
    generalize st'.vars.modify f (ρ x) = b at this
    cases a <;> cases b <;> first | exact this.elim | exact sim_of this | exact sim_of rfl
  | .field e fld, f, hf, hx => by
    cases fld
    case ident name =>
      rw [Expr.rename, modifyLhsT, modifyLhsT]
      refine lhs_rename cfg h e _ (fun v => ?_) (by simpa [Expr.uses] using hx)
      split
      · exact only_bind (only_modifyField nameless hf _ _) fun _ _ => only_ok _
      · exact only_err nameless _ (by simp)
    all_goals
      rw [Expr.rename, modifyLhsT, modifyLhsT] <;> first | exact sim_of rfl | simp
  | .index e i, f, hf, hx => by
    simp only [Expr.uses, List.mem_append] at hx
    rw [Expr.rename, modifyLhsT, modifyLhsT]
    refine (expr_rename cfg h i fun x hh => hx x (.inr hh)).bindEq fun _ => sim_then (only_asInteger nameless _) fun _ _ => ?_
    refine lhs_rename cfg h e _ (fun v => ?_) fun x hh => hx x (.inl hh)
    split
    · exact only_bind (only_tryUnsigned nameless _ _) fun _ _ => only_bind (only_modifyNth nameless hf _ _) fun _ _ => only_ok _
    · exact only_err nameless _ (by simp)
  | .int _, _, _, _ => by rw [Expr.rename, modifyLhsT, modifyLhsT] <;> first | exact sim_of rfl | simp
  | .bool _, _, _, _ => by rw [Expr.rename, modifyLhsT, modifyLhsT] <;> first | exact sim_of rfl | simp
  | .str _, _, _, _ => by rw [Expr.rename, modifyLhsT, modifyLhsT] <;> first | exact sim_of rfl | simp
  | .paren _, _, _, _ => by rw [Expr.rename, modifyLhsT, modifyLhsT] <;> first | exact sim_of rfl | simp
  | .call _ _, _, _, _ => by rw [Expr.rename, modifyLhsT, modifyLhsT] <;> first | exact sim_of rfl | simp
  | .bin _ _ _, _, _, _ => by rw [Expr.rename, modifyLhsT, modifyLhsT] <;> first | exact sim_of rfl | simp
  | .un _ _, _, _, _ => by rw [Expr.rename, modifyLhsT, modifyLhsT] <;> first | exact sim_of rfl | simp
  | .cast _ _, _, _, _ => by rw [Expr.rename, modifyLhsT, modifyLhsT] <;> first | exact sim_of rfl | simp

/-! ### statements -/

/-- a result in terms of the new names -/
def renameIRes (ρ : Str → Str) : IRes → IRes
  | .fail f => .fail (renameFail ρ f)
  | r => r

/-- states and results -/
def SameRun (X : Names) (ρ : Str → Str) (a b : State × IRes) : Prop := SameSt X ρ a.1 b.1 ∧ b.2 = renameIRes ρ a.2

theorem SimE.into {α β : Type} {Q : α → β → Prop} {x : E α} {y : E β} (h : SimE ρ Q x y) {st st' : State}
    (hs : SameSt X ρ st st') {k : α → T (State × IRes)} {k' : β → T (State × IRes)}
    (hk : ∀ a b, Q a b → Sim (SameRun X ρ) (k a) (k' b)) : Sim (SameRun X ρ) (x.into st k) (y.into st' k') := by
  refine Sim.bind (fun a b hab => ?_) h
  cases a <;> cases b <;> first | exact hab.elim | skip
  · refine .ret ⟨hs, ?_⟩
    rw [show _ = renameFail ρ _ from hab]
    rfl
  · exact hk _ _ hab

theorem SimE.intoEq {α : Type} {x y : E α} (h : SimE ρ Eq x y) {st st' : State}
    (hs : SameSt X ρ st st') {k k' : α → T (State × IRes)}
    (hk : ∀ a, Sim (SameRun X ρ) (k a) (k' a)) : Sim (SameRun X ρ) (x.into st k) (y.into st' k') :=
  h.into hs fun a _ hab => hab ▸ hk a

theorem write_rename {st st' : State} (h : SameSt X ρ st st') (s : Str) :
    Sim (SameRun X ρ) (.ret (st.write s)) (.ret (st'.write s)) := by
  refine .ret ?_
  unfold State.write
  rw [h.sink]
  generalize hw : st.sink.write s = w
  obtain ⟨k, r⟩ := w
  cases r with
  | ok _ => exact ⟨⟨h.vars, h.fs, rfl⟩, rfl⟩
  | error e =>
    refine ⟨⟨h.vars, h.fs, rfl⟩, ?_⟩
    unfold Sink.write at hw
    split at hw
    · simp at hw
    · split at hw
      · simp at hw
      · simp only [Prod.mk.injEq, R.err, Except.error.injEq] at hw
        rw [← hw.2]
        rfl

theorem sim_vars {st st' : State} (h : SameSt X ρ st st') (vs vs' : Vars Value) (hv : SameVars X ρ vs vs') :
    Sim (SameRun X ρ) (.ret ({ st with vars := vs }, .ok)) (.ret ({ st' with vars := vs' }, .ok)) :=
  .ret ⟨⟨hv, h.fs, h.sink⟩, rfl⟩

include hρ in
theorem assign_rename (cfg : Cfg) {st st' : State} (h : SameSt X ρ st st') (l r : Expr) (hl : ∀ x ∈ l.uses, X x)
    (hr : ∀ x ∈ r.uses, X x) :
    Sim (SameRun X ρ) (evalAssignT cfg st l r) (evalAssignT cfg st' (l.rename ρ) (r.rename ρ)) := by
  refine (expr_rename cfg h r hr).intoEq h fun v => ?_
  have hlhs := lhs_rename hρ cfg h l (fun _ => .ok v) (fun _ => only_ok _) hl
  cases l
  case ident x =>
    rw [Expr.rename]
    exact (sim_of (vars_insert hρ (hl x (by simp [Expr.uses])) v h.vars)).into h (sim_vars h)
  all_goals
    rw [Expr.rename] at hlhs ⊢
    exact hlhs.into h (sim_vars h)

theorem scope_rename {st st' : State} (h : SameSt X ρ st st') {body body' : State → T (State × IRes)}
    (hb : ∀ st st', SameSt X ρ st st' → Sim (SameRun X ρ) (body st) (body' st')) :
    Sim (SameRun X ρ) (inScopeT st body) (inScopeT st' body') := by
  refine Sim.bind (fun a b hab => .ret ?_) (hb _ _ ⟨vars_push h.vars, h.fs, h.sink⟩)
  obtain ⟨⟨h1, h2, h3⟩, h4⟩ := hab
  generalize hva : a.1.vars = va at h1
  generalize hvb : b.1.vars = vb at h1
  cases h1 with
  | nil => exact ⟨⟨by show SameVars X ρ a.1.vars b.1.vars; rw [hva, hvb]; exact .nil, h2, h3⟩, rfl⟩
  | cons _ hs => exact ⟨⟨hs, h2, h3⟩, h4⟩

theorem while_rename {cond cond' : State → E Bool} {body body' : State → T (State × IRes)}
    (hc : ∀ st st', SameSt X ρ st st' → SimE ρ Eq (cond st) (cond' st'))
    (hb : ∀ st st', SameSt X ρ st st' → Sim (SameRun X ρ) (body st) (body' st')) :
    ∀ (fuel : Nat) (st st' : State), SameSt X ρ st st' →
      Sim (SameRun X ρ) (whileLoopT cond body fuel st) (whileLoopT cond' body' fuel st')
  | 0, st, st', h => .ret ⟨h, rfl⟩
  | fuel + 1, st, st', h => by
    refine (hc _ _ h).intoEq h fun b => ?_
    cases b
    · exact .ret ⟨h, rfl⟩
    · refine Sim.bind (fun a b hab => ?_) (hb _ _ h)
      obtain ⟨a, r⟩ := a
      obtain ⟨b, r'⟩ := b
      obtain ⟨h1, rfl⟩ := hab
      cases r
      · exact while_rename hc hb fuel _ _ h1
      · exact .ret ⟨h1, rfl⟩
      · exact .ret ⟨h1, rfl⟩
      · exact while_rename hc hb fuel _ _ h1
      · exact .ret ⟨h1, rfl⟩

include hρ in
theorem forLoop_rename {x : Str} (hx : X x) {body body' : State → T (State × IRes)}
    (hb : ∀ st st', SameSt X ρ st st' → Sim (SameRun X ρ) (body st) (body' st')) :
    ∀ (vs : List Value) (st st' : State), SameSt X ρ st st' →
      Sim (SameRun X ρ) (forLoopT x body vs st) (forLoopT (ρ x) body' vs st')
  | [], st, st', h => .ret ⟨h, rfl⟩
  | v :: vs, st, st', h => by
    refine (sim_of (vars_insert hρ hx v h.vars)).into h fun w w' hw => ?_
    refine Sim.bind (fun a b hab => ?_) (hb _ _ ⟨hw, h.fs, h.sink⟩)
    obtain ⟨a, r⟩ := a
    obtain ⟨b, r'⟩ := b
    obtain ⟨h1, rfl⟩ := hab
    cases r
    · exact forLoop_rename hx hb vs _ _ h1
    · exact .ret ⟨h1, rfl⟩
    · exact .ret ⟨h1, rfl⟩
    · exact forLoop_rename hx hb vs _ _ h1
    · exact .ret ⟨h1, rfl⟩

include hρ in
theorem for_rename (cfg : Cfg) {st st' : State} (h : SameSt X ρ st st') (x r : Expr) (hx : ∀ y ∈ x.uses, X y)
    (hr : ∀ y ∈ r.uses, X y) {body body' : State → T (State × IRes)}
    (hb : ∀ st st', SameSt X ρ st st' → Sim (SameRun X ρ) (body st) (body' st')) :
    Sim (SameRun X ρ) (evalForT cfg x r body st) (evalForT cfg (x.rename ρ) (r.rename ρ) body' st') := by
  cases x
  case ident x =>
    rw [Expr.rename]
    exact (expr_rename cfg h r hr).intoEq h fun v => (sim_pure (only_asVec nameless v)).intoEq h fun items =>
      forLoop_rename hρ (hx x (by simp [Expr.uses])) hb items _ _ h
  all_goals
    rw [Expr.rename]
    exact .ret ⟨h, rfl⟩

theorem only_fsNew (h : Host) (p : Str) : Only Nameless (Fs.new h p) := by
  unfold Fs.new Fs.newMounted Fs.newUnmounted
  split
  · split
    · exact only_err nameless _ (by simp)
    · split
      · exact only_ok _
      · exact only_err nameless _ (by simp)
  · split
    · split
      · exact only_err nameless _ (by simp)
      · split
        · exact only_ok _
        · exact only_err nameless _ (by simp)
    · exact only_err nameless _ (by simp)

theorem filesystem_rename (cfg : Cfg) {st st' : State} (h : SameSt X ρ st st') (e : Expr) (hx : ∀ y ∈ e.uses, X y) :
    Sim (SameRun X ρ) (evalFilesystemT cfg st e) (evalFilesystemT cfg st' (e.rename ρ)) := by
  refine (expr_rename cfg h e hx).intoEq h fun v => (sim_pure (only_asString nameless _ v)).intoEq h fun path => ?_
  refine Sim.opens _ fun hh => ?_
  have := only_fsNew hh path
  generalize Fs.new hh path = r at this
  cases r with
  | ok fs => exact .ret ⟨⟨h.vars, rfl, h.sink⟩, rfl⟩
  | error f =>
    refine .ret ⟨h, ?_⟩
    show IRes.fail f = .fail (renameFail ρ f)
    rw [renameFail_nameless (this f rfl)]

theorem print_rename (cfg : Cfg) {st st' : State} (h : SameSt X ρ st st') (e : Expr) (hx : ∀ y ∈ e.uses, X y) :
    Sim (SameRun X ρ) (evalPrintT cfg st e) (evalPrintT cfg st' (e.rename ρ)) := by
  refine (expr_rename cfg h e hx).intoEq h fun v => (sim_pure ?_).intoEq h fun t => write_rename h _
  unfold printText
  split
  · exact only_asHist_panics nameless nameless_panic _ _ _
  · exact only_asString nameless _ _
  · exact only_display _

theorem exprStmt_rename (cfg : Cfg) {st st' : State} (h : SameSt X ρ st st') (e : Expr) (hx : ∀ y ∈ e.uses, X y) :
    Sim (SameRun X ρ) (evalExprStmtT cfg st e) (evalExprStmtT cfg st' (e.rename ρ)) := by
  refine (expr_rename cfg h e hx).intoEq h fun v => ?_
  split
  · exact (sim_pure (only_display _)).intoEq h fun t => write_rename h _
  · exact .ret ⟨h, rfl⟩

include hρ in
mutual
theorem stmt_rename (cfg : Cfg) : ∀ (s : Stmt) (st st' : State), (∀ x ∈ s.mentions, X x) → SameSt X ρ st st' →
    Sim (SameRun X ρ) (evalStmtT cfg s st) (evalStmtT cfg (s.rename ρ) st')
  | .assign l r, st, st', hx, h => by
    simp only [Stmt.mentions, List.mem_append] at hx
    rw [Stmt.rename, evalStmtT, evalStmtT]
    exact assign_rename hρ cfg h l r (fun x hh => hx x (.inl hh)) (fun x hh => hx x (.inr hh))
  | .ite c t f, st, st', hx, h => by
    simp only [Stmt.mentions, List.mem_append] at hx
    rw [Stmt.rename, evalStmtT, evalStmtT]
    refine scope_rename h fun st st' h => (cond_rename cfg h c fun x hh => hx x (.inl (.inl hh))).intoEq h fun b => ?_
    cases b
    · exact stmts_rename cfg f st st' (fun x hh => hx x (.inr hh)) h
    · exact stmts_rename cfg t st st' (fun x hh => hx x (.inl (.inr hh))) h
  | .while c b, st, st', hx, h => by
    simp only [Stmt.mentions, List.mem_append] at hx
    rw [Stmt.rename, evalStmtT, evalStmtT]
    exact scope_rename h fun st st' h => while_rename (fun st st' h => cond_rename cfg h c fun x hh => hx x (.inl hh))
      (fun st st' h => stmts_rename cfg b st st' (fun x hh => hx x (.inr hh)) h) _ _ _ h
  | .for x r b, st, st', hx, h => by
    simp only [Stmt.mentions, List.mem_append] at hx
    rw [Stmt.rename, evalStmtT, evalStmtT]
    exact scope_rename h fun st st' h => for_rename hρ cfg h x r (fun x hh => hx x (.inl (.inl hh)))
      (fun x hh => hx x (.inl (.inr hh))) (fun st st' h => stmts_rename cfg b st st' (fun x hh => hx x (.inr hh)) h)
  | .brk, st, st', _, h => by rw [Stmt.rename, evalStmtT, evalStmtT]; exact .ret ⟨h, rfl⟩
  | .cont, st, st', _, h => by rw [Stmt.rename, evalStmtT, evalStmtT]; exact .ret ⟨h, rfl⟩
  | .help, st, st', _, h => by rw [Stmt.rename, evalStmtT, evalStmtT]; exact write_rename h _
  | .quit, st, st', _, h => by rw [Stmt.rename, evalStmtT, evalStmtT]; exact .ret ⟨h, rfl⟩
  | .filesystem e, st, st', hx, h => by
    rw [Stmt.rename, evalStmtT, evalStmtT]; exact filesystem_rename cfg h e (by simpa [Stmt.mentions] using hx)
  | .print e, st, st', hx, h => by
    rw [Stmt.rename, evalStmtT, evalStmtT]; exact print_rename cfg h e (by simpa [Stmt.mentions] using hx)
  | .expr e, st, st', hx, h => by
    rw [Stmt.rename, evalStmtT, evalStmtT]; exact exprStmt_rename cfg h e (by simpa [Stmt.mentions] using hx)
theorem stmts_rename (cfg : Cfg) : ∀ (p : List Stmt) (st st' : State), (∀ x ∈ mentionsP p, X x) → SameSt X ρ st st' →
    Sim (SameRun X ρ) (evalStmtsT cfg p st) (evalStmtsT cfg (renameP ρ p) st')
  | [], st, st', _, h => by rw [renameP, evalStmtsT, evalStmtsT]; exact .ret ⟨h, rfl⟩
  | s :: p, st, st', hx, h => by
    simp only [mentionsP, List.mem_append] at hx
    rw [renameP, evalStmtsT, evalStmtsT]
    refine Sim.bind (fun a b hab => ?_) (stmt_rename cfg s st st' (fun x hh => hx x (.inl hh)) h)
    obtain ⟨a, r⟩ := a
    obtain ⟨b, r'⟩ := b
    obtain ⟨h1, rfl⟩ := hab
    cases r
    · exact stmts_rename cfg p _ _ (fun x hh => hx x (.inr hh)) h1
    all_goals exact .ret ⟨h1, rfl⟩
end

/-! ### analysis -/

theorem via_then {r r' s s' : R Unit} : Via ρ Eq r r' → Via ρ Eq s s' →
    Via ρ Eq (match r with | .ok _ => s | .error x => .error x) (match r' with | .ok _ => s' | .error x => .error x) := by
  intro h hs
  cases r <;> cases r' <;> first | exact h.elim | exact h | exact hs

mutual
theorem analyze_rename {vs vs' : Vars Unit} (h : SameVars X ρ vs vs') : ∀ e : Expr, (∀ x ∈ e.uses, X x) →
    Via ρ Eq (analyzeExpr vs e) (analyzeExpr vs' (e.rename ρ))
  | .ident x, hx => by
    rw [Expr.rename, analyzeExpr, analyzeExpr, vars_get (hx x (by simp [Expr.uses])) h]
    cases vs.get x <;> exact rfl
  | .int _, _ => by rw [Expr.rename, analyzeExpr, analyzeExpr]; exact rfl
  | .bool _, _ => by rw [Expr.rename, analyzeExpr, analyzeExpr]; exact rfl
  | .str _, _ => by rw [Expr.rename, analyzeExpr, analyzeExpr]; exact rfl
  | .paren e, hx => by
    rw [Expr.rename, analyzeExpr, analyzeExpr]; exact analyze_rename h e (by simpa [Expr.uses] using hx)
  | .field e f, hx => by
    have := analyze_rename h e (by simpa [Expr.uses] using hx)
    cases f <;> (rw [Expr.rename, analyzeExpr, analyzeExpr] <;> first | exact this | exact rfl | simp)
  | .index e i, hx => by
    simp only [Expr.uses, List.mem_append] at hx
    rw [Expr.rename, analyzeExpr, analyzeExpr]
    exact via_then (analyze_rename h e fun x hh => hx x (.inl hh)) (analyze_rename h i fun x hh => hx x (.inr hh))
  | .call f args, hx => by
    simp only [Expr.uses, List.mem_append] at hx
    rw [Expr.rename, analyzeExpr, analyzeExpr]
    exact via_then (analyze_rename h f fun x hh => hx x (.inl hh)) (analyzeArgs_rename h args fun x hh => hx x (.inr hh))
  | .bin op l r, hx => by
    simp only [Expr.uses, List.mem_append] at hx
    rw [Expr.rename, analyzeExpr, analyzeExpr]
    exact via_then (analyze_rename h l fun x hh => hx x (.inl hh)) (analyze_rename h r fun x hh => hx x (.inr hh))
  | .un op e, hx => by
    rw [Expr.rename, analyzeExpr, analyzeExpr]; exact analyze_rename h e (by simpa [Expr.uses] using hx)
  | .cast ty e, hx => by
    have := analyze_rename h e (by simpa [Expr.uses] using hx)
    cases ty
    case ident n =>
      rw [Expr.rename, analyzeExpr, analyzeExpr]
      split
      · exact this
      · exact rfl
    all_goals (rw [Expr.rename, analyzeExpr, analyzeExpr] <;> first | exact rfl | simp)
theorem analyzeArgs_rename {vs vs' : Vars Unit} (h : SameVars X ρ vs vs') : ∀ es : List Expr, (∀ x ∈ usesL es, X x) →
    Via ρ Eq (analyzeArgs vs es) (analyzeArgs vs' (renameL ρ es))
  | [], _ => by rw [renameL, analyzeArgs, analyzeArgs]; exact rfl
  | e :: es, hx => by
    simp only [usesL, List.mem_append] at hx
    rw [renameL, analyzeArgs, analyzeArgs]
    exact via_then (analyze_rename h e fun x hh => hx x (.inl hh)) (analyzeArgs_rename h es fun x hh => hx x (.inr hh))
end

/-- two states of the analyzer -/
structure SameA (X : Names) (ρ : Str → Str) (a b : AState) : Prop where
  vars : SameVars X ρ a.vars b.vars
  depth : b.loopDepth = a.loopDepth

/-- states and results of the analyzer -/
def SameAR (X : Names) (ρ : Str → Str) (a b : AState × R Unit) : Prop := SameA X ρ a.1 b.1 ∧ Via ρ Eq a.2 b.2

include hρ in
theorem declare_rename {a b : AState} (h : SameA X ρ a b) {x : Str} (hx : X x) :
    SameAR X ρ (a.declare x) (b.declare (ρ x)) := by
  have := vars_insert hρ hx () h.vars
  unfold AState.declare
  generalize a.vars.insert x () = r at this
  generalize b.vars.insert (ρ x) () = r' at this
  cases r <;> cases r' <;> first | exact this.elim | skip
  · exact ⟨h, this⟩
  · exact ⟨⟨this, h.depth⟩, rfl⟩

theorem andThenA_rename {r r' : AState × R Unit} (h : SameAR X ρ r r') {f f' : AState → AState × R Unit}
    (hf : ∀ a b, SameA X ρ a b → SameAR X ρ (f a) (f' b)) : SameAR X ρ (andThenA r f) (andThenA r' f') := by
  obtain ⟨a, r⟩ := r
  obtain ⟨b, r'⟩ := r'
  obtain ⟨h1, h2⟩ := h
  cases r <;> cases r' <;> first | exact h2.elim | skip
  · exact ⟨h1, h2⟩
  · exact hf _ _ h1

theorem scopedA_rename (d : Nat) {a b : AState} (h : SameA X ρ a b) {f f' : AState → AState × R Unit}
    (hf : ∀ a b, SameA X ρ a b → SameAR X ρ (f a) (f' b)) : SameAR X ρ (scopedA d a f) (scopedA d b f') := by
  have := hf ⟨a.vars.push, a.loopDepth + d⟩ ⟨b.vars.push, b.loopDepth + d⟩ ⟨vars_push h.vars, by rw [h.depth]⟩
  unfold scopedA
  dsimp only
  generalize f ⟨a.vars.push, a.loopDepth + d⟩ = r at this
  generalize f' ⟨b.vars.push, b.loopDepth + d⟩ = r' at this
  obtain ⟨⟨va, da⟩, r⟩ := r
  obtain ⟨⟨vb, db⟩, r'⟩ := r'
  obtain ⟨⟨h1, h2⟩, h3⟩ := this
  dsimp only at h1 h2 h3 ⊢
  cases h1 with
  | nil => exact ⟨⟨.nil, h2⟩, rfl⟩
  | cons _ hs => exact ⟨⟨hs, by rw [h2]; rfl⟩, h3⟩

theorem exprA_rename {r r' : R Unit} {a b : AState} {s s' : AState × R Unit} : Via ρ Eq r r' → SameA X ρ a b →
    SameAR X ρ s s' →
    SameAR X ρ (match r with | .ok _ => s | .error e => (a, .error e)) (match r' with | .ok _ => s' | .error e => (b, .error e)) := by
  intro h hab hs
  cases r <;> cases r' <;> first | exact h.elim | exact ⟨hab, h⟩ | exact hs

include hρ in
mutual
theorem analyzeStmt_rename : ∀ (s : Stmt) (a b : AState), (∀ x ∈ s.mentions, X x) → SameA X ρ a b →
    SameAR X ρ (analyzeStmt s a) (analyzeStmt (s.rename ρ) b)
  | .assign l r, a, b, hx, h => by
    simp only [Stmt.mentions, List.mem_append] at hx
    have hr := fun x hh => hx x (.inr hh)
    have hl := fun x hh => hx x (.inl hh)
    have hlhs := analyze_rename h.vars l hl
    cases l
    case ident x =>
      rw [Stmt.rename, Expr.rename, analyzeStmt, analyzeStmt]
      exact andThenA_rename (declare_rename hρ h (hl x (by simp [Expr.uses]))) fun a b hab => ⟨hab, analyze_rename hab.vars r hr⟩
    all_goals
      rw [Expr.rename] at hlhs
      rw [Stmt.rename, Expr.rename, analyzeStmt, analyzeStmt] <;>
        first | exact exprA_rename hlhs h ⟨h, analyze_rename h.vars r hr⟩ | simp
  | .ite c t f, a, b, hx, h => by
    simp only [Stmt.mentions, List.mem_append] at hx
    rw [Stmt.rename, analyzeStmt, analyzeStmt]
    exact scopedA_rename 0 h fun a b hab => exprA_rename (analyze_rename hab.vars c fun x hh => hx x (.inl (.inl hh))) hab
      (andThenA_rename (analyzeStmts_rename t a b (fun x hh => hx x (.inl (.inr hh))) hab) fun a b hab =>
        analyzeStmts_rename f a b (fun x hh => hx x (.inr hh)) hab)
  | .while c body, a, b, hx, h => by
    simp only [Stmt.mentions, List.mem_append] at hx
    rw [Stmt.rename, analyzeStmt, analyzeStmt]
    exact scopedA_rename 1 h fun a b hab => exprA_rename (analyze_rename hab.vars c fun x hh => hx x (.inl hh)) hab
      (analyzeStmts_rename body a b (fun x hh => hx x (.inr hh)) hab)
  | .for x r body, a, b, hx, h => by
    simp only [Stmt.mentions, List.mem_append] at hx
    rw [Stmt.rename, analyzeStmt, analyzeStmt]
    refine scopedA_rename 1 h fun a b hab => ?_
    cases x
    case ident x =>
      rw [Expr.rename]
      exact andThenA_rename (declare_rename hρ hab (hx x (by simp [Expr.uses]))) fun a b hab =>
        exprA_rename (analyze_rename hab.vars r fun x hh => hx x (.inl (.inr hh))) hab
          (analyzeStmts_rename body a b (fun x hh => hx x (.inr hh)) hab)
    all_goals
      rw [Expr.rename]
      exact ⟨hab, rfl⟩
  | .brk, a, b, _, h => by
    rw [Stmt.rename, analyzeStmt, analyzeStmt, h.depth]
    exact ⟨h, via_same (only_ensure nameless _ _ (by simp))⟩
  | .cont, a, b, _, h => by
    rw [Stmt.rename, analyzeStmt, analyzeStmt, h.depth]
    exact ⟨h, via_same (only_ensure nameless _ _ (by simp))⟩
  | .help, a, b, _, h => by rw [Stmt.rename, analyzeStmt, analyzeStmt]; exact ⟨h, rfl⟩
  | .quit, a, b, _, h => by rw [Stmt.rename, analyzeStmt, analyzeStmt]; exact ⟨h, rfl⟩
  | .filesystem e, a, b, _, h => by
    cases e <;> (rw [Stmt.rename, Expr.rename, analyzeStmt, analyzeStmt] <;> first | exact ⟨h, rfl⟩ | simp)
  | .print e, a, b, hx, h => by
    rw [Stmt.rename, analyzeStmt, analyzeStmt]; exact ⟨h, analyze_rename h.vars e (by simpa [Stmt.mentions] using hx)⟩
  | .expr e, a, b, hx, h => by
    rw [Stmt.rename, analyzeStmt, analyzeStmt]; exact ⟨h, analyze_rename h.vars e (by simpa [Stmt.mentions] using hx)⟩
theorem analyzeStmts_rename : ∀ (p : List Stmt) (a b : AState), (∀ x ∈ mentionsP p, X x) → SameA X ρ a b →
    SameAR X ρ (analyzeStmts p a) (analyzeStmts (renameP ρ p) b)
  | [], a, b, _, h => by rw [renameP, analyzeStmts, analyzeStmts]; exact ⟨h, rfl⟩
  | s :: p, a, b, hx, h => by
    simp only [mentionsP, List.mem_append] at hx
    rw [renameP, analyzeStmts, analyzeStmts]
    exact andThenA_rename (analyzeStmt_rename s a b (fun x hh => hx x (.inl hh)) h) fun a b hab =>
      analyzeStmts_rename p a b (fun x hh => hx x (.inr hh)) hab
end

end

end Btrd
