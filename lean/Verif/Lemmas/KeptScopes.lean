/-
Statements leave as many scopes as there were; and those without a jump of their own end without one.
-/
import Verif.Spec.Rewrite
import Verif.Lemmas.Rewrite
import Verif.Lemmas.TraceBelow
import Verif.Lemmas.Analyzer
import Verif.Lemmas.Accepted

namespace Btrd
open Spec

/-- nothing is claimed -/
theorem leads_any {α : Type} : ∀ x : T α, Leads (fun _ => True) x
  | .ret _ => .ret trivial
  | .warn w k => .warn w (leads_any k)
  | .search _ a k => .search a fun r _ => leads_any (k r)
  | .bytes _ i j k => .bytes i j fun r _ => leads_any (k r)
  | .opens p k => .opens p fun r => leads_any (k r)

theorem vals_any {α : Type} (x : E α) : Vals (fun _ => True) x :=
  cast (congrArg (fun Q => Leads (α := R α) Q x) (funext fun r => propext ⟨fun _ _ _ => trivial, fun _ => trivial⟩)) (leads_any (α := R α) x)

/-- it ends with so many scopes -/
abbrev Level (d : Nat) (x : T (State × IRes)) : Prop := Leads (fun r => r.1.vars.length = d) x

theorem level_into {α : Type} {Q : α → Prop} {x : E α} (h : Vals Q x) {d : Nat} (st : State) (hs : st.vars.length = d)
    {k : α → T (State × IRes)} (hk : ∀ a, Q a → Level d (k a)) : Level d (x.into st k) := by
  refine Leads.bind (α := R α) (fun r hr => ?_) h
  cases r with
  | ok a => exact hk a (hr a rfl)
  | error e => exact .ret hs

theorem level_step {α : Type} (x : E α) {d : Nat} (st : State) (hs : st.vars.length = d)
    {k : α → T (State × IRes)} (hk : ∀ a, Level d (k a)) : Level d (x.into st k) :=
  level_into (vals_any x) st hs fun a _ => hk a

theorem level_write (st : State) (s : Str) : Level st.vars.length (.ret (st.write s)) := by
  refine .ret ?_
  rw [State.write_vars]

theorem level_scope (st : State) {body : State → T (State × IRes)}
    (hb : ∀ st : State, Level st.vars.length (body st)) : Level st.vars.length (inScopeT st body) := by
  refine Leads.bind (fun r hr => .ret ?_) (hb { st with vars := st.vars.push })
  obtain ⟨st', r⟩ := r
  have hr : st'.vars.length = st.vars.length + 1 := hr
  dsimp only
  cases hv : st'.vars with
  | nil => rw [hv] at hr; simp at hr
  | cons s vs => rw [hv] at hr; simp only [Vars.pop]; simpa using hr

theorem level_while {c : State → E Bool} {body : State → T (State × IRes)} {d : Nat}
    (hb : ∀ st : State, Level st.vars.length (body st)) : ∀ (n : Nat) (st : State), st.vars.length = d →
      Level d (whileLoopT c body n st)
  | 0, _, h => .ret h
  | n + 1, st, h => by
    refine level_step _ st h fun b => ?_
    cases b
    · exact .ret h
    · refine Leads.bind (fun r hr => ?_) (hb st)
      obtain ⟨st', r⟩ := r
      have hd : st'.vars.length = d := hr.trans h
      cases r with
      | ok => exact level_while hb n st' hd
      | cont => exact level_while hb n st' hd
      | _ => exact .ret hd

theorem level_for (name : Str) {body : State → T (State × IRes)} {d : Nat}
    (hb : ∀ st : State, Level st.vars.length (body st)) : ∀ (vs : List Value) (st : State), st.vars.length = d →
      Level d (forLoopT name body vs st)
  | [], _, h => .ret h
  | v :: vs, st, h => by
    refine level_into (Q := fun w => st.vars.insert name v = .ok w) (vals_of fun _ h => h) st h fun w hw => ?_
    refine Leads.bind (fun r hr => ?_) (hb { st with vars := w })
    obtain ⟨st', r⟩ := r
    have hd : st'.vars.length = d := hr.trans ((insert_length hw).trans h)
    cases r with
    | ok => exact level_for name hb vs st' hd
    | cont => exact level_for name hb vs st' hd
    | _ => exact .ret hd

theorem lhs_level (cfg : Cfg) (st : State) : ∀ (e : Expr) (f : Value → R Value),
    Vals (fun vs => vs.length = st.vars.length) (modifyLhsT cfg st e f)
  | .field e fld, f => by
    rw [modifyLhsT.eq_def]
    cases fld with
    | ident name => exact lhs_level cfg st e _
    | _ => exact vals_fail
  | .index e i, f => by
    rw [modifyLhsT.eq_def]
    exact vals_bind (vals_any _) fun _ _ => vals_then fun _ _ => lhs_level cfg st e _
  | .ident name, f => by
    rw [modifyLhsT.eq_def]
    refine vals_of fun vs h => ?_
    simp only [modifyLhs] at h
    cases hm : st.vars.modify f name with
    | none => rw [hm] at h; cases h
    | some r => rw [hm] at h; subst h; exact modify_length hm
  | .int _, _ => vals_of fun _ h => by simp [modifyLhs] at h
  | .bool _, _ => vals_of fun _ h => by simp [modifyLhs] at h
  | .str _, _ => vals_of fun _ h => by simp [modifyLhs] at h
  | .paren _, _ => vals_of fun _ h => by simp [modifyLhs] at h
  | .call _ _, _ => vals_of fun _ h => by simp [modifyLhs] at h
  | .bin _ _ _, _ => vals_of fun _ h => by simp [modifyLhs] at h
  | .un _ _, _ => vals_of fun _ h => by simp [modifyLhs] at h
  | .cast _ _, _ => vals_of fun _ h => by simp [modifyLhs] at h

theorem level_evalFor (cfg : Cfg) (x range : Expr) {body : State → T (State × IRes)}
    (hb : ∀ st : State, Level st.vars.length (body st)) (st : State) : Level st.vars.length (evalForT cfg x range body st) := by
  unfold evalForT
  cases x with
  | ident name => exact level_step _ st rfl fun v => level_step _ st rfl fun vec => level_for name hb vec st rfl
  | _ => exact .ret rfl

theorem level_assign (cfg : Cfg) (st : State) (l r : Expr) : Level st.vars.length (evalAssignT cfg st l r) := by
  refine level_step _ st rfl fun v => ?_
  cases l with
  | ident name =>
    exact level_into (Q := fun w => st.vars.insert name v = .ok w) (vals_of fun _ h => h) st rfl fun w hw => .ret (insert_length hw)
  | _ => exact level_into (lhs_level cfg st _ _) st rfl fun w hw => .ret hw

mutual
/-- a statement leaves as many scopes as there were -/
theorem stmt_level (cfg : Cfg) : ∀ (s : Stmt) (st : State), Level st.vars.length (evalStmtT cfg s st)
  | .assign l r, st => by rw [evalStmtT]; exact level_assign cfg st l r
  | .ite c t f, st => by
    rw [evalStmtT]
    refine level_scope st fun st => level_step _ st rfl fun b => ?_
    cases b
    · exact stmts_level cfg f st
    · exact stmts_level cfg t st
  | .while c body, st => by
    rw [evalStmtT]
    exact level_scope st fun st => level_while (stmts_level cfg body) _ st rfl
  | .for x r body, st => by
    rw [evalStmtT]
    exact level_scope st fun st => level_evalFor cfg x r (stmts_level cfg body) st
  | .brk, st => by rw [evalStmtT]; exact .ret rfl
  | .cont, st => by rw [evalStmtT]; exact .ret rfl
  | .help, st => by rw [evalStmtT]; exact level_write st _
  | .quit, st => by rw [evalStmtT]; exact .ret rfl
  | .filesystem e, st => by
    rw [evalStmtT]
    exact level_step _ st rfl fun v => level_step _ st rfl fun path => level_step _ st rfl fun fs => .ret rfl
  | .print e, st => by
    rw [evalStmtT]
    exact level_step _ st rfl fun v => level_step _ st rfl fun t => level_write st _
  | .expr e, st => by
    rw [evalStmtT]
    refine level_step _ st rfl fun v => ?_
    cases cfg.interactive
    · exact .ret rfl
    · exact level_step _ st rfl fun t => level_write st _
theorem stmts_level (cfg : Cfg) : ∀ (p : List Stmt) (st : State), Level st.vars.length (evalStmtsT cfg p st)
  | [], st => by rw [evalStmtsT]; exact .ret rfl
  | s :: p, st => by
    rw [evalStmtsT]
    refine Leads.bind (fun r hr => ?_) (stmt_level cfg s st)
    obtain ⟨st', r⟩ := r
    have hd : st'.vars.length = st.vars.length := hr
    cases r with
    | ok => rw [← hd]; exact stmts_level cfg p st'
    | _ => exact .ret hd
end

/-! ### jumps -/

/-- it does not end with a jump -/
abbrev Straight (x : T (State × IRes)) : Prop := Leads (fun r => r.2 ≠ .brk ∧ r.2 ≠ .cont) x

theorem straight_into {α : Type} (x : E α) (st : State)
    {k : α → T (State × IRes)} (hk : ∀ a, Straight (k a)) : Straight (x.into st k) := by
  refine Leads.bind (α := R α) (fun r hr => ?_) (vals_any x)
  cases r with
  | ok a => exact hk a
  | error e => exact .ret ⟨by simp, by simp⟩

theorem straight_write (st : State) (s : Str) : Straight (.ret (st.write s)) := by
  refine .ret ?_
  unfold State.write
  split <;> simp

theorem straight_scope (st : State) {body : State → T (State × IRes)}
    (hb : ∀ st : State, Straight (body st)) : Straight (inScopeT st body) := by
  refine Leads.bind (fun r hr => .ret ?_) (hb { st with vars := st.vars.push })
  cases r.1.vars.pop with
  | ok vs => exact hr
  | error e => exact ⟨by simp, by simp⟩

theorem straight_while {c : State → E Bool} {body : State → T (State × IRes)} : ∀ (n : Nat) (st : State),
      Straight (whileLoopT c body n st)
  | 0, _ => .ret ⟨by simp, by simp⟩
  | n + 1, st => by
    refine straight_into _ st fun b => ?_
    cases b
    · exact .ret ⟨by simp, by simp⟩
    · refine Leads.bind (fun r _ => ?_) (leads_any _)
      obtain ⟨st', r⟩ := r
      cases r with
      | ok => exact straight_while n st'
      | cont => exact straight_while n st'
      | _ => exact .ret ⟨by simp, by simp⟩

theorem straight_for (name : Str) {body : State → T (State × IRes)} : ∀ (vs : List Value) (st : State),
      Straight (forLoopT name body vs st)
  | [], _ => .ret ⟨by simp, by simp⟩
  | v :: vs, st => by
    refine straight_into _ st fun w => ?_
    refine Leads.bind (fun r _ => ?_) (leads_any _)
    obtain ⟨st', r⟩ := r
    cases r with
    | ok => exact straight_for name vs st'
    | cont => exact straight_for name vs st'
    | _ => exact .ret ⟨by simp, by simp⟩

mutual
theorem stmt_straight (cfg : Cfg) : ∀ (s : Stmt), NoJump s → ∀ st : State, Straight (evalStmtT cfg s st)
  | .assign l r, _, st => by
    rw [evalStmtT]
    refine straight_into _ st fun v => ?_
    cases l with
    | _ => exact straight_into _ st fun w => .ret ⟨by simp, by simp⟩
  | .ite c t f, h, st => by
    rw [evalStmtT]
    refine straight_scope st fun st => straight_into _ st fun b => ?_
    cases b
    · exact stmts_straight cfg f h.2 st
    · exact stmts_straight cfg t h.1 st
  | .while c body, _, st => by
    rw [evalStmtT]
    exact straight_scope st fun st => straight_while _ st
  | .for x r body, _, st => by
    rw [evalStmtT]
    refine straight_scope st fun st => ?_
    unfold evalForT
    cases x with
    | ident name => exact straight_into _ st fun v => straight_into _ st fun vec => straight_for name vec st
    | _ => exact .ret ⟨by simp, by simp⟩
  | .brk, h, st => h.elim
  | .cont, h, st => h.elim
  | .help, _, st => by rw [evalStmtT]; exact straight_write st _
  | .quit, _, st => by rw [evalStmtT]; exact .ret ⟨by simp, by simp⟩
  | .filesystem e, _, st => by
    rw [evalStmtT]
    exact straight_into _ st fun v => straight_into _ st fun path => straight_into _ st fun fs => .ret ⟨by simp, by simp⟩
  | .print e, _, st => by
    rw [evalStmtT]
    exact straight_into _ st fun v => straight_into _ st fun t => straight_write st _
  | .expr e, _, st => by
    rw [evalStmtT]
    refine straight_into _ st fun v => ?_
    cases cfg.interactive
    · exact .ret ⟨by simp, by simp⟩
    · exact straight_into _ st fun t => straight_write st _
theorem stmts_straight (cfg : Cfg) : ∀ (p : List Stmt), NoJumps p → ∀ st : State, Straight (evalStmtsT cfg p st)
  | [], _, st => by rw [evalStmtsT]; exact .ret ⟨by simp, by simp⟩
  | s :: p, h, st => by
    rw [evalStmtsT]
    refine Leads.bind (fun r hr => ?_) (stmt_straight cfg s h.1 st)
    obtain ⟨st', r⟩ := r
    cases r with
    | ok => exact stmts_straight cfg p h.2 st'
    | brk => exact absurd rfl hr.1
    | cont => exact absurd rfl hr.2
    | _ => exact .ret ⟨by simp, by simp⟩
end

mutual
/-- without jumps of its own, what is accepted in a loop is accepted anywhere -/
theorem accepted_anywhere : ∀ (s : Stmt), NoJump s → ∀ {D : Names} {loop loop' : Prop}, Accepted D loop s → Accepted D loop' s
  | .assign l r, _, _, _, _, h => by cases l <;> exact h
  | .ite c t f, hj, _, _, _, h => ⟨h.1, acceptedL_anywhere t hj.1 h.2.1, acceptedL_anywhere f hj.2 h.2.2⟩
  | .while c b, _, _, _, _, h => h
  | .for x r b, _, _, _, _, h => h
  | .brk, hj, _, _, _, _ => hj.elim
  | .cont, hj, _, _, _, _ => hj.elim
  | .help, _, _, _, _, h => h
  | .quit, _, _, _, _, h => h
  | .filesystem e, _, _, _, _, h => h
  | .print e, _, _, _, _, h => h
  | .expr e, _, _, _, _, h => h
theorem acceptedL_anywhere : ∀ (p : List Stmt), NoJumps p → ∀ {D : Names} {loop loop' : Prop}, AcceptedL D loop p → AcceptedL D loop' p
  | [], _, _, _, _, h => h
  | s :: p, hj, _, _, _, h => ⟨accepted_anywhere s hj.1 h.1, acceptedL_anywhere p hj.2 h.2⟩
end

end Btrd
