/-
Induction principles over the execution of statements.
-/
import Verif.Model.Eval

namespace Btrd

mutual
/-- every expression of the statement satisfies `P` -/
def Stmt.AllE (P : Expr → Prop) : Stmt → Prop
  | .assign l r => P l ∧ P r
  | .ite c t f => P c ∧ allE P t ∧ allE P f
  | .while c body => P c ∧ allE P body
  | .for x r body => P x ∧ P r ∧ allE P body
  | .filesystem e => P e
  | .print e => P e
  | .expr e => P e
  | .brk => True
  | .cont => True
  | .help => True
  | .quit => True
/-- every expression of the statements satisfies `P` -/
def allE (P : Expr → Prop) : List Stmt → Prop
  | [] => True
  | s :: ss => s.AllE P ∧ allE P ss
end

mutual
theorem Stmt.allE_true : ∀ s : Stmt, s.AllE fun _ => True
  | .assign _ _ => ⟨trivial, trivial⟩
  | .ite _ t f => ⟨trivial, allE_true t, allE_true f⟩
  | .while _ body => ⟨trivial, allE_true body⟩
  | .for _ _ body => ⟨trivial, trivial, allE_true body⟩
  | .filesystem _ => trivial
  | .print _ => trivial
  | .expr _ => trivial
  | .brk => trivial
  | .cont => trivial
  | .help => trivial
  | .quit => trivial
theorem allE_true : ∀ ss : List Stmt, allE (fun _ => True) ss
  | [] => trivial
  | s :: ss => ⟨s.allE_true, allE_true ss⟩
end

/-- the steps that an invariant must survive -/
structure InvClosed (cfg : Cfg) (PE : Expr → Prop) (I : State → Prop) : Prop where
  push : ∀ st, I st → I { st with vars := st.vars.push }
  pop : ∀ st vs, I st → st.vars.pop = .ok vs → I { st with vars := vs }
  assign : ∀ st l r, PE l → PE r → I st → I (evalAssign cfg st l r).1
  filesystem : ∀ st e, PE e → I st → I (evalFilesystem cfg st e).1
  write : ∀ st s, I st → I (st.write s).1
  bind : ∀ st e items h, PE e → I st → evalExpr cfg st e = .ok (.array items h) → ∀ v ∈ items,
    ∀ st' name vs, I st' → st'.vars.insert name v = .ok vs → I { st' with vars := vs }

section
variable {cfg : Cfg} {PE : Expr → Prop} {I : State → Prop}

theorem inScope_inv (h : InvClosed cfg PE I) (st : State) (body : State → State × IRes)
    (hb : ∀ st, I st → I (body st).1) (hi : I st) : I (inScope st body).1 := by
  unfold inScope
  have h1 := hb _ (h.push st hi)
  generalize body { st with vars := st.vars.push } = r at h1
  simp only
  cases hp : r.1.vars.pop with
  | ok vs => exact h.pop _ _ h1 hp
  | error e => exact h1

theorem whileLoop_inv (cond : State → R Bool) (body : State → State × IRes)
    (hb : ∀ st, I st → I (body st).1) : ∀ fuel st, I st → I (whileLoop cond body fuel st).1 := by
  intro fuel
  induction fuel with
  | zero => intro st hi; simpa [whileLoop] using hi
  | succ n ih =>
    intro st hi
    unfold whileLoop
    cases hc : cond st with
    | error f => exact hi
    | ok b =>
      cases b with
      | false => exact hi
      | true =>
        simp only
        have h1 := hb st hi
        generalize body st = r at h1
        obtain ⟨st', r⟩ := r
        cases r with
        | ok => exact ih _ h1
        | cont => exact ih _ h1
        | brk => exact h1
        | quit => exact h1
        | fail f => exact h1

theorem forLoop_inv (name : Str) (body : State → State × IRes) (hb : ∀ st, I st → I (body st).1) :
    ∀ items : List Value,
    (∀ v ∈ items, ∀ st' vs, I st' → st'.vars.insert name v = .ok vs → I { st' with vars := vs }) →
    ∀ st, I st → I (forLoop name body items st).1 := by
  intro items
  induction items with
  | nil => intro _ st hi; simpa [forLoop] using hi
  | cons v vs ih =>
    intro hv st hi
    unfold forLoop
    cases hc : st.vars.insert name v with
    | error f => exact hi
    | ok vars =>
      simp only
      have h1 := hb _ (hv v (by simp) st vars hi hc)
      generalize body { st with vars := vars } = r at h1
      obtain ⟨st', r⟩ := r
      have ih := ih (fun w hw => hv w (by simp [hw]))
      cases r with
      | ok => exact ih _ h1
      | cont => exact ih _ h1
      | brk => exact h1
      | quit => exact h1
      | fail f => exact h1

theorem evalFor_inv (h : InvClosed cfg PE I) (x r : Expr) (hr : PE r) (body : State → State × IRes)
    (hb : ∀ st, I st → I (body st).1) (st : State) (hi : I st) : I (evalFor cfg x r body st).1 := by
  unfold evalFor
  split
  · rename_i name
    cases he : evalExpr cfg st r with
    | error f => exact hi
    | ok v =>
      simp only
      cases v with
      | array items k =>
        simp only [Value.asVec]
        exact forLoop_inv name body hb items (fun v hv st' vs hi' hc =>
          h.bind st r items k hr hi he v hv st' name vs hi' hc) st hi
      | _ => exact hi
  · exact hi

mutual
theorem evalStmt_inv (h : InvClosed cfg PE I) :
    ∀ (s : Stmt), s.AllE PE → ∀ st, I st → I (evalStmt cfg s st).1
  | .assign l r, hs, st, hi => by
    rw [evalStmt]; exact h.assign st l r hs.1 hs.2 hi
  | .ite c t f, hs, st, hi => by
    rw [evalStmt]
    apply inScope_inv h st _ _ hi
    intro st hi
    cases evalCond cfg st c with
    | error e => exact hi
    | ok b => cases b
              · exact evalStmts_inv h f hs.2.2 st hi
              · exact evalStmts_inv h t hs.2.1 st hi
  | .while c body, hs, st, hi => by
    rw [evalStmt]
    apply inScope_inv h st _ _ hi
    intro st hi
    exact whileLoop_inv _ _ (fun st hi => evalStmts_inv h body hs.2 st hi) cfg.fuel st hi
  | .for x r body, hs, st, hi => by
    rw [evalStmt]
    apply inScope_inv h st _ _ hi
    intro st hi
    exact evalFor_inv h x r hs.2.1 _ (fun st hi => evalStmts_inv h body hs.2.2 st hi) st hi
  | .brk, _, st, hi => by rw [evalStmt]; exact hi
  | .cont, _, st, hi => by rw [evalStmt]; exact hi
  | .help, _, st, hi => by rw [evalStmt]; exact h.write st _ hi
  | .quit, _, st, hi => by rw [evalStmt]; exact hi
  | .filesystem e, hs, st, hi => by rw [evalStmt]; exact h.filesystem st e hs hi
  | .print e, hs, st, hi => by
    rw [evalStmt, evalPrint]
    cases evalExpr cfg st e with
    | error f => exact hi
    | ok v =>
      simp only
      cases printText cfg v with
      | error f => exact hi
      | ok t => exact h.write st _ hi
  | .expr e, hs, st, hi => by
    rw [evalStmt, evalExprStmt]
    cases evalExpr cfg st e with
    | error f => exact hi
    | ok v =>
      simp only
      split
      · cases v.display with
        | error f => exact hi
        | ok t => exact h.write st _ hi
      · exact hi
theorem evalStmts_inv (h : InvClosed cfg PE I) :
    ∀ (ss : List Stmt), allE PE ss → ∀ st, I st → I (evalStmts cfg ss st).1
  | [], _, st, hi => by rw [evalStmts]; exact hi
  | s :: ss, hs, st, hi => by
    rw [evalStmts]
    have h1 := evalStmt_inv h s hs.1 st hi
    generalize evalStmt cfg s st = r at h1
    obtain ⟨st', r⟩ := r
    cases r with
    | ok => exact evalStmts_inv h ss hs.2 st' h1
    | brk => exact h1
    | cont => exact h1
    | quit => exact h1
    | fail f => exact h1
end

end

mutual
/-- every assignment target satisfies `PL` and every loop variable `PX` -/
def Stmt.AllT (PL PX : Expr → Prop) : Stmt → Prop
  | .assign l _ => PL l
  | .ite _ t f => allT PL PX t ∧ allT PL PX f
  | .while _ body => allT PL PX body
  | .for x _ body => PX x ∧ allT PL PX body
  | .filesystem _ => True
  | .print _ => True
  | .expr _ => True
  | .brk => True
  | .cont => True
  | .help => True
  | .quit => True
/-- every assignment target satisfies `PL` and every loop variable `PX` -/
def allT (PL PX : Expr → Prop) : List Stmt → Prop
  | [] => True
  | s :: ss => s.AllT PL PX ∧ allT PL PX ss
end

mutual
theorem Stmt.allT_true : ∀ s : Stmt, s.AllT (fun _ => True) fun _ => True
  | .assign _ _ => trivial
  | .ite _ t f => ⟨allT_true t, allT_true f⟩
  | .while _ body => allT_true body
  | .for _ _ body => ⟨trivial, allT_true body⟩
  | .filesystem _ => trivial
  | .print _ => trivial
  | .expr _ => trivial
  | .brk => trivial
  | .cont => trivial
  | .help => trivial
  | .quit => trivial
theorem allT_true : ∀ ss : List Stmt, allT (fun _ => True) (fun _ => True) ss
  | [] => trivial
  | s :: ss => ⟨s.allT_true, allT_true ss⟩
end

/-- the steps a relation between the variables before and after must survive -/
structure RelClosed (cfg : Cfg) (PL PX : Expr → Prop) (Rel : Vars Value → Vars Value → Prop) : Prop where
  refl : ∀ vs, Rel vs vs
  trans : ∀ {a b c}, Rel a b → Rel b c → Rel a c
  scope : ∀ vs vs' vs'', Rel vs.push vs' → vs'.pop = .ok vs'' → Rel vs vs''
  scopeErr : ∀ vs vs' e, Rel vs.push vs' → vs'.pop = .error e → Rel vs vs'
  assign : ∀ st l r, PL l → Rel st.vars (evalAssign cfg st l r).1.vars
  bind : ∀ vs name v vs', PX (.ident name) → vs.insert name v = .ok vs' → Rel vs vs'

theorem State.write_vars (st : State) (s : Str) : (st.write s).1.vars = st.vars := by
  unfold State.write
  split <;> rfl

theorem evalFilesystem_vars (cfg : Cfg) (st : State) (e : Expr) :
    (evalFilesystem cfg st e).1.vars = st.vars := by
  unfold evalFilesystem
  split
  · rfl
  · split
    · rfl
    · split <;> rfl

theorem evalPrint_vars (cfg : Cfg) (st : State) (e : Expr) : (evalPrint cfg st e).1.vars = st.vars := by
  unfold evalPrint
  split
  · rfl
  · split
    · rfl
    · exact State.write_vars _ _

theorem evalExprStmt_vars (cfg : Cfg) (st : State) (e : Expr) :
    (evalExprStmt cfg st e).1.vars = st.vars := by
  unfold evalExprStmt
  split
  · rfl
  · split
    · split
      · rfl
      · exact State.write_vars _ _
    · rfl

section
variable {cfg : Cfg} {PL PX : Expr → Prop} {Rel : Vars Value → Vars Value → Prop}

theorem inScope_rel (h : RelClosed cfg PL PX Rel) (st : State) (body : State → State × IRes)
    (hb : ∀ st, Rel st.vars (body st).1.vars) : Rel st.vars (inScope st body).1.vars := by
  unfold inScope
  have h1 := hb { st with vars := st.vars.push }
  generalize body { st with vars := st.vars.push } = r at h1
  simp only
  cases hp : r.1.vars.pop with
  | ok vs => exact h.scope _ _ _ h1 hp
  | error e => exact h.scopeErr _ _ _ h1 hp

theorem whileLoop_rel (h : RelClosed cfg PL PX Rel) (cond : State → R Bool) (body : State → State × IRes)
    (hb : ∀ st, Rel st.vars (body st).1.vars) :
    ∀ fuel st, Rel st.vars (whileLoop cond body fuel st).1.vars := by
  intro fuel
  induction fuel with
  | zero => intro st; exact h.refl _
  | succ n ih =>
    intro st
    unfold whileLoop
    cases hc : cond st with
    | error f => exact h.refl _
    | ok b =>
      cases b with
      | false => exact h.refl _
      | true =>
        simp only
        have h1 := hb st
        generalize body st = r at h1
        obtain ⟨st', r⟩ := r
        cases r with
        | ok => exact h.trans h1 (ih _)
        | cont => exact h.trans h1 (ih _)
        | brk => exact h1
        | quit => exact h1
        | fail f => exact h1

theorem forLoop_rel (h : RelClosed cfg PL PX Rel) (name : Str) (hn : PX (.ident name))
    (body : State → State × IRes) (hb : ∀ st, Rel st.vars (body st).1.vars) :
    ∀ (items : List Value) st, Rel st.vars (forLoop name body items st).1.vars := by
  intro items
  induction items with
  | nil => intro st; exact h.refl _
  | cons v vs ih =>
    intro st
    unfold forLoop
    cases hc : st.vars.insert name v with
    | error f => exact h.refl _
    | ok vars =>
      simp only
      have h0 := h.bind _ _ _ _ hn hc
      have h1 := h.trans h0 (hb { st with vars := vars })
      generalize body { st with vars := vars } = r at h1
      obtain ⟨st', r⟩ := r
      cases r with
      | ok => exact h.trans h1 (ih _)
      | cont => exact h.trans h1 (ih _)
      | brk => exact h1
      | quit => exact h1
      | fail f => exact h1

theorem evalFor_rel (h : RelClosed cfg PL PX Rel) (x r : Expr) (hx : PX x) (body : State → State × IRes)
    (hb : ∀ st, Rel st.vars (body st).1.vars) (st : State) : Rel st.vars (evalFor cfg x r body st).1.vars := by
  unfold evalFor
  split
  · cases he : evalExpr cfg st r with
    | error f => exact h.refl _
    | ok v =>
      simp only
      cases v with
      | array items k => exact forLoop_rel h _ hx body hb items st
      | _ => exact h.refl _
  · exact h.refl _

mutual
theorem evalStmt_rel (h : RelClosed cfg PL PX Rel) :
    ∀ (s : Stmt), s.AllT PL PX → ∀ st, Rel st.vars (evalStmt cfg s st).1.vars
  | .assign l r, hs, st => by
    rw [evalStmt]; exact h.assign st l r hs
  | .ite c t f, hs, st => by
    rw [evalStmt]
    apply inScope_rel h st
    intro st
    cases evalCond cfg st c with
    | error e => exact h.refl _
    | ok b => cases b
              · exact evalStmts_rel h f hs.2 st
              · exact evalStmts_rel h t hs.1 st
  | .while c body, hs, st => by
    rw [evalStmt]
    apply inScope_rel h st
    intro st
    exact whileLoop_rel h _ _ (fun st => evalStmts_rel h body hs st) cfg.fuel st
  | .for x r body, hs, st => by
    rw [evalStmt]
    apply inScope_rel h st
    intro st
    exact evalFor_rel h x r hs.1 _ (fun st => evalStmts_rel h body hs.2 st) st
  | .brk, _, st => by rw [evalStmt]; exact h.refl _
  | .cont, _, st => by rw [evalStmt]; exact h.refl _
  | .help, _, st => by rw [evalStmt, State.write_vars]; exact h.refl _
  | .quit, _, st => by rw [evalStmt]; exact h.refl _
  | .filesystem e, _, st => by rw [evalStmt, evalFilesystem_vars]; exact h.refl _
  | .print e, _, st => by rw [evalStmt, evalPrint_vars]; exact h.refl _
  | .expr e, _, st => by rw [evalStmt, evalExprStmt_vars]; exact h.refl _
theorem evalStmts_rel (h : RelClosed cfg PL PX Rel) :
    ∀ (ss : List Stmt), allT PL PX ss → ∀ st, Rel st.vars (evalStmts cfg ss st).1.vars
  | [], _, st => by rw [evalStmts]; exact h.refl _
  | s :: ss, hs, st => by
    rw [evalStmts]
    have h1 := evalStmt_rel h s hs.1 st
    generalize evalStmt cfg s st = r at h1
    obtain ⟨st', r⟩ := r
    cases r with
    | ok => exact h.trans h1 (evalStmts_rel h ss hs.2 st')
    | brk => exact h1
    | cont => exact h1
    | quit => exact h1
    | fail f => exact h1
end

end

end Btrd
