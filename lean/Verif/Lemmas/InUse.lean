/-
Every request goes to the filesystem in use.
-/
import Verif.Spec.InUse
import Verif.Lemmas.Live

namespace Btrd
open Spec

/-- a computation that starts with this filesystem in use and asks no other, unless it opened it; and what is in use at
its end -/
inductive Uses {α : Type} (Q : α → Option Fs → Prop) : Option Fs → T α → Prop
  | ret {cur a} : Q a cur → Uses Q cur (.ret a)
  | warn {cur} (w) {k} : Uses Q cur k → Uses Q cur (.warn w k)
  | search {fs} (a) {k} : (∀ r, Uses Q (some fs) (k r)) → Uses Q (some fs) (.search fs a k)
  | bytes {fs} (i j) {k} : (∀ r, Uses Q (some fs) (k r)) → Uses Q (some fs) (.bytes fs i j k)
  | opens {cur} (p) {k} : (∀ fs, Uses Q (some fs) (k (.ok fs))) → (∀ e, Uses Q cur (k (.error e))) → Uses Q cur (.opens p k)

theorem Uses.bind {α β : Type} {Q : α → Option Fs → Prop} {S : β → Option Fs → Prop} {f : α → T β}
    (hf : ∀ a c, Q a c → Uses S c (f a)) {cur : Option Fs} {x : T α} (h : Uses Q cur x) : Uses S cur (x.bind f) := by
  induction h with
  | ret h => exact hf _ _ h
  | warn w _ ih => exact .warn w ih
  | search a _ ih => exact .search a ih
  | bytes i j _ ih => exact .bytes i j ih
  | opens p _ _ ih ih' => exact .opens p ih ih'

theorem Uses.log {α : Type} {Q : α → Option Fs → Prop} (fuel : Nat) (ω : Live) {cur : Option Fs} {x : T α}
    (h : Uses Q cur x) : ∀ t, ∃ cur', InUse fuel ω t cur (x.live fuel ω t).log (x.live fuel ω t).clock cur' ∧
      Q (x.live fuel ω t).result cur' := by
  induction h with
  | ret h => exact fun t => ⟨_, .nil, h⟩
  | warn w _ ih => intro t; obtain ⟨c, h1, h2⟩ := ih t; exact ⟨c, .warned h1, h2⟩
  | @search fs a _ _ ih =>
    intro t
    obtain ⟨c, h1, h2⟩ := ih ((ω.drift t fs).search fuel a) (t + 1)
    exact ⟨c, .searched h1, h2⟩
  | @bytes fs i j _ _ ih =>
    intro t
    obtain ⟨c, h1, h2⟩ := ih ((ω.drift t fs).getBytes i j) (t + 1)
    exact ⟨c, .read h1, h2⟩
  | @opens cur p k _ _ ih ih' =>
    intro t
    cases hr : Fs.new (ω.host t) p with
    | ok fs =>
      obtain ⟨c, h1, h2⟩ := ih fs (t + 1)
      refine ⟨c, ?_, ?_⟩
      · simp only [T.live, after_log, after_clock, hr]; exact .opened hr h1
      · simp only [T.live, after_result, hr]; exact h2
    | error e =>
      obtain ⟨c, h1, h2⟩ := ih' e (t + 1)
      refine ⟨c, ?_, ?_⟩
      · simp only [T.live, after_log, after_clock, hr]; exact .refused hr h1
      · simp only [T.live, after_result, hr]; exact h2

/-! ### expressions -/

/-- a computation that only asks this filesystem -/
def UsesE {α : Type} (cur : Option Fs) (x : E α) : Prop := Uses (α := R α) (fun _ c => c = cur) cur x

section
variable {cur : Option Fs} {α β : Type}

theorem usese_of (r : R α) : UsesE cur (E.of r) := .ret rfl

theorem usese_bind {x : E α} {f : α → E β} (h : UsesE cur x) (hf : ∀ a, UsesE cur (f a)) : UsesE cur (x >>= f) := by
  refine Uses.bind (α := R α) (fun r c hc => ?_) h
  subst hc
  cases r with
  | ok a => exact hf a
  | error e => exact .ret rfl

theorem usese_intOp (f : Int → Int → R Value) {l r : E Value} (hl : UsesE cur l) (hr : UsesE cur r) :
    UsesE cur (intOpT f l r) :=
  usese_bind hl fun _ => usese_bind (usese_of _) fun _ => usese_bind hr fun _ => usese_bind (usese_of _) fun _ => usese_of _

theorem usese_binop (op : BinOp) {l r : E Value} (hl : UsesE cur l) (hr : UsesE cur r) : UsesE cur (binopT op l r) := by
  cases op <;> (try exact usese_intOp _ hl hr)
  · exact usese_bind hl fun _ => usese_bind hr fun _ => usese_of _
  · exact usese_bind hl fun _ => usese_bind hr fun _ => usese_of _
  · exact usese_bind hl fun _ => usese_bind hr fun _ => usese_of _
  · refine usese_bind hl fun _ => usese_bind (usese_of _) fun c => ?_
    split
    · exact usese_of _
    · exact usese_bind hr fun _ => usese_bind (usese_of _) fun _ => usese_of _
  · refine usese_bind hl fun _ => usese_bind (usese_of _) fun c => ?_
    split
    · exact usese_of _
    · exact usese_bind hr fun _ => usese_bind (usese_of _) fun _ => usese_of _

theorem usese_cast (b : Build) (ty : Expr) {x : E Value} (h : UsesE cur x) : UsesE cur (castOpT b cur ty x) := by
  refine usese_bind h fun _ => usese_bind (usese_of _) fun p => ?_
  by_cases hp : p < 0
  · simp only [hp, if_true]; exact usese_of _
  · simp only [hp, if_false]
    cases ty with
    | ident name =>
      dsimp only
      cases findStruct name with
      | none => exact usese_of _
      | some s =>
        cases cur with
        | none => exact usese_of _
        | some fs =>
          exact usese_bind (usese_of _) fun _ => usese_bind (.bytes _ _ fun _ => .ret rfl) fun _ =>
            usese_bind (usese_of _) fun _ => usese_of _
    | _ => exact usese_of _

theorem usese_intArgs : ∀ {args : List (E Value)}, (∀ x ∈ args, UsesE cur x) → UsesE cur (intArgsT args)
  | [], _ => usese_of _
  | _ :: _, h => usese_bind (h _ (by simp)) fun _ => usese_bind (usese_of _) fun _ =>
      usese_bind (usese_intArgs fun x hx => h x (by simp [hx])) fun _ => usese_of _

theorem usese_decode (b : Build) : ∀ its : List Item, UsesE cur (decodeItemsT b its)
  | [] => usese_of _
  | (h, bytes) :: its => by
    rw [decodeItemsT]
    cases structForKey h.objectid h.ty h.offset with
    | some s => exact usese_bind (usese_of _) fun _ => usese_bind (usese_decode b its) fun _ => usese_of _
    | none => exact usese_bind (.warn _ (.ret rfl)) fun _ => usese_decode b its

theorem usese_searchFn (b : Build) {args : List (E Value)} (h : ∀ x ∈ args, UsesE cur x) :
    UsesE cur (searchFnT b cur args) := by
  refine usese_bind (usese_of _) fun _ => ?_
  match args, h with
  | [], _ => exact usese_of _
  | [_], _ => exact usese_of _
  | [a0, a1], h =>
    refine usese_bind (h _ (by simp)) fun _ => usese_bind (usese_of _) fun _ => usese_bind (h _ (by simp)) fun _ =>
      usese_bind (usese_of _) fun _ => usese_bind (usese_of _) fun _ => ?_
    cases cur with
    | none => exact usese_of _
    | some fs =>
      exact usese_bind (usese_of _) fun sa => usese_bind (.search _ fun _ => .ret rfl) fun _ =>
        usese_bind (usese_decode b _) fun _ => usese_of _
  | _ :: _ :: _ :: _, _ => exact usese_of _

theorem usese_arg1 (msg : Str) {args : List (E Value)} (h : ∀ x ∈ args, UsesE cur x) : UsesE cur (arg1T msg args) := by
  refine usese_bind (usese_of _) fun _ => ?_
  match args, h with
  | [], _ => exact usese_of _
  | [a], h => exact h a (by simp)
  | _ :: _ :: _, _ => exact usese_of _

theorem usese_call (cfg : Cfg) {f : E Value} {args : List (E Value)} (hf : UsesE cur f)
    (h : ∀ x ∈ args, UsesE cur x) : UsesE cur (callFnT cfg cur f args) := by
  refine usese_bind hf fun _ => usese_bind (usese_of _) fun fn => ?_
  cases fn with
  | key => exact usese_bind (usese_of _) fun _ => usese_bind (usese_intArgs h) fun _ => usese_of _
  | search => exact usese_searchFn _ h
  | hist => exact usese_bind (usese_of _) fun _ => usese_of _
  | _ => exact usese_bind (usese_arg1 _ h) fun _ => usese_of _

theorem usese_index {x i : E Value} (hx : UsesE cur x) (hi : UsesE cur i) : UsesE cur (indexOpT x i) :=
  usese_bind hx fun _ => usese_bind (usese_of _) fun _ => usese_bind hi fun _ => usese_bind (usese_of _) fun _ =>
    usese_bind (usese_of _) fun _ => usese_of _

end

mutual
theorem usese_expr (cfg : Cfg) (st : State) : ∀ e : Expr, UsesE st.fs (evalExprT cfg st e)
  | .ident _ => by rw [evalExprT]; exact usese_of _
  | .int _ => by rw [evalExprT]; exact usese_of _
  | .bool _ => by rw [evalExprT]; exact usese_of _
  | .str _ => by rw [evalExprT]; exact usese_of _
  | .paren e => by rw [evalExprT]; exact usese_expr cfg st e
  | .field e f => by rw [evalExprT]; exact usese_bind (usese_expr cfg st e) fun _ => usese_of _
  | .index e i => by rw [evalExprT]; exact usese_index (usese_expr cfg st e) (usese_expr cfg st i)
  | .call f args => by rw [evalExprT]; exact usese_call cfg (usese_expr cfg st f) (usese_args cfg st args)
  | .bin op l r => by rw [evalExprT]; exact usese_binop op (usese_expr cfg st l) (usese_expr cfg st r)
  | .un op e => by rw [evalExprT]; exact usese_bind (usese_expr cfg st e) fun _ => usese_of _
  | .cast ty e => by rw [evalExprT]; exact usese_cast _ ty (usese_expr cfg st e)
theorem usese_args (cfg : Cfg) (st : State) : ∀ (es : List Expr), ∀ x ∈ evalArgsT cfg st es, UsesE st.fs x
  | [] => by rw [evalArgsT]; simp
  | e :: es => by
    rw [evalArgsT]
    intro x hx
    rcases List.mem_cons.1 hx with rfl | hx
    · exact usese_expr cfg st e
    · exact usese_args cfg st es x hx
end

theorem usese_cond (cfg : Cfg) (st : State) (e : Expr) : UsesE st.fs (evalCondT cfg st e) :=
  usese_bind (usese_expr cfg st e) fun _ => usese_of _

theorem usese_lhs (cfg : Cfg) (st : State) : ∀ (e : Expr) (f : Value → R Value), UsesE st.fs (modifyLhsT cfg st e f)
  | .field e fld, f => by
    rw [modifyLhsT.eq_def]
    cases fld with
    | ident name => exact usese_lhs cfg st e _
    | _ => exact usese_of _
  | .index e i, f => by
    rw [modifyLhsT.eq_def]
    exact usese_bind (usese_expr cfg st i) fun _ => usese_bind (usese_of _) fun _ => usese_lhs cfg st e _
  | .ident _, _ => usese_of _
  | .int _, _ => usese_of _
  | .bool _, _ => usese_of _
  | .str _, _ => usese_of _
  | .paren _, _ => usese_of _
  | .call _ _, _ => usese_of _
  | .bin _ _ _, _ => usese_of _
  | .un _ _, _ => usese_of _
  | .cast _ _, _ => usese_of _

/-! ### statements -/

/-- the filesystem in use is that of the state -/
def UsesS (cur : Option Fs) (x : T (State × IRes)) : Prop := Uses (fun r c => r.1.fs = c) cur x

theorem uses_into {α : Type} {cur : Option Fs} {x : E α} (h : UsesE cur x) (st : State) (hs : st.fs = cur)
    {k : α → T (State × IRes)} (hk : ∀ a, UsesS cur (k a)) : UsesS cur (x.into st k) := by
  refine Uses.bind (α := R α) (fun r c hc => ?_) h
  subst hc
  cases r with
  | ok a => exact hk a
  | error e => exact .ret hs

theorem write_uses (st : State) (s : Str) : (st.write s).1.fs = st.fs := by
  unfold State.write; split <;> rfl

section
variable (cfg : Cfg)

theorem uses_assign (st : State) (l r : Expr) : UsesS st.fs (evalAssignT cfg st l r) := by
  refine uses_into (usese_expr cfg st r) st rfl fun v => ?_
  cases l with
  | ident name => exact uses_into (usese_of _) st rfl fun _ => .ret rfl
  | _ => exact uses_into (usese_lhs cfg st _ _) st rfl fun _ => .ret rfl

theorem uses_exprStmt (st : State) (e : Expr) : UsesS st.fs (evalExprStmtT cfg st e) := by
  refine uses_into (usese_expr cfg st e) st rfl fun v => ?_
  cases cfg.interactive
  · exact .ret rfl
  · exact uses_into (usese_of _) st rfl fun _ => .ret (write_uses ..)

theorem uses_scope (st : State) {body : State → T (State × IRes)} (h : ∀ st, UsesS st.fs (body st)) :
    UsesS st.fs (inScopeT st body) := by
  refine Uses.bind (fun r c hc => .ret ?_) (h { st with vars := st.vars.push })
  subst hc
  cases r.1.vars.pop <;> rfl

theorem uses_while {c : State → E Bool} {body : State → T (State × IRes)} (hc : ∀ st, UsesE st.fs (c st))
    (hb : ∀ st, UsesS st.fs (body st)) : ∀ (n : Nat) (st : State), UsesS st.fs (whileLoopT c body n st)
  | 0, _ => .ret rfl
  | n + 1, st => by
    refine uses_into (hc st) st rfl fun c => ?_
    cases c
    · exact .ret rfl
    · refine Uses.bind (fun r c hc' => ?_) (hb st)
      subst hc'
      obtain ⟨st', r⟩ := r
      cases r with
      | ok => exact uses_while hc hb n st'
      | cont => exact uses_while hc hb n st'
      | _ => exact .ret rfl

theorem uses_for (name : Str) {body : State → T (State × IRes)}
    (hb : ∀ st, UsesS st.fs (body st)) : ∀ (vs : List Value) (st : State), UsesS st.fs (forLoopT name body vs st)
  | [], _ => .ret rfl
  | v :: vs, st => by
    refine uses_into (usese_of _) st rfl fun w => Uses.bind (fun r c hc => ?_) (hb { st with vars := w })
    subst hc
    obtain ⟨st', r⟩ := r
    cases r with
    | ok => exact uses_for name hb vs st'
    | cont => exact uses_for name hb vs st'
    | _ => exact .ret rfl

theorem uses_evalFor (x range : Expr) {body : State → T (State × IRes)} (hb : ∀ st, UsesS st.fs (body st)) (st : State) :
    UsesS st.fs (evalForT cfg x range body st) := by
  unfold evalForT
  cases x with
  | ident name =>
    exact uses_into (usese_expr cfg st range) st rfl fun _ => uses_into (usese_of _) st rfl fun _ => uses_for name hb _ st
  | _ => exact .ret rfl

theorem uses_filesystem (st : State) (e : Expr) : UsesS st.fs (evalFilesystemT cfg st e) := by
  refine uses_into (usese_expr cfg st e) st rfl fun v => uses_into (usese_of _) st rfl fun path => ?_
  exact Uses.opens path (fun fs => .ret rfl) fun e => .ret rfl

mutual
theorem uses_stmt : ∀ (s : Stmt) (st : State), UsesS st.fs (evalStmtT cfg s st)
  | .assign l r, st => by rw [evalStmtT]; exact uses_assign cfg st l r
  | .ite c t f, st => by
    rw [evalStmtT]
    refine uses_scope st fun st => uses_into (usese_cond cfg st c) st rfl fun b => ?_
    cases b
    · exact uses_stmts f st
    · exact uses_stmts t st
  | .while c body, st => by
    rw [evalStmtT]
    exact uses_scope st fun st => uses_while (fun st => usese_cond cfg st c) (fun st => uses_stmts body st) _ st
  | .for x r body, st => by
    rw [evalStmtT]
    exact uses_scope st fun st => uses_evalFor cfg x r (fun st => uses_stmts body st) st
  | .brk, st => by rw [evalStmtT]; exact .ret rfl
  | .cont, st => by rw [evalStmtT]; exact .ret rfl
  | .help, st => by rw [evalStmtT]; exact .ret (write_uses ..)
  | .quit, st => by rw [evalStmtT]; exact .ret rfl
  | .filesystem e, st => by rw [evalStmtT]; exact uses_filesystem cfg st e
  | .print e, st => by
    rw [evalStmtT]
    exact uses_into (usese_expr cfg st e) st rfl fun _ => uses_into (usese_of _) st rfl fun _ => .ret (write_uses ..)
  | .expr e, st => by rw [evalStmtT]; exact uses_exprStmt cfg st e
theorem uses_stmts : ∀ (ss : List Stmt) (st : State), UsesS st.fs (evalStmtsT cfg ss st)
  | [], st => by rw [evalStmtsT]; exact .ret rfl
  | s :: ss, st => by
    rw [evalStmtsT]
    refine Uses.bind (fun r c hc => ?_) (uses_stmt s st)
    subst hc
    obtain ⟨st', r⟩ := r
    cases r with
    | ok => exact uses_stmts ss st'
    | _ => exact .ret rfl
end

theorem uses_runtime (rs : RState) (cmd : Str) :
    Uses (fun r c => r.1.ev.fs = c) rs.ev.fs (runtimeEvalT cfg rs cmd) := by
  unfold runtimeEvalT
  cases parse cmd with
  | none => exact .ret rfl
  | some p =>
    dsimp only
    generalize analyzeStmts p rs.sem = r
    obtain ⟨sem, r⟩ := r
    cases r with
    | error e => exact .ret rfl
    | ok _ =>
      have := Uses.bind (Q := fun (r : State × IRes) c => r.1.fs = c) (S := fun (r : RState × EvalResult) c => r.1.ev.fs = c)
        (f := fun (r : State × IRes) => .ret ((⟨sem, r.1⟩ : RState), r.2.toEvalResult)) (fun r c hc => .ret hc) (uses_stmts cfg p rs.ev)
      exact this

end

end Btrd
