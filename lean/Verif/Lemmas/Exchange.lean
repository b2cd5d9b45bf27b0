/-
A program and the same with some expressions replaced, side by side.
-/
import Verif.Spec.Exchange
import Verif.Lemmas.Moments
import Verif.Lemmas.Sim
import Verif.Lemmas.Lasting

namespace Btrd
open Spec

set_option linter.unusedSectionVars false

/-- wherever the first computation ends in this way, the second goes the same way -/
def Along {α : Type} (P : α → Prop) (x y : T α) : Prop :=
  ∀ (fuel : Nat) (ω : Live) (t : Nat), P (x.live fuel ω t).result → y.live fuel ω t = x.live fuel ω t

theorem Along.refl {α : Type} {P : α → Prop} (x : T α) : Along P x x := fun _ _ _ _ => rfl

theorem Along.bind {α β : Type} {P : α → Prop} {Q : β → Prop} {x y : T α} {f g : α → T β} (h : Along P x y)
    (hf : ∀ a, Along Q (f a) (g a)) (hP : ∀ a fuel ω t, Q ((f a).live fuel ω t).result → P a) :
    Along Q (x.bind f) (y.bind g) := by
  intro fuel ω t hq
  rw [live_bind] at hq
  rw [live_bind, live_bind, h fuel ω t (hP _ _ _ _ hq), hf _ fuel ω _ hq]

/-- the same if something is known of how the first one ends -/
theorem Along.bindKnown {α β : Type} {P : α → Prop} {Q : β → Prop} {I : α → Prop} {x y : T α} {f g : α → T β}
    (hI : Leads I x) (h : Along P x y)
    (hf : ∀ a, I a → Along Q (f a) (g a)) (hP : ∀ a fuel ω t, Q ((f a).live fuel ω t).result → P a) :
    Along Q (x.bind f) (y.bind g) := by
  intro fuel ω t hq
  rw [live_bind] at hq
  rw [live_bind, live_bind, h fuel ω t (hP _ _ _ _ hq), hf _ (hI.result fuel ω t) fuel ω _ hq]

section
variable (S : Prop)

/-- the runs of an expression that count: those that give a value, and the others too if `S` -/
def Counts {α : Type} (r : R α) : Prop := S ∨ ∃ a, r = .ok a

/-- the second computation serves for the first -/
def Sub {α : Type} (x y : E α) : Prop := Along (α := R α) (Counts S) x y

variable {S}
variable {α β : Type}

theorem Sub.refl (x : E α) : Sub S x x := Along.refl (α := R α) x

theorem Sub.bind {x y : E α} {f g : α → E β} (h : Sub S x y) (hf : ∀ a, Sub S (f a) (g a)) :
    Sub S (x >>= f) (y >>= g) := by
  refine Along.bind (α := R α) (β := R β) h (fun a => ?_) (fun a fuel ω t hq => ?_)
  · cases a with
    | ok a => exact hf a
    | error e => exact Along.refl (α := R β) _
  · cases a with
    | ok a => exact .inr ⟨a, rfl⟩
    | error e =>
      rcases hq with hq | ⟨b, hb⟩
      · exact .inl hq
      · cases hb

theorem Sub.bindSame (x : E α) {f g : α → E β} (hf : ∀ a, Sub S (f a) (g a)) : Sub S (x >>= f) (x >>= g) :=
  (Sub.refl x).bind hf

theorem Sub.thenSame {x y : E α} (f : α → E β) (h : Sub S x y) : Sub S (x >>= f) (y >>= f) :=
  h.bind fun _ => Sub.refl _

/-! ### expressions -/

theorem sub_intOp (f : Int → Int → R Value) {l l' r r' : E Value} (hl : Sub S l l') (hr : Sub S r r') :
    Sub S (intOpT f l r) (intOpT f l' r') :=
  hl.bind fun _ => Sub.bindSame _ fun _ => hr.bind fun _ => Sub.refl _

theorem sub_binop (op : BinOp) {l l' r r' : E Value} (hl : Sub S l l') (hr : Sub S r r') :
    Sub S (binopT op l r) (binopT op l' r') := by
  cases op
  case plus => exact hl.bind fun _ => hr.bind fun _ => Sub.refl _
  case eq => exact hl.bind fun _ => hr.bind fun _ => Sub.refl _
  case ne => exact hl.bind fun _ => hr.bind fun _ => Sub.refl _
  case lor =>
    refine hl.bind fun _ => Sub.bindSame _ fun b => ?_
    cases b
    · exact hr.bind fun _ => Sub.refl _
    · exact Sub.refl _
  case land =>
    refine hl.bind fun _ => Sub.bindSame _ fun b => ?_
    cases b
    · exact Sub.refl _
    · exact hr.bind fun _ => Sub.refl _
  all_goals exact sub_intOp _ hl hr

/-- the arguments, side by side -/
def SubArgs (S : Prop) (xs ys : List (E Value)) : Prop := List.Forall₂ (Sub S) xs ys

theorem sub_intArgs : ∀ {xs ys : List (E Value)}, SubArgs S xs ys → Sub S (intArgsT xs) (intArgsT ys)
  | _, _, .nil => Sub.refl _
  | _, _, .cons h hs => h.bind fun _ => Sub.bindSame _ fun _ => (sub_intArgs hs).bind fun _ => Sub.refl _

theorem sub_keyFn (b : Build) {xs ys : List (E Value)} (h : SubArgs S xs ys) : Sub S (keyFnT b xs) (keyFnT b ys) := by
  have hl : ys.length = xs.length := forall₂_length h
  unfold keyFnT
  rw [hl]
  exact Sub.bindSame _ fun _ => (sub_intArgs h).bind fun _ => Sub.refl _

theorem sub_searchFn (b : Build) (fs : Option Fs) {xs ys : List (E Value)} (h : SubArgs S xs ys) :
    Sub S (searchFnT b fs xs) (searchFnT b fs ys) := by
  have hl : ys.length = xs.length := forall₂_length h
  unfold searchFnT
  rw [hl]
  refine Sub.bindSame _ fun _ => ?_
  match xs, ys, h with
  | [x0, x1], [y0, y1], .cons h1 (.cons h2 .nil) =>
    exact h1.bind fun _ => Sub.bindSame _ fun _ => h2.bind fun _ => Sub.refl _
  | [], _, .nil => exact Sub.refl _
  | [_], _, .cons _ .nil => exact Sub.refl _
  | _ :: _ :: _ :: _, _, .cons _ (.cons _ (.cons _ _)) => exact Sub.refl _

theorem sub_arg1 (msg : Str) {xs ys : List (E Value)} (h : SubArgs S xs ys) : Sub S (arg1T msg xs) (arg1T msg ys) := by
  have hl : ys.length = xs.length := forall₂_length h
  unfold arg1T
  rw [hl]
  refine Sub.bindSame _ fun _ => ?_
  match xs, ys, h with
  | [x0], [y0], .cons h1 .nil => exact h1
  | [], _, .nil => exact Sub.refl _
  | _ :: _ :: _, _, .cons _ (.cons _ _) => exact Sub.refl _

theorem sub_callFn (cfg : Cfg) (fs : Option Fs) {f g : E Value} (hf : Sub S f g) {xs ys : List (E Value)}
    (h : SubArgs S xs ys) : Sub S (callFnT cfg fs f xs) (callFnT cfg fs g ys) := by
  refine hf.bind fun fv => Sub.bindSame _ fun fn => ?_
  cases fn
  case key => exact sub_keyFn _ h
  case search => exact sub_searchFn _ _ h
  case hist =>
    have hl : ys.length = xs.length := forall₂_length h
    have : ys.isEmpty = xs.isEmpty := by cases xs <;> cases ys <;> simp_all
    dsimp only
    rw [this]
    exact Sub.refl _
  all_goals exact (sub_arg1 _ h).bind fun _ => Sub.refl _

/-! ### replacing -/

/-- what the replacing expression has to do -/
structure Fit (S : Prop) (e e' : Expr) : Prop where
  checked : ∀ vs, Counts S (analyzeExpr vs e) → analyzeExpr vs e' = analyzeExpr vs e
  evaluated : ∀ cfg st, Usual st → Sub S (evalExprT cfg st e) (evalExprT cfg st e')

variable {R : Expr → Expr → Prop} (hR : ∀ e e', R e e' → Fit S e e')

include hR in
mutual
theorem exchanged_checked (vs : Vars Unit) : ∀ {e e' : Expr}, Exchanged R e e' → Counts S (analyzeExpr vs e) →
    analyzeExpr vs e' = analyzeExpr vs e
  | _, _, .here h, hc => (hR _ _ h).checked vs hc
  | _, _, .same _, _ => rfl
  | _, _, .paren h, hc => by
    rw [analyzeExpr] at hc ⊢
    rw [analyzeExpr]
    exact exchanged_checked vs h hc
  | _, _, .field f h, hc => by
    cases f
    case ident f =>
      rw [analyzeExpr] at hc ⊢
      rw [analyzeExpr]
      exact exchanged_checked vs h hc
    all_goals
      rw [analyzeExpr, analyzeExpr] <;> simp
  | _, _, .index (e := e) h hi, hc => by
    rw [analyzeExpr] at hc ⊢
    rw [analyzeExpr]
    have h1 := exchanged_checked vs h
    have h2 := exchanged_checked vs hi
    cases he : analyzeExpr vs e with
    | ok _ =>
      rw [he] at hc h1
      rw [h1 (.inr ⟨_, rfl⟩)]
      exact h2 hc
    | error x =>
      rw [he] at hc h1
      rw [h1 (hc.imp id fun ⟨a, ha⟩ => by cases ha)]
  | _, _, .call (f := e) h hi, hc => by
    rw [analyzeExpr] at hc ⊢
    rw [analyzeExpr]
    have h1 := exchanged_checked vs h
    have h2 := exchangedArgs_checked vs hi
    cases he : analyzeExpr vs e with
    | ok _ =>
      rw [he] at hc h1
      rw [h1 (.inr ⟨_, rfl⟩)]
      exact h2 hc
    | error x =>
      rw [he] at hc h1
      rw [h1 (hc.imp id fun ⟨a, ha⟩ => by cases ha)]
  | _, _, .bin _ (l := e) h hi, hc => by
    rw [analyzeExpr] at hc ⊢
    rw [analyzeExpr]
    have h1 := exchanged_checked vs h
    have h2 := exchanged_checked vs hi
    cases he : analyzeExpr vs e with
    | ok _ =>
      rw [he] at hc h1
      rw [h1 (.inr ⟨_, rfl⟩)]
      exact h2 hc
    | error x =>
      rw [he] at hc h1
      rw [h1 (hc.imp id fun ⟨a, ha⟩ => by cases ha)]
  | _, _, .un _ h, hc => by
    rw [analyzeExpr] at hc ⊢
    rw [analyzeExpr]
    exact exchanged_checked vs h hc
  | _, _, .cast ty h, hc => by
    cases ty
    case ident f =>
      rw [analyzeExpr] at hc ⊢
      rw [analyzeExpr]
      split at hc
      · rename_i hk
        rw [if_pos hk, if_pos hk]
        exact exchanged_checked vs h hc
      · rename_i hk
        rw [if_neg hk, if_neg hk]
    all_goals
      rw [analyzeExpr, analyzeExpr] <;> simp
theorem exchangedArgs_checked (vs : Vars Unit) : ∀ {es es' : List Expr}, ExchangedArgs R es es' →
    Counts S (analyzeArgs vs es) → analyzeArgs vs es' = analyzeArgs vs es
  | _, _, .nil, _ => rfl
  | _, _, .cons (e := e) h hi, hc => by
    rw [analyzeArgs] at hc ⊢
    rw [analyzeArgs]
    have h1 := exchanged_checked vs h
    have h2 := exchangedArgs_checked vs hi
    cases he : analyzeExpr vs e with
    | ok _ =>
      rw [he] at hc h1
      rw [h1 (.inr ⟨_, rfl⟩)]
      exact h2 hc
    | error x =>
      rw [he] at hc h1
      rw [h1 (hc.imp id fun ⟨a, ha⟩ => by cases ha)]
end

include hR in
mutual
theorem exchanged_eval (cfg : Cfg) (st : State) (hu : Usual st) : ∀ {e e' : Expr}, Exchanged R e e' →
    Sub S (evalExprT cfg st e) (evalExprT cfg st e')
  | _, _, .here h => (hR _ _ h).evaluated cfg st hu
  | _, _, .same _ => Sub.refl _
  | _, _, .paren h => by rw [evalExprT, evalExprT]; exact exchanged_eval cfg st hu h
  | _, _, .field f h => by rw [evalExprT, evalExprT]; exact (exchanged_eval cfg st hu h).bind fun _ => Sub.refl _
  | _, _, .index h hi => by
    rw [evalExprT, evalExprT]
    exact (exchanged_eval cfg st hu h).bind fun _ => Sub.bindSame _ fun _ => (exchanged_eval cfg st hu hi).bind fun _ => Sub.refl _
  | _, _, .call h hi => by
    rw [evalExprT, evalExprT]
    exact sub_callFn cfg _ (exchanged_eval cfg st hu h) (exchanged_args cfg st hu hi)
  | _, _, .bin op h hi => by
    rw [evalExprT, evalExprT]
    exact sub_binop op (exchanged_eval cfg st hu h) (exchanged_eval cfg st hu hi)
  | _, _, .un op h => by rw [evalExprT, evalExprT]; exact (exchanged_eval cfg st hu h).bind fun _ => Sub.refl _
  | _, _, .cast ty h => by rw [evalExprT, evalExprT]; exact (exchanged_eval cfg st hu h).bind fun _ => Sub.refl _
theorem exchanged_args (cfg : Cfg) (st : State) (hu : Usual st) : ∀ {es es' : List Expr}, ExchangedArgs R es es' →
    SubArgs S (evalArgsT cfg st es) (evalArgsT cfg st es')
  | _, _, .nil => .nil
  | _, _, .cons h hi => by
    rw [evalArgsT, evalArgsT]
    exact .cons (exchanged_eval cfg st hu h) (exchanged_args cfg st hu hi)
end

/-! ### targets -/

theorem target_exchanged : ∀ {e e' : Expr}, ExchangedTarget R e e' → Exchanged R e e'
  | _, _, .same e => .same e
  | _, _, .field f h => .field f (target_exchanged h)
  | _, _, .index h hi => .index (target_exchanged h) hi

include hR in
theorem target_eval (cfg : Cfg) (st : State) (hu : Usual st) : ∀ {e e' : Expr} (_ : ExchangedTarget R e e') (f : Value → Btrd.R Value),
    Sub S (modifyLhsT cfg st e f) (modifyLhsT cfg st e' f)
  | _, _, .same e, _ => Sub.refl _
  | _, _, .field fld h, f => by
    cases fld
    case ident name =>
      rw [modifyLhsT, modifyLhsT]
      exact target_eval cfg st hu h _
    all_goals
      rw [modifyLhsT, modifyLhsT] <;> first | exact Sub.refl _ | simp
  | _, _, .index h hi, f => by
    rw [modifyLhsT, modifyLhsT]
    exact (exchanged_eval hR cfg st hu hi).bind fun _ => Sub.bindSame _ fun _ => target_eval cfg st hu h _

/-! ### statements -/

/-- the runs of statements that count -/
def CountsS (S : Prop) (r : State × IRes) : Prop := S ∨ ∀ f, r.2 ≠ .fail f

/-- the second statement serves for the first -/
abbrev SubS (S : Prop) (x y : T (State × IRes)) : Prop := Along (CountsS S) x y

/-- the literals of an expression fit -/
abbrev SmallLits (e : Expr) : Prop := ∀ i ∈ e.literals, Fits i

theorem Sub.intoKnown {Q : α → Prop} {x y : E α} (hx : Vals Q x) (h : Sub S x y) (st : State)
    {k k' : α → T (State × IRes)} (hk : ∀ a, Q a → SubS S (k a) (k' a)) :
    SubS S (x.into st k) (y.into st k') := by
  refine Along.bindKnown (α := Btrd.R α) hx h (fun a ha => ?_) (fun a fuel ω t hq => ?_)
  · cases a with
    | ok a => exact hk a (ha a rfl)
    | error e => exact Along.refl _
  · cases a with
    | ok a => exact .inr ⟨a, rfl⟩
    | error e =>
      rcases hq with hq | hb
      · exact .inl hq
      · exact absurd rfl (hb e)

theorem Sub.into {x y : E α} (h : Sub S x y) (st : State) {k k' : α → T (State × IRes)} (hk : ∀ a, SubS S (k a) (k' a)) :
    SubS S (x.into st k) (y.into st k') := by
  refine Along.bind (α := Btrd.R α) h (fun a => ?_) (fun a fuel ω t hq => ?_)
  · cases a with
    | ok a => exact hk a
    | error e => exact Along.refl _
  · cases a with
    | ok a => exact .inr ⟨a, rfl⟩
    | error e =>
      rcases hq with hq | hb
      · exact .inl hq
      · exact absurd rfl (hb e)

theorem Along.seq {x y : T (State × IRes)} {f g : State × IRes → T (State × IRes)} (hx : Leads (AllState Good) x)
    (h : SubS S x y)
    (hf : ∀ a, Usual a.1 → SubS S (f a) (g a)) (hfail : ∀ st e, f (st, .fail e) = .ret (st, .fail e)) :
    SubS S (x.bind f) (y.bind g) := by
  refine Along.bindKnown hx h hf (fun a fuel ω t hq => ?_)
  obtain ⟨st, r⟩ := a
  cases r with
  | fail e => rw [hfail] at hq; exact hq
  | _ => exact .inr fun f hf => by cases hf

include hR in
theorem assign_exchanged (cfg : Cfg) (st : State) (hu : Usual st) {l l' r r' : Expr} (hl : ExchangedTarget R l l')
    (hr : Exchanged R r r') : SubS S (evalAssignT cfg st l r) (evalAssignT cfg st l' r') := by
  refine (exchanged_eval hR cfg st hu hr).into st fun v => ?_
  have h := target_eval hR cfg st hu hl (fun _ => .ok v)
  cases hl with
  | same l => exact Along.refl _
  | field f hl => exact h.into st fun _ => Along.refl _
  | index hl hi => exact h.into st fun _ => Along.refl _

theorem usual_push {st : State} (h : Usual st) : Usual { st with vars := st.vars.push } := by
  have : AllVars Good st.vars.push := by
    simp only [Vars.push, AllVars.cons]
    exact ⟨by simp [Scope.empty], h⟩
  exact this

theorem scope_exchanged (st : State) (hu : Usual st) {body body' : State → T (State × IRes)}
    (hb : ∀ st, Usual st → SubS S (body st) (body' st)) :
    SubS S (inScopeT st body) (inScopeT st body') := by
  refine Along.bind (hb _ (usual_push hu)) (fun _ => Along.refl _) (fun a fuel ω t hq => ?_)
  obtain ⟨st, r⟩ := a
  cases hp : st.vars.pop with
  | ok vs =>
    simp only [T.live, hp] at hq
    exact hq
  | error e =>
    simp only [T.live, hp] at hq
    rcases hq with hq | hq
    · exact .inl hq
    · exact absurd rfl (hq e)

theorem while_exchanged {cond cond' : State → E Bool} {body body' : State → T (State × IRes)}
    (hl : ∀ st, Usual st → Leads (AllState Good) (body st))
    (hc : ∀ st, Usual st → Sub S (cond st) (cond' st)) (hb : ∀ st, Usual st → SubS S (body st) (body' st)) :
    ∀ (fuel : Nat) (st : State), Usual st → SubS S (whileLoopT cond body fuel st) (whileLoopT cond' body' fuel st)
  | 0, st, _ => Along.refl _
  | fuel + 1, st, hu => by
    refine (hc st hu).into st fun b => ?_
    cases b
    · exact Along.refl _
    · refine Along.seq (hl st hu) (hb st hu) (fun a ha => ?_) (fun _ _ => rfl)
      obtain ⟨a, r⟩ := a
      cases r
      · exact while_exchanged hl hc hb fuel _ ha
      · exact Along.refl _
      · exact Along.refl _
      · exact while_exchanged hl hc hb fuel _ ha
      · exact Along.refl _

theorem forLoop_exchanged (x : Str) {body body' : State → T (State × IRes)}
    (hl : ∀ st, Usual st → Leads (AllState Good) (body st)) (hb : ∀ st, Usual st → SubS S (body st) (body' st)) :
    ∀ (vs : List Value) (_ : ∀ v ∈ vs, Good v) (st : State), Usual st →
      SubS S (forLoopT x body vs st) (forLoopT x body' vs st)
  | [], _, st, _ => Along.refl _
  | v :: vs, hv, st, hu => by
    refine Sub.intoKnown (Q := fun w => st.vars.insert x v = .ok w) (vals_of fun _ h => h) (Sub.refl _) st fun w hw => ?_
    have hu' : AllVars Good w := AllVars.insert (hv v (by simp)) hu hw
    refine Along.seq (hl _ hu') (hb _ hu') (fun a ha => ?_) (fun _ _ => rfl)
    obtain ⟨a, r⟩ := a
    cases r
    · exact forLoop_exchanged x hl hb vs (fun v h => hv v (by simp [h])) _ ha
    · exact Along.refl _
    · exact Along.refl _
    · exact forLoop_exchanged x hl hb vs (fun v h => hv v (by simp [h])) _ ha
    · exact Along.refl _

include hR in
theorem for_exchanged (cfg : Cfg) (st : State) (hu : Usual st) (x : Expr) {r r' : Expr} (hr : Exchanged R r r')
    (hrl : SmallLits r) {body body' : State → T (State × IRes)}
    (hl : ∀ st, Usual st → Leads (AllState Good) (body st)) (hb : ∀ st, Usual st → SubS S (body st) (body' st)) :
    SubS S (evalForT cfg x r body st) (evalForT cfg x r' body' st) := by
  cases x
  case ident x =>
    refine Sub.intoKnown (vals_expr good_lasting cfg st hu r hrl) (exchanged_eval hR cfg st hu hr) st fun v hv =>
      Sub.intoKnown (Q := fun vec => v.asVec = .ok vec) (vals_of fun _ h => h) (Sub.refl _) st fun items hi => ?_
    obtain ⟨k, rfl⟩ := asVec_inv hi
    exact forLoop_exchanged x hl hb items (good_array.1 hv) st hu
  all_goals exact Along.refl _

include hR in
theorem cond_exchanged (cfg : Cfg) (st : State) (hu : Usual st) {c c' : Expr} (h : Exchanged R c c') :
    Sub S (evalCondT cfg st c) (evalCondT cfg st c') := (exchanged_eval hR cfg st hu h).bind fun _ => Sub.refl _

include hR in
mutual
theorem stmt_exchanged (cfg : Cfg) : ∀ {s s' : Stmt}, ExchangedStmt R s s' → s.AllE SmallLits → ∀ st, Usual st →
    SubS S (evalStmtT cfg s st) (evalStmtT cfg s' st)
  | _, _, .same s, _, st, _ => Along.refl _
  | _, _, .assign hl hr, _, st, hu => by rw [evalStmtT, evalStmtT]; exact assign_exchanged hR cfg st hu hl hr
  | _, _, .ite hc ht hf, hs, st, hu => by
    rw [evalStmtT, evalStmtT]
    refine scope_exchanged st hu fun st hu => (cond_exchanged hR cfg st hu hc).into st fun b => ?_
    cases b
    · exact prog_exchanged cfg hf hs.2.2 st hu
    · exact prog_exchanged cfg ht hs.2.1 st hu
  | _, _, .while hc hb, hs, st, hu => by
    rw [evalStmtT, evalStmtT]
    exact scope_exchanged st hu fun st hu => while_exchanged (leads_stmts good_lasting cfg _ hs.2)
      (fun st hu => cond_exchanged hR cfg st hu hc) (prog_exchanged cfg hb hs.2) _ st hu
  | _, _, .for x hr hb, hs, st, hu => by
    rw [evalStmtT, evalStmtT]
    exact scope_exchanged st hu fun st hu => for_exchanged hR cfg st hu x hr hs.2.1 (leads_stmts good_lasting cfg _ hs.2.2)
      (prog_exchanged cfg hb hs.2.2)
  | _, _, .print h, _, st, hu => by
    rw [evalStmtT, evalStmtT]
    exact (exchanged_eval hR cfg st hu h).into st fun _ => Along.refl _
  | _, _, .expr h, _, st, hu => by
    rw [evalStmtT, evalStmtT]
    exact (exchanged_eval hR cfg st hu h).into st fun _ => Along.refl _
theorem prog_exchanged (cfg : Cfg) : ∀ {p p' : List Stmt}, ExchangedProg R p p' → allE SmallLits p → ∀ st, Usual st →
    SubS S (evalStmtsT cfg p st) (evalStmtsT cfg p' st)
  | _, _, .nil, _, st, _ => Along.refl _
  | _, _, .cons (s := s) hs hp, hl, st, hu => by
    rw [evalStmtsT, evalStmtsT]
    refine Along.seq (leads_stmt good_lasting cfg s hl.1 st hu) (stmt_exchanged cfg hs hl.1 st hu) (fun a ha => ?_) (fun _ _ => rfl)
    obtain ⟨a, r⟩ := a
    cases r
    · exact prog_exchanged cfg hp hl.2 a ha
    all_goals exact Along.refl _
end

/-! ### the checks before a program runs -/

/-- the second check goes the same way wherever the first counts -/
def SameCheck (S : Prop) (r r' : AState × Btrd.R Unit) : Prop := Counts S r.2 → r' = r

theorem check_then {r r' : AState × Btrd.R Unit} {f f' : AState → AState × Btrd.R Unit} (h : SameCheck S r r')
    (hf : ∀ a, SameCheck S (f a) (f' a)) : SameCheck S (andThenA r f) (andThenA r' f') := by
  intro hc
  obtain ⟨a, r⟩ := r
  cases r with
  | ok _ => rw [h (.inr ⟨_, rfl⟩)]; exact hf a hc
  | error e => rw [h hc]; rfl

theorem check_expr {S : Prop} {vs : Vars Unit} {e e' : Expr} (h : Counts S (analyzeExpr vs e) → analyzeExpr vs e' = analyzeExpr vs e)
    (a : AState) {f f' : AState → AState × Btrd.R Unit} (hf : SameCheck S (f a) (f' a)) :
    SameCheck S (match analyzeExpr vs e with | .ok _ => f a | .error x => (a, .error x))
      (match analyzeExpr vs e' with | .ok _ => f' a | .error x => (a, .error x)) := by
  intro hc
  cases he : analyzeExpr vs e with
  | ok _ =>
    rw [he] at hc h
    rw [h (.inr ⟨_, rfl⟩)]
    exact hf hc
  | error x =>
    rw [he] at hc h
    rw [h (hc.imp id fun ⟨a, ha⟩ => by cases ha)]

theorem check_scope (d : Nat) (a : AState) {f f' : AState → AState × Btrd.R Unit} (hf : ∀ a, SameCheck S (f a) (f' a)) :
    SameCheck S (scopedA d a f) (scopedA d a f') := by
  intro hc
  have h := hf ⟨a.vars.push, a.loopDepth + d⟩
  unfold scopedA at hc ⊢
  dsimp only at hc ⊢
  generalize f ⟨a.vars.push, a.loopDepth + d⟩ = r at *
  generalize f' ⟨a.vars.push, a.loopDepth + d⟩ = r' at *
  obtain ⟨b, r⟩ := r
  have : Counts S r := by
    cases hp : b.vars.pop with
    | ok vs => simp only [hp] at hc; exact hc
    | error e =>
      simp only [hp] at hc
      exact hc.imp id fun ⟨a, ha⟩ => by cases ha
  rw [h this]

include hR in
mutual
theorem stmt_checked : ∀ {s s' : Stmt}, ExchangedStmt R s s' → ∀ a, SameCheck S (analyzeStmt s a) (analyzeStmt s' a)
  | _, _, .same s, a => fun _ => rfl
  | _, _, .assign (l := l) (l' := l') hl hr, a => by
    have h1 := exchanged_checked hR a.vars (target_exchanged hl)
    have h2 : SameCheck S (a, analyzeExpr a.vars _) (a, analyzeExpr a.vars _) := fun hc => by
      rw [exchanged_checked hR a.vars hr hc]
    cases hl with
    | same l =>
      cases l
      case ident x =>
        rw [analyzeStmt, analyzeStmt]
        exact check_then (fun _ => rfl) fun a hc => by rw [exchanged_checked hR a.vars hr hc]
      all_goals
        rw [analyzeStmt, analyzeStmt] <;> first | exact check_expr h1 a (f := fun a => (a, analyzeExpr a.vars _)) (f' := fun a => (a, analyzeExpr a.vars _)) h2 | simp
    | field f hl =>
      rw [analyzeStmt, analyzeStmt] <;> first | exact check_expr h1 a (f := fun a => (a, analyzeExpr a.vars _)) (f' := fun a => (a, analyzeExpr a.vars _)) h2 | simp
    | index hl hi =>
      rw [analyzeStmt, analyzeStmt] <;> first | exact check_expr h1 a (f := fun a => (a, analyzeExpr a.vars _)) (f' := fun a => (a, analyzeExpr a.vars _)) h2 | simp
  | _, _, .ite hc ht hf, a => by
    rw [analyzeStmt, analyzeStmt]
    exact check_scope 0 a fun a => check_expr (exchanged_checked hR a.vars hc) a
      (f := fun a => andThenA (analyzeStmts _ a) _) (f' := fun a => andThenA (analyzeStmts _ a) _)
      (check_then (prog_checked ht a) (prog_checked hf))
  | _, _, .while hc hb, a => by
    rw [analyzeStmt, analyzeStmt]
    exact check_scope 1 a fun a => check_expr (exchanged_checked hR a.vars hc) a (prog_checked hb a)
  | _, _, .for x hr hb, a => by
    rw [analyzeStmt, analyzeStmt]
    refine check_scope 1 a fun a => ?_
    cases x
    case ident x =>
      exact check_then (fun _ => rfl) fun a => check_expr (exchanged_checked hR a.vars hr) a (prog_checked hb a)
    all_goals exact fun _ => rfl
  | _, _, .print h, a => by
    rw [analyzeStmt, analyzeStmt]
    intro hc
    rw [exchanged_checked hR a.vars h hc]
  | _, _, .expr h, a => by
    rw [analyzeStmt, analyzeStmt]
    intro hc
    rw [exchanged_checked hR a.vars h hc]
theorem prog_checked : ∀ {p p' : List Stmt}, ExchangedProg R p p' → ∀ a, SameCheck S (analyzeStmts p a) (analyzeStmts p' a)
  | _, _, .nil, a => fun _ => rfl
  | _, _, .cons hs hp, a => by
    rw [analyzeStmts, analyzeStmts]
    exact check_then (stmt_checked hs a) (prog_checked hp)
end

end

end Btrd
