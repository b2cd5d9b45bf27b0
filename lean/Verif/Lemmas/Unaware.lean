/-
A program that does not mention a variable, run from two states that differ in that variable.
-/
import Verif.Spec.Unaware
import Verif.Lemmas.Propagate

namespace Btrd
open Spec

/-! ### variables -/

section
variable {T : Type} {x : Str}

theorem Spec.ButFor.refl : ∀ vs : Vars T, ButFor x vs vs
  | [] => .nil
  | _ :: vs => .cons (fun _ _ => rfl) (ButFor.refl vs)

theorem Spec.ButFor.trans : ∀ {a b c : Vars T}, ButFor x a b → ButFor x b c → ButFor x a c
  | _, _, _, .nil, .nil => .nil
  | _, _, _, .cons h t, .cons h' t' => .cons (fun y hy => (h' y hy).trans (h y hy)) (t.trans t')

theorem Spec.ButFor.symm : ∀ {a b : Vars T}, ButFor x a b → ButFor x b a
  | _, _, .nil => .nil
  | _, _, .cons h t => .cons (fun y hy => (h y hy).symm) t.symm

theorem Spec.ButFor.get {y : Str} (hy : y ≠ x) : ∀ {a b : Vars T}, ButFor x a b → b.get y = a.get y
  | _, _, .nil => rfl
  | _, _, .cons h t => by
    rw [Vars.get, Vars.get, h y hy, t.get hy]

theorem Spec.ButFor.push {a b : Vars T} (h : ButFor x a b) : ButFor x a.push b.push := .cons (fun _ _ => rfl) h

theorem set_but {s s' : Scope T} (h : ∀ y, y ≠ x → s' y = s y) (k : Str) (v : T) : ∀ y, y ≠ x → s'.set k v y = s.set k v y := by
  intro y hy
  unfold Scope.set
  rw [h y hy]

theorem Spec.ButFor.overwrite {k : Str} (hk : k ≠ x) (v : T) : ∀ {a b : Vars T}, ButFor x a b →
    (Vars.overwrite a k v = none ∧ Vars.overwrite b k v = none) ∨
    ∃ a' b', Vars.overwrite a k v = some a' ∧ Vars.overwrite b k v = some b' ∧ ButFor x a' b'
  | _, _, .nil => .inl ⟨rfl, rfl⟩
  | _, _, .cons (s := s) (s' := s') h t => by
    rw [Vars.overwrite, Vars.overwrite, h k hk]
    cases s k with
    | some w => exact .inr ⟨_, _, rfl, rfl, .cons (set_but h k v) t⟩
    | none =>
      rcases t.overwrite hk v with ⟨h1, h2⟩ | ⟨a', b', h1, h2, h3⟩
      · rw [h1, h2]; exact .inl ⟨rfl, rfl⟩
      · rw [h1, h2]; exact .inr ⟨_, _, rfl, rfl, .cons h h3⟩

/-- inserting the same into both -/
theorem Spec.ButFor.insert {a b : Vars T} (h : ButFor x a b) {k : Str} (hk : k ≠ x) (v : T) :
    (∃ e, Vars.insert a k v = .error e ∧ Vars.insert b k v = .error e) ∨
    ∃ a' b', Vars.insert a k v = .ok a' ∧ Vars.insert b k v = .ok b' ∧ ButFor x a' b' := by
  unfold Vars.insert
  rcases h.overwrite hk v with ⟨h1, h2⟩ | ⟨a', b', h1, h2, h3⟩
  · rw [h1, h2]
    cases h with
    | nil => exact .inl ⟨_, rfl, rfl⟩
    | cons h t => exact .inr ⟨_, _, rfl, rfl, .cons (set_but h k v) t⟩
  · rw [h1, h2]
    exact .inr ⟨_, _, rfl, rfl, h3⟩

/-- changing the same in both -/
theorem Spec.ButFor.modify {ε : Type} {k : Str} (hk : k ≠ x) (f : T → Except ε T) : ∀ {a b : Vars T}, ButFor x a b →
    (Vars.modify f a k = none ∧ Vars.modify f b k = none) ∨
    (∃ e, Vars.modify f a k = some (.error e) ∧ Vars.modify f b k = some (.error e)) ∨
    ∃ a' b', Vars.modify f a k = some (.ok a') ∧ Vars.modify f b k = some (.ok b') ∧ ButFor x a' b'
  | _, _, .nil => .inl ⟨rfl, rfl⟩
  | _, _, .cons (s := s) (s' := s') h t => by
    rw [Vars.modify, Vars.modify, h k hk]
    cases s k with
    | some w =>
      dsimp only
      cases f w with
      | error e => exact .inr (.inl ⟨e, rfl, rfl⟩)
      | ok v => exact .inr (.inr ⟨_, _, rfl, rfl, .cons (set_but h k v) t⟩)
    | none =>
      rcases t.modify hk f with ⟨h1, h2⟩ | ⟨e, h1, h2⟩ | ⟨a', b', h1, h2, h3⟩
      · rw [h1, h2]; exact .inl ⟨rfl, rfl⟩
      · rw [h1, h2]; exact .inr (.inl ⟨e, rfl, rfl⟩)
      · rw [h1, h2]; exact .inr (.inr ⟨_, _, rfl, rfl, .cons h h3⟩)

/-- inserting something under that name -/
theorem but_insert {a a' : Vars T} {v : T} (h : Vars.insert a x v = .ok a') : ButFor x a a' := by
  have ho : ∀ {a a' : Vars T}, Vars.overwrite a x v = some a' → ButFor x a a' := by
    intro a
    induction a with
    | nil => intro a' h; cases h
    | cons s vs ih =>
      intro a' h
      rw [Vars.overwrite] at h
      cases hs : s x with
      | some w => rw [hs] at h; cases h; exact .cons (fun y hy => set_other s v hy) (ButFor.refl _)
      | none =>
        rw [hs] at h
        dsimp only at h
        cases hw : Vars.overwrite vs x v with
        | none => rw [hw] at h; cases h
        | some r => rw [hw] at h; cases h; exact .cons (fun _ _ => rfl) (ih hw)
  unfold Vars.insert at h
  cases hw : Vars.overwrite a x v with
  | some r => rw [hw] at h; cases h; exact ho hw
  | none =>
    rw [hw] at h
    cases a with
    | nil => cases h
    | cons s vs => cases h; exact .cons (fun y hy => set_other s v hy) (ButFor.refl _)

theorem Spec.ButFor.pop {a b : Vars T} (h : ButFor x a b) :
    (∃ e, a.pop = .error e ∧ b.pop = .error e) ∨ ∃ a' b', a.pop = .ok a' ∧ b.pop = .ok b' ∧ ButFor x a' b' := by
  cases h with
  | nil => exact .inl ⟨_, rfl, rfl⟩
  | cons h t => exact .inr ⟨_, _, rfl, rfl, t⟩

/-- two that differ in nothing, for neither differ under that name -/
theorem Spec.ButFor.eq : ∀ {a b : Vars T}, ButFor x a b → slots b x = slots a x → b = a
  | _, _, .nil, _ => rfl
  | _, _, .cons (s := s) (s' := s') h t, hs => by
    simp only [slots, List.map_cons, List.cons.injEq] at hs
    rw [t.eq hs.2]
    congr 1
    funext y
    by_cases hy : y = x
    · rw [hy, hs.1]
    · exact h y hy

end

/-! ### computations -/

/-- the same requests and warnings in the same time, in any world, and related ends -/
def Near {α β : Type} (Q : α → β → Prop) (a : T α) (b : T β) : Prop :=
  ∀ (fuel : Nat) (ω : Live) (t : Nat), (b.live fuel ω t).clock = (a.live fuel ω t).clock ∧
    (b.live fuel ω t).log = (a.live fuel ω t).log ∧ Q (a.live fuel ω t).result (b.live fuel ω t).result

theorem near_ret {α β : Type} {Q : α → β → Prop} {a : α} {b : β} (h : Q a b) : Near Q (.ret a) (.ret b) := fun _ _ _ => ⟨rfl, rfl, h⟩

theorem near_bind {α β γ δ : Type} {Q : α → β → Prop} {S : γ → δ → Prop} {a : T α} {b : T β} (h : Near Q a b)
    {f : α → T γ} {g : β → T δ} (hf : ∀ u v, Q u v → Near S (f u) (g v)) : Near S (a.bind f) (b.bind g) := by
  intro fuel ω t
  obtain ⟨h1, h2, h3⟩ := h fuel ω t
  obtain ⟨k1, k2, k3⟩ := hf _ _ h3 fuel ω (a.live fuel ω t).clock
  rw [live_bind, live_bind, h1, h2]
  exact ⟨k1, by dsimp only; rw [k2], k3⟩

theorem near_same {α γ δ : Type} {S : γ → δ → Prop} (a : T α) {f : α → T γ} {g : α → T δ} (hf : ∀ u, Near S (f u) (g u)) :
    Near S (a.bind f) (a.bind g) :=
  near_bind (Q := fun u v => v = u) (fun _ _ _ => ⟨rfl, rfl, rfl⟩) fun u v h => by subst h; exact hf _

section
variable {x : Str}

/-- the ends of runs that do not know of the difference -/
def EndsBut (x : Str) (a b : State × IRes) : Prop := b.2 = a.2 ∧ AlikeBut x a.1 b.1

theorem Spec.AlikeBut.refl (st : State) : AlikeBut x st st := ⟨rfl, rfl, ButFor.refl _⟩

theorem Spec.AlikeBut.with {st st' : State} (h : AlikeBut x st st') {vs vs' : Vars Value} (hv : ButFor x vs vs') :
    AlikeBut x { st with vars := vs } { st' with vars := vs' } := ⟨h.fs, h.sink, hv⟩

abbrev NearS (x : Str) (a b : T (State × IRes)) : Prop := Near (EndsBut x) a b

theorem near_into {α : Type} (a : E α) {st st' : State} (h : AlikeBut x st st') {k k' : α → T (State × IRes)}
    (hk : ∀ u, NearS x (k u) (k' u)) : NearS x (a.into st k) (a.into st' k') :=
  near_same (α := R α) a fun r => by
    cases r with
    | ok u => exact hk u
    | error e => exact near_ret ⟨rfl, h⟩

theorem near_expr (cfg : Cfg) {st st' : State} (h : AlikeBut x st st') {e : Expr} (he : x ∉ e.uses) :
    evalExprT cfg st' e = evalExprT cfg st e :=
  uses_depends cfg h.fs e fun y hy => h.vars.get (by rintro rfl; exact he hy)

theorem near_cond (cfg : Cfg) {st st' : State} (h : AlikeBut x st st') {e : Expr} (he : x ∉ e.uses) :
    evalCondT cfg st' e = evalCondT cfg st e := by
  unfold evalCondT
  rw [near_expr cfg h he]

theorem near_write {st st' : State} (h : AlikeBut x st st') (s : Str) : NearS x (.ret (st.write s)) (.ret (st'.write s)) := by
  refine near_ret ?_
  unfold State.write
  rw [h.sink]
  cases st.sink.write s with
  | mk k r => cases r <;> exact ⟨rfl, h.fs, rfl, h.vars⟩

/-- results that are the same error, or variables with one difference -/
def VarsBut (x : Str) (a b : R (Vars Value)) : Prop :=
  (∃ e, a = .error e ∧ b = .error e) ∨ ∃ u v, a = .ok u ∧ b = .ok v ∧ ButFor x u v

theorem lhs_near (cfg : Cfg) {st st' : State} (h : AlikeBut x st st') : ∀ (l : Expr) (_ : x ∉ l.uses) (f : Value → R Value),
    Near (α := R (Vars Value)) (β := R (Vars Value)) (VarsBut x) (modifyLhsT cfg st l f) (modifyLhsT cfg st' l f)
  | .field e fld, hl, f => by
    rw [modifyLhsT.eq_def, modifyLhsT.eq_def]
    cases fld with
    | ident name => exact lhs_near cfg h e (by simpa [Expr.uses] using hl) _
    | _ => exact near_ret (.inl ⟨_, rfl, rfl⟩)
  | .index e i, hl, f => by
    simp only [Expr.uses, List.mem_append, not_or] at hl
    rw [modifyLhsT, modifyLhsT, near_expr cfg h hl.2]
    refine near_same (α := R Value) _ fun r => ?_
    cases r with
    | error e => exact near_ret (.inl ⟨_, rfl, rfl⟩)
    | ok v =>
      refine near_same (α := R Int) _ fun r => ?_
      cases r with
      | error e => exact near_ret (.inl ⟨_, rfl, rfl⟩)
      | ok idx => exact lhs_near cfg h e hl.1 _
  | .ident name, hl, f => by
    have hn : name ≠ x := by rintro rfl; simp [Expr.uses] at hl
    rw [modifyLhsT.eq_def, modifyLhsT.eq_def]
    refine near_ret ?_
    simp only [modifyLhs]
    rcases h.vars.modify hn f with ⟨h1, h2⟩ | ⟨e, h1, h2⟩ | ⟨a', b', h1, h2, h3⟩
    · rw [h1, h2]; exact .inl ⟨_, rfl, rfl⟩
    · rw [h1, h2]; exact .inl ⟨_, rfl, rfl⟩
    · rw [h1, h2]; exact .inr ⟨_, _, rfl, rfl, h3⟩
  | .int _, _, _ => near_ret (.inl ⟨_, rfl, rfl⟩)
  | .bool _, _, _ => near_ret (.inl ⟨_, rfl, rfl⟩)
  | .str _, _, _ => near_ret (.inl ⟨_, rfl, rfl⟩)
  | .paren _, _, _ => near_ret (.inl ⟨_, rfl, rfl⟩)
  | .call _ _, _, _ => near_ret (.inl ⟨_, rfl, rfl⟩)
  | .bin _ _ _, _, _ => near_ret (.inl ⟨_, rfl, rfl⟩)
  | .un _ _, _, _ => near_ret (.inl ⟨_, rfl, rfl⟩)
  | .cast _ _, _, _ => near_ret (.inl ⟨_, rfl, rfl⟩)

theorem near_vars {st st' : State} (h : AlikeBut x st st') {a b : E (Vars Value)}
    (hab : Near (α := R (Vars Value)) (β := R (Vars Value)) (VarsBut x) a b) :
    NearS x (a.into st fun vs => .ret ({ st with vars := vs }, .ok)) (b.into st' fun vs => .ret ({ st' with vars := vs }, .ok)) := by
  refine near_bind hab fun u v huv => ?_
  rcases huv with ⟨e, rfl, rfl⟩ | ⟨u, v, rfl, rfl, huv⟩
  · exact near_ret ⟨rfl, h⟩
  · exact near_ret ⟨rfl, h.with huv⟩

theorem near_assign (cfg : Cfg) {st st' : State} (h : AlikeBut x st st') {l r : Expr} (hl : x ∉ l.uses) (hr : x ∉ r.uses) :
    NearS x (evalAssignT cfg st l r) (evalAssignT cfg st' l r) := by
  unfold evalAssignT
  rw [near_expr cfg h hr]
  refine near_into _ h fun v => ?_
  cases l with
  | ident name =>
    refine near_vars h (near_ret ?_)
    rcases h.vars.insert (show name ≠ x by rintro rfl; simp [Expr.uses] at hl) v with ⟨e, h1, h2⟩ | ⟨a', b', h1, h2, h3⟩
    · exact .inl ⟨e, h1, h2⟩
    · exact .inr ⟨a', b', h1, h2, h3⟩
  | _ => exact near_vars h (lhs_near cfg h _ hl _)

theorem near_scope {st st' : State} (h : AlikeBut x st st') {body body' : State → T (State × IRes)}
    (hb : ∀ st st', AlikeBut x st st' → NearS x (body st) (body' st')) : NearS x (inScopeT st body) (inScopeT st' body') := by
  refine near_bind (hb _ _ (h.with h.vars.push)) fun u v huv => near_ret ?_
  obtain ⟨u, ru⟩ := u
  obtain ⟨v, rv⟩ := v
  obtain ⟨hr, hs⟩ := huv
  dsimp only at hr hs ⊢
  subst hr
  rcases hs.vars.pop with ⟨e, h1, h2⟩ | ⟨a', b', h1, h2, h3⟩
  · rw [h1, h2]; exact ⟨rfl, hs⟩
  · rw [h1, h2]; exact ⟨rfl, hs.with h3⟩

theorem near_while (cfg : Cfg) {c : Expr} (hc : x ∉ c.uses) {body : State → T (State × IRes)}
    (hb : ∀ st st', AlikeBut x st st' → NearS x (body st) (body st')) : ∀ (n : Nat) (st st' : State), AlikeBut x st st' →
      NearS x (whileLoopT (fun st => evalCondT cfg st c) body n st) (whileLoopT (fun st => evalCondT cfg st c) body n st')
  | 0, _, _, h => near_ret ⟨rfl, h⟩
  | n + 1, st, st', h => by
    rw [whileLoopT, whileLoopT, near_cond cfg h hc]
    refine near_into _ h fun b => ?_
    cases b
    · exact near_ret ⟨rfl, h⟩
    · refine near_bind (hb _ _ h) fun u v huv => ?_
      obtain ⟨u, ru⟩ := u
      obtain ⟨v, rv⟩ := v
      obtain ⟨hr, hs⟩ := huv
      dsimp only at hr hs
      subst hr
      cases rv with
      | ok => exact near_while cfg hc hb n u v hs
      | cont => exact near_while cfg hc hb n u v hs
      | _ => exact near_ret ⟨rfl, hs⟩

theorem near_forLoop {name : Str} (hn : name ≠ x) {body : State → T (State × IRes)}
    (hb : ∀ st st', AlikeBut x st st' → NearS x (body st) (body st')) : ∀ (items : List Value) (st st' : State), AlikeBut x st st' →
      NearS x (forLoopT name body items st) (forLoopT name body items st')
  | [], _, _, h => near_ret ⟨rfl, h⟩
  | i :: items, st, st', h => by
    rw [forLoopT, forLoopT]
    rcases h.vars.insert hn i with ⟨e, h1, h2⟩ | ⟨a', b', h1, h2, h3⟩
    · rw [h1, h2]; exact near_ret ⟨rfl, h⟩
    · rw [h1, h2]
      refine near_bind (hb _ _ (h.with h3)) fun u v huv => ?_
      obtain ⟨u, ru⟩ := u
      obtain ⟨v, rv⟩ := v
      obtain ⟨hr, hs⟩ := huv
      dsimp only at hr hs
      subst hr
      cases rv with
      | ok => exact near_forLoop hn hb items u v hs
      | cont => exact near_forLoop hn hb items u v hs
      | _ => exact near_ret ⟨rfl, hs⟩

mutual
theorem near_stmt (cfg : Cfg) : ∀ (s : Stmt) (_ : Unaware x s) (st st' : State), AlikeBut x st st' →
    NearS x (evalStmtT cfg s st) (evalStmtT cfg s st')
  | .assign l r, hs, st, st', h => by rw [evalStmtT, evalStmtT]; exact near_assign cfg h hs.1 hs.2
  | .ite c t f, hs, st, st', h => by
    rw [evalStmtT, evalStmtT]
    refine near_scope h fun st st' h => ?_
    rw [near_cond cfg h hs.1]
    refine near_into _ h fun b => ?_
    cases b
    · exact near_stmts cfg f hs.2.2 st st' h
    · exact near_stmts cfg t hs.2.1 st st' h
  | .while c b, hs, st, st', h => by
    rw [evalStmtT, evalStmtT]
    exact near_scope h fun st st' h => near_while cfg hs.1 (near_stmts cfg b hs.2) _ st st' h
  | .for y r b, hs, st, st', h => by
    rw [evalStmtT, evalStmtT]
    refine near_scope h fun st st' h => ?_
    unfold evalForT
    cases y with
    | ident name =>
      dsimp only
      rw [near_expr cfg h hs.2.1]
      exact near_into _ h fun v => near_into _ h fun items =>
        near_forLoop (by rintro rfl; exact hs.1 rfl) (near_stmts cfg b hs.2.2) items st st' h
    | _ => exact near_ret ⟨rfl, h⟩
  | .brk, _, st, st', h => by rw [evalStmtT, evalStmtT]; exact near_ret ⟨rfl, h⟩
  | .cont, _, st, st', h => by rw [evalStmtT, evalStmtT]; exact near_ret ⟨rfl, h⟩
  | .help, _, st, st', h => by rw [evalStmtT, evalStmtT]; exact near_write h _
  | .quit, _, st, st', h => by rw [evalStmtT, evalStmtT]; exact near_ret ⟨rfl, h⟩
  | .filesystem e, hs, st, st', h => by
    rw [evalStmtT, evalStmtT]
    unfold evalFilesystemT
    rw [near_expr cfg h hs]
    exact near_into _ h fun v => near_into _ h fun path => near_into _ h fun fs => near_ret ⟨rfl, rfl, h.sink, h.vars⟩
  | .print e, hs, st, st', h => by
    rw [evalStmtT, evalStmtT]
    unfold evalPrintT
    rw [near_expr cfg h hs]
    exact near_into _ h fun v => near_into _ h fun t => near_write h _
  | .expr e, hs, st, st', h => by
    rw [evalStmtT, evalStmtT]
    unfold evalExprStmtT
    rw [near_expr cfg h hs]
    refine near_into _ h fun v => ?_
    cases cfg.interactive
    · exact near_ret ⟨rfl, h⟩
    · exact near_into _ h fun t => near_write h _
theorem near_stmts (cfg : Cfg) : ∀ (p : List Stmt) (_ : UnawareAll x p) (st st' : State), AlikeBut x st st' →
    NearS x (evalStmtsT cfg p st) (evalStmtsT cfg p st')
  | [], _, st, st', h => by rw [evalStmtsT, evalStmtsT]; exact near_ret ⟨rfl, h⟩
  | s :: p, hs, st, st', h => by
    rw [evalStmtsT, evalStmtsT]
    refine near_bind (near_stmt cfg s hs.1 st st' h) fun u v huv => ?_
    obtain ⟨u, ru⟩ := u
    obtain ⟨v, rv⟩ := v
    obtain ⟨hr, hs'⟩ := huv
    dsimp only at hr hs'
    subst hr
    cases rv with
    | ok => exact near_stmts cfg p hs.2 u v hs'
    | _ => exact near_ret ⟨rfl, hs'⟩
end

/-! ### the checks -/

mutual
theorem near_check {vs vs' : Vars Unit} (h : ButFor x vs vs') : ∀ (e : Expr) (_ : x ∉ e.uses), analyzeExpr vs' e = analyzeExpr vs e
  | .ident y, hu => by rw [analyzeExpr, analyzeExpr, h.get (by rintro rfl; simp [Expr.uses] at hu)]
  | .int _, _ => by rw [analyzeExpr, analyzeExpr]
  | .bool _, _ => by rw [analyzeExpr, analyzeExpr]
  | .str _, _ => by rw [analyzeExpr, analyzeExpr]
  | .paren e, hu => by rw [analyzeExpr, analyzeExpr]; exact near_check h e (by simpa [Expr.uses] using hu)
  | .field e f, hu => by
    have := near_check h e (by simpa [Expr.uses] using hu)
    cases f
    case ident f => rw [analyzeExpr, analyzeExpr, this]
    all_goals rw [analyzeExpr, analyzeExpr] <;> simp
  | .index e i, hu => by
    simp only [Expr.uses, List.mem_append, not_or] at hu
    rw [analyzeExpr, analyzeExpr, near_check h e hu.1, near_check h i hu.2]
  | .call f args, hu => by
    simp only [Expr.uses, List.mem_append, not_or] at hu
    rw [analyzeExpr, analyzeExpr, near_check h f hu.1, near_checks h args hu.2]
  | .bin _ l r, hu => by
    simp only [Expr.uses, List.mem_append, not_or] at hu
    rw [analyzeExpr, analyzeExpr, near_check h l hu.1, near_check h r hu.2]
  | .un _ e, hu => by rw [analyzeExpr, analyzeExpr]; exact near_check h e (by simpa [Expr.uses] using hu)
  | .cast ty e, hu => by
    have := near_check h e (by simpa [Expr.uses] using hu)
    cases ty
    case ident f => rw [analyzeExpr, analyzeExpr, this]
    all_goals rw [analyzeExpr, analyzeExpr] <;> simp
theorem near_checks {vs vs' : Vars Unit} (h : ButFor x vs vs') : ∀ (es : List Expr) (_ : x ∉ usesL es), analyzeArgs vs' es = analyzeArgs vs es
  | [], _ => by rw [analyzeArgs, analyzeArgs]
  | e :: es, hu => by
    simp only [usesL, List.mem_append, not_or] at hu
    rw [analyzeArgs, analyzeArgs, near_check h e hu.1, near_checks h es hu.2]
end

/-- two checks with the same verdict and one difference in the names known -/
structure CheckBut (x : Str) (a b : AState × R Unit) : Prop where
  verdict : b.2 = a.2
  depth : b.1.loopDepth = a.1.loopDepth
  vars : ButFor x a.1.vars b.1.vars

theorem but_declare {a b : AState} (h : ButFor x a.vars b.vars) (hd : b.loopDepth = a.loopDepth) {name : Str} (hn : name ≠ x) :
    CheckBut x (a.declare name) (b.declare name) := by
  unfold AState.declare
  rcases h.insert hn () with ⟨e, h1, h2⟩ | ⟨a', b', h1, h2, h3⟩
  · rw [h1, h2]; exact ⟨rfl, hd, h⟩
  · rw [h1, h2]; exact ⟨rfl, hd, h3⟩

theorem but_then {q q' : AState × R Unit} (h : CheckBut x q q') {f f' : AState → AState × R Unit}
    (hf : ∀ a b : AState, ButFor x a.vars b.vars → b.loopDepth = a.loopDepth → CheckBut x (f a) (f' b)) :
    CheckBut x (andThenA q f) (andThenA q' f') := by
  obtain ⟨a, r⟩ := q
  obtain ⟨b, r'⟩ := q'
  obtain ⟨h1, h2, h3⟩ := h
  dsimp only at h1
  subst h1
  cases r' with
  | ok _ => exact hf a b h3 h2
  | error e => exact ⟨rfl, h2, h3⟩

theorem but_if {a b : AState} (h : ButFor x a.vars b.vars) (hd : b.loopDepth = a.loopDepth) (r : R Unit)
    {f f' : AState → AState × R Unit} (hf : CheckBut x (f a) (f' b)) :
    CheckBut x (match r with | .ok _ => f a | .error e => (a, .error e)) (match r with | .ok _ => f' b | .error e => (b, .error e)) := by
  cases r with
  | ok _ => exact hf
  | error e => exact ⟨rfl, hd, h⟩

theorem but_scope (d : Nat) {a b : AState} (h : ButFor x a.vars b.vars) (hd : b.loopDepth = a.loopDepth)
    {f f' : AState → AState × R Unit}
    (hf : ∀ a b : AState, ButFor x a.vars b.vars → b.loopDepth = a.loopDepth → CheckBut x (f a) (f' b)) :
    CheckBut x (scopedA d a f) (scopedA d b f') := by
  have h1 := hf ⟨a.vars.push, a.loopDepth + d⟩ ⟨b.vars.push, b.loopDepth + d⟩ h.push (by dsimp only; rw [hd])
  unfold scopedA
  dsimp only
  generalize f ⟨a.vars.push, a.loopDepth + d⟩ = q at *
  generalize f' ⟨b.vars.push, b.loopDepth + d⟩ = q' at *
  rcases h1.vars.pop with ⟨e, h2, h3⟩ | ⟨a', b', h2, h3, h4⟩
  · rw [h2, h3]; exact ⟨rfl, h1.depth, h1.vars⟩
  · rw [h2, h3]; exact ⟨h1.verdict, by dsimp only; rw [h1.depth], h4⟩

mutual
theorem but_stmt : ∀ (s : Stmt) (_ : Unaware x s) (a b : AState), ButFor x a.vars b.vars → b.loopDepth = a.loopDepth →
    CheckBut x (analyzeStmt s a) (analyzeStmt s b)
  | .assign l r, hs, a, b, h, hd => by
    have h1 := near_check h l hs.1
    have h2 := near_check h r hs.2
    cases l
    case ident name =>
      rw [analyzeStmt, analyzeStmt]
      refine but_then (but_declare h hd (by rintro rfl; exact hs.1 (by simp [Expr.uses]))) fun a b h hd => ?_
      rw [near_check h r hs.2]
      exact ⟨rfl, hd, h⟩
    all_goals
      rw [analyzeStmt, analyzeStmt, h1, h2]
      · generalize analyzeExpr a.vars r = q
        generalize analyzeExpr a.vars _ = q'
        cases q' <;> exact ⟨rfl, hd, h⟩
      all_goals simp
  | .ite c t f, hs, a, b, h, hd => by
    rw [analyzeStmt, analyzeStmt]
    refine but_scope 0 h hd fun a b h hd => ?_
    rw [near_check h c hs.1]
    exact but_if h hd _ (f := fun a => andThenA (analyzeStmts t a) _) (f' := fun a => andThenA (analyzeStmts t a) _)
      (but_then (but_stmts t hs.2.1 a b h hd) (but_stmts f hs.2.2))
  | .while c p, hs, a, b, h, hd => by
    rw [analyzeStmt, analyzeStmt]
    refine but_scope 1 h hd fun a b h hd => ?_
    rw [near_check h c hs.1]
    exact but_if h hd _ (but_stmts p hs.2 a b h hd)
  | .for y r p, hs, a, b, h, hd => by
    rw [analyzeStmt, analyzeStmt]
    refine but_scope 1 h hd fun a b h hd => ?_
    cases y
    case ident name =>
      refine but_then (but_declare h hd (by rintro rfl; exact hs.1 rfl)) fun a b h hd => ?_
      rw [near_check h r hs.2.1]
      exact but_if h hd _ (but_stmts p hs.2.2 a b h hd)
    all_goals exact ⟨rfl, hd, h⟩
  | .brk, _, a, b, h, hd => by rw [analyzeStmt, analyzeStmt, hd]; exact ⟨rfl, hd, h⟩
  | .cont, _, a, b, h, hd => by rw [analyzeStmt, analyzeStmt, hd]; exact ⟨rfl, hd, h⟩
  | .help, _, a, b, h, hd => by rw [analyzeStmt, analyzeStmt]; exact ⟨rfl, hd, h⟩
  | .quit, _, a, b, h, hd => by rw [analyzeStmt, analyzeStmt]; exact ⟨rfl, hd, h⟩
  | .filesystem e, _, a, b, h, hd => by
    rw [analyzeStmt.eq_def, analyzeStmt.eq_def]
    dsimp only
    cases e <;> exact ⟨rfl, hd, h⟩
  | .print e, hs, a, b, h, hd => by rw [analyzeStmt, analyzeStmt, near_check h e hs]; exact ⟨rfl, hd, h⟩
  | .expr e, hs, a, b, h, hd => by rw [analyzeStmt, analyzeStmt, near_check h e hs]; exact ⟨rfl, hd, h⟩
theorem but_stmts : ∀ (p : List Stmt) (_ : UnawareAll x p) (a b : AState), ButFor x a.vars b.vars → b.loopDepth = a.loopDepth →
    CheckBut x (analyzeStmts p a) (analyzeStmts p b)
  | [], _, a, b, h, hd => by rw [analyzeStmts, analyzeStmts]; exact ⟨rfl, hd, h⟩
  | s :: p, hs, a, b, h, hd => by
    rw [analyzeStmts, analyzeStmts]
    exact but_then (but_stmt s hs.1 a b h hd) (but_stmts p hs.2)
end

/-- what is not mentioned is left alone -/
theorem root_uses : ∀ {l : Expr} {y : Str}, root l = some y → y ∈ l.uses
  | .ident z, y, h => by cases h; simp [Expr.uses]
  | .field e f, y, h => by rw [Expr.uses]; exact root_uses (l := e) h
  | .index e i, y, h => by rw [Expr.uses]; exact List.mem_append.2 (.inl (root_uses (l := e) h))
  | .int _, _, h => by cases h
  | .bool _, _, h => by cases h
  | .str _, _, h => by cases h
  | .paren _, _, h => by cases h
  | .call _ _, _, h => by cases h
  | .bin _ _ _, _, h => by cases h
  | .un _ _, _, h => by cases h
  | .cast _ _, _, h => by cases h

mutual
theorem unaware_stmt : ∀ {s : Stmt}, Unaware x s → Untouched x s
  | .assign l r, h => fun hr => h.1 (root_uses hr)
  | .ite c t f, h => ⟨unaware_stmts h.2.1, unaware_stmts h.2.2⟩
  | .while c b, h => unaware_stmts h.2
  | .for y r b, h => ⟨h.1, unaware_stmts h.2.2⟩
  | .brk, _ => trivial
  | .cont, _ => trivial
  | .help, _ => trivial
  | .quit, _ => trivial
  | .filesystem _, _ => trivial
  | .print _, _ => trivial
  | .expr _, _ => trivial
theorem unaware_stmts : ∀ {p : List Stmt}, UnawareAll x p → UntouchedAll x p
  | [], _ => trivial
  | _ :: _, h => ⟨unaware_stmt h.1, unaware_stmts h.2⟩
end

/-! ### what the checks know of the variable stays as it is -/

mutual
theorem still_stmt : ∀ (s : Stmt) (_ : Unaware x s) (a : AState), slots (analyzeStmt s a).1.vars x = slots a.vars x
  | .assign l r, hs, a => by
    cases l
    case ident y =>
      have hy : x ≠ y := by rintro rfl; exact hs.1 (by simp [Expr.uses])
      rw [analyzeStmt]
      unfold AState.declare
      cases hi : a.vars.insert y () with
      | error e => rfl
      | ok vs => exact (insert_slots hi).2 x hy
    all_goals
      rw [analyzeStmt.eq_def]
      dsimp only
      split <;> rfl
  | .ite c t f, _, a => by
    rw [analyzeStmt]
    have e := outer_scope 0 (inner_if (g := fun a => analyzeExpr a.vars c) (inner_then (inner_stmts t) (inner_stmts f))) a
    exact congrArg (fun b : AState => slots b.vars x) e
  | .while c b, _, a => by
    rw [analyzeStmt]
    have e := outer_scope 1 (inner_if (g := fun a => analyzeExpr a.vars c) (inner_stmts b)) a
    exact congrArg (fun b : AState => slots b.vars x) e
  | .for y r b, hs, a => by
    clear hs
    rw [analyzeStmt]
    refine congrArg (fun b : AState => slots b.vars x) (outer_scope 1 ?_ a)
    cases y
    case ident y => exact inner_then (inner_declare y) (inner_if (g := fun a => analyzeExpr a.vars r) (inner_stmts b))
    all_goals exact Outer.inner fun _ => rfl
  | .brk, _, a => by rw [analyzeStmt]
  | .cont, _, a => by rw [analyzeStmt]
  | .help, _, a => by rw [analyzeStmt]
  | .quit, _, a => by rw [analyzeStmt]
  | .filesystem e, _, a => by rw [analyzeStmt.eq_def]; dsimp only; split <;> rfl
  | .print e, _, a => by rw [analyzeStmt]
  | .expr e, _, a => by rw [analyzeStmt]
theorem still_stmts : ∀ (p : List Stmt) (_ : UnawareAll x p) (a : AState), slots (analyzeStmts p a).1.vars x = slots a.vars x
  | [], _, a => by rw [analyzeStmts]
  | s :: p, hs, a => by
    rw [analyzeStmts]
    have h := still_stmt s hs.1 a
    generalize analyzeStmt s a = q at *
    obtain ⟨b, q⟩ := q
    cases q
    · exact h
    · exact (still_stmts p hs.2 b).trans h
end

end

/-! ### programs without `quit;` -/

/-- it does not end the interpreter -/
abbrev Stays (y : T (State × IRes)) : Prop := Leads (fun r => r.2 ≠ .quit) y

theorem stays_into {α : Type} (y : E α) (st : State)
    {k : α → T (State × IRes)} (hk : ∀ a, Stays (k a)) : Stays (y.into st k) := by
  refine Leads.bind (α := R α) (fun r hr => ?_) (vals_any y)
  cases r with
  | ok a => exact hk a
  | error e => exact .ret (by simp)

theorem stays_write (st : State) (s : Str) : Stays (.ret (st.write s)) := by
  refine .ret ?_
  unfold State.write
  split <;> simp

theorem stays_scope (st : State) {body : State → T (State × IRes)}
    (hb : ∀ st : State, Stays (body st)) : Stays (inScopeT st body) := by
  refine Leads.bind (fun r hr => .ret ?_) (hb { st with vars := st.vars.push })
  cases r.1.vars.pop with
  | ok vs => exact hr
  | error e => simp

theorem stays_while {c : State → E Bool} {body : State → T (State × IRes)} (hb : ∀ st, Stays (body st)) : ∀ (n : Nat) (st : State),
      Stays (whileLoopT c body n st)
  | 0, _ => .ret (by simp)
  | n + 1, st => by
    refine stays_into _ st fun b => ?_
    cases b
    · exact .ret (by simp)
    · refine Leads.bind (fun r hr => ?_) (hb st)
      obtain ⟨st', r⟩ := r
      cases r with
      | ok => exact stays_while hb n st'
      | cont => exact stays_while hb n st'
      | quit => exact absurd rfl hr
      | _ => exact .ret (by simp)

theorem stays_for (name : Str) {body : State → T (State × IRes)} (hb : ∀ st, Stays (body st)) : ∀ (vs : List Value) (st : State),
      Stays (forLoopT name body vs st)
  | [], _ => .ret (by simp)
  | v :: vs, st => by
    refine stays_into _ st fun w => ?_
    refine Leads.bind (fun r hr => ?_) (hb _)
    obtain ⟨st', r⟩ := r
    cases r with
    | ok => exact stays_for name hb vs st'
    | cont => exact stays_for name hb vs st'
    | quit => exact absurd rfl hr
    | _ => exact .ret (by simp)

mutual
theorem stmt_stays (cfg : Cfg) : ∀ (s : Stmt), NoQuit s → ∀ st : State, Stays (evalStmtT cfg s st)
  | .assign l r, _, st => by
    rw [evalStmtT]
    refine stays_into _ st fun v => ?_
    cases l with
    | _ => exact stays_into _ st fun w => .ret (by simp)
  | .ite c t f, h, st => by
    rw [evalStmtT]
    refine stays_scope st fun st => stays_into _ st fun b => ?_
    cases b
    · exact stmts_stay cfg f h.2 st
    · exact stmts_stay cfg t h.1 st
  | .while c body, h, st => by
    rw [evalStmtT]
    exact stays_scope st fun st => stays_while (stmts_stay cfg body h) _ st
  | .for y r body, h, st => by
    rw [evalStmtT]
    refine stays_scope st fun st => ?_
    unfold evalForT
    cases y with
    | ident name => exact stays_into _ st fun v => stays_into _ st fun vec => stays_for name (stmts_stay cfg body h) vec st
    | _ => exact .ret (by simp)
  | .brk, _, st => by rw [evalStmtT]; exact .ret (by simp)
  | .cont, _, st => by rw [evalStmtT]; exact .ret (by simp)
  | .help, _, st => by rw [evalStmtT]; exact stays_write st _
  | .quit, h, st => h.elim
  | .filesystem e, _, st => by
    rw [evalStmtT]
    exact stays_into _ st fun v => stays_into _ st fun path => stays_into _ st fun fs => .ret (by simp)
  | .print e, _, st => by
    rw [evalStmtT]
    exact stays_into _ st fun v => stays_into _ st fun t => stays_write st _
  | .expr e, _, st => by
    rw [evalStmtT]
    refine stays_into _ st fun v => ?_
    cases cfg.interactive
    · exact .ret (by simp)
    · exact stays_into _ st fun t => stays_write st _
theorem stmts_stay (cfg : Cfg) : ∀ (p : List Stmt), NoQuits p → ∀ st : State, Stays (evalStmtsT cfg p st)
  | [], _, st => by rw [evalStmtsT]; exact .ret (by simp)
  | s :: p, h, st => by
    rw [evalStmtsT]
    refine Leads.bind (fun r hr => ?_) (stmt_stays cfg s h.1 st)
    obtain ⟨st', r⟩ := r
    cases r with
    | ok => exact stmts_stay cfg p h.2 st'
    | quit => exact absurd rfl hr
    | _ => exact .ret (by simp)
end

end Btrd
