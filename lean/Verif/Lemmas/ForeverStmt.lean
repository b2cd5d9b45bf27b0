/-
What can go on forever (C79): statements.
-/
import Verif.Lemmas.Forever
import Verif.Lemmas.RulesUnique

namespace Btrd
open Spec

/-! ### targets of assignments -/

theorem fieldWrite_ends {f : Value → R Value} (hf : ∀ v, Only (fun f => f ≠ .diverge) (f v)) (name : Str) (v : Value) :
    Only (fun f => f ≠ .diverge) (fieldWrite f name v) := by
  unfold fieldWrite
  split
  · exact only_bind (only_modifyField errs_ends hf _ _) fun _ _ => only_ok _
  · exact only_err errs_ends _ (by simp)

theorem indexWrite_ends {f : Value → R Value} (hf : ∀ v, Only (fun f => f ≠ .diverge) (f v)) (i : Int) (v : Value) :
    Only (fun f => f ≠ .diverge) (indexWrite f i v) := by
  unfold indexWrite
  split
  · exact only_bind (only_tryUnsigned errs_ends _ _) fun _ _ => only_bind (only_modifyNth errs_ends hf _ _) fun _ _ =>
      only_ok _
  · exact only_err errs_ends _ (by simp)

theorem lhs_late {cfg : Cfg} {σ : State} {l : Expr} {f : Value → R Value} (n : Nat)
    (h : ∀ m, n ≤ m → modifyLhs (cfg.steps m) σ l f = .error .diverge) (k : Nat) :
    modifyLhs (cfg.steps k) σ l f = .error .diverge := by
  rcases apx_modifyLhs (finer_steps cfg (Nat.le_max_right n k)) σ l f with h' | ⟨g, rfl, h'⟩
  · rw [h', h _ (Nat.le_max_left n k)]
  · exact h'

/-- what no bound is enough for, hangs by the rules -/
theorem hangs_lhs (cfg : Cfg) (σ : State) : ∀ (l : Expr) (f : Value → R Value),
    (∀ v, Only (fun f => f ≠ .diverge) (f v)) → (∀ n, modifyLhs (cfg.steps n) σ l f = .error .diverge) →
    TargetHangs (world cfg) (waits cfg) σ l
  | .ident x, f, hf, h => by
    exfalso
    have := h 0
    rw [modifyLhs] at this
    split at this
    · rename_i hm
      exact only_ends (only_modify hf hm) this
    · simp at this
  | .field e g, f, hf, h => by
    cases g with
    | ident name =>
      exact .field (hangs_lhs cfg σ e (fieldWrite f name) (fieldWrite_ends hf name) fun n => by
        rw [← modifyLhs_field]; exact h n)
    | _ => exact absurd (h 0) (by rw [modifyLhs] <;> simp [R.err])
  | .index e i, f, hf, h => by
    rcases comes_to cfg σ i with h' | ⟨n, g, hg, h'⟩ | ⟨v, hv⟩
    · exact .index (hangs_ev cfg σ i h')
    · have := h n
      rw [modifyLhs_index, h' n (Nat.le_refl n)] at this
      have : (Except.error g : R (Vars Value)) = .error .diverge := this
      rw [Except.error.injEq] at this
      exact absurd this hg
    · obtain ⟨n, hn⟩ := ev_gives hv
      have hint : ∃ k, v = .int k := by
        have := h n
        rw [modifyLhs_index, hn n (Nat.le_refl n)] at this
        cases v with
        | int k => exact ⟨k, rfl⟩
        | _ => exact absurd this (by simp [bind, Except.bind, Value.asInteger, R.err])
      obtain ⟨k, rfl⟩ := hint
      refine .base hv (hangs_lhs cfg σ e (indexWrite f k) (indexWrite_ends hf k) (lhs_late n fun m hm => ?_))
      have := h m
      rw [modifyLhs_index, hn m hm] at this
      exact this
  | .int _, f, _, h => absurd (h 0) (by rw [modifyLhs] <;> simp [R.err])
  | .bool _, f, _, h => absurd (h 0) (by rw [modifyLhs] <;> simp [R.err])
  | .str _, f, _, h => absurd (h 0) (by rw [modifyLhs] <;> simp [R.err])
  | .paren _, f, _, h => absurd (h 0) (by rw [modifyLhs] <;> simp [R.err])
  | .call _ _, f, _, h => absurd (h 0) (by rw [modifyLhs] <;> simp [R.err])
  | .bin _ _ _, f, _, h => absurd (h 0) (by rw [modifyLhs] <;> simp [R.err])
  | .un _ _, f, _, h => absurd (h 0) (by rw [modifyLhs] <;> simp [R.err])
  | .cast _ _, f, _, h => absurd (h 0) (by rw [modifyLhs] <;> simp [R.err])

theorem lhs_hangs {cfg : Cfg} {σ : State} {l : Expr} (h : TargetHangs (world cfg) (waits cfg) σ l) (n : Nat) :
    ∀ f : Value → R Value, modifyLhs (cfg.steps n) σ l f = .error .diverge := by
  induction h with
  | index h => intro f; rw [modifyLhs_index, ev_hangs h n]; rfl
  | base hv _ ih =>
    intro f
    rw [modifyLhs_index]
    rcases ev_eval hv n with h | h
    · rw [h]; exact ih _
    · rw [h]; rfl
  | field _ ih => intro f; rw [modifyLhs_field]; exact ih _

/-! ### loops -/

/-- the iterations of a `while` loop, at these bounds -/
def turnsAt (cfg : Cfg) (c : Expr) (b : List Stmt) (m k : Nat) (σ : State) : State × IRes :=
  whileLoop (fun st => evalCond (cfg.steps m) st c) (evalStmts (cfg.steps m) b) k σ

theorem turnsAt_more (cfg : Cfg) (c : Expr) (b : List Stmt) (σ : State) {m m' k k' : Nat} (hm : m ≤ m') (hk : k ≤ k') :
    turnsAt cfg c b m k σ = turnsAt cfg c b m' k' σ ∨ (turnsAt cfg c b m k σ).2 = .fail .diverge := by
  rcases apxI_while (S := (· = .diverge)) (fun st => apx_evalCond (finer_steps cfg hm) st c)
    (fun st => apxI_stmts (finer_steps cfg hm) b st) k k' (.inr ⟨hk, rfl⟩) σ with h | ⟨f, rfl, h⟩
  · exact .inl h
  · exact .inr h

/-- no bounds are enough -/
def LoopHang (cfg : Cfg) (c : Expr) (b : List Stmt) (σ : State) : Prop :=
  ∀ m k, (turnsAt cfg c b m k σ).2 = .fail .diverge

theorem loopHang_late {cfg : Cfg} {c : Expr} {b : List Stmt} {σ : State} (n : Nat)
    (h : ∀ m, n ≤ m → (turnsAt cfg c b m m σ).2 = .fail .diverge) : LoopHang cfg c b σ := by
  intro m k
  rcases turnsAt_more cfg c b σ (m' := n + m + k) (k' := n + m + k) (m := m) (k := k) (by omega) (by omega) with h' | h'
  · rw [h']; exact h _ (by omega)
  · exact h'

/-- no bound is enough for the statements -/
def AllHang (cfg : Cfg) (p : List Stmt) (σ : State) : Prop := ∀ n, (evalStmts (cfg.steps n) p σ).2 = .fail .diverge

def StmtHang (cfg : Cfg) (s : Stmt) (σ : State) : Prop := ∀ n, (evalStmt (cfg.steps n) s σ).2 = .fail .diverge

theorem allHang_late {cfg : Cfg} {p : List Stmt} {σ : State} (n : Nat)
    (h : ∀ m, n ≤ m → (evalStmts (cfg.steps m) p σ).2 = .fail .diverge) : AllHang cfg p σ := by
  intro k
  rcases apxI_stmts (finer_steps cfg (Nat.le_max_right n k)) p σ with h' | ⟨f, rfl, h'⟩
  · rw [h']; exact h _ (Nat.le_max_left n k)
  · exact h'

/-- statements that do not hang come to an end, by the rules, and stay with it -/
theorem ends_of_not_hang {cfg : Cfg} {p : List Stmt} {σ : State} (h : ¬ AllHang cfg p σ) :
    ∃ n σ₁ r, r ≠ .fail .diverge ∧ (∀ m, n ≤ m → evalStmts (cfg.steps m) p σ = (σ₁, r)) ∧
      RunsAll (world cfg) p σ σ₁ (kind r) := by
  obtain ⟨n, hn⟩ := Classical.not_forall.1 h
  refine ⟨n, (evalStmts (cfg.steps n) p σ).1, (evalStmts (cfg.steps n) p σ).2, hn, fun m hm => ?_,
    stmts_rule (cfg.steps n) p σ hn⟩
  rcases apxI_stmts (finer_steps cfg hm) p σ with h' | ⟨f, rfl, h'⟩
  · rw [← h']
  · exact absurd h' hn

/-- what a loop does after an iteration that ended like this -/
def afterTurn (σ₁ : State) (rest : State × IRes) : IRes → State × IRes
  | .ok => rest
  | .cont => rest
  | .brk => (σ₁, .ok)
  | r => (σ₁, r)

/-- where a loop that hangs is stuck -/
def LoopStuck (cfg : Cfg) (c : Expr) (b : List Stmt) (σ : State) : Prop :=
  ∃ k σ₁, Turns (world cfg) c b k σ σ₁ ∧ (EvHangs (world cfg) (waits cfg) σ₁ c ∨
    Ev (world cfg) σ₁ c (.bool true) ∧ ∃ t τ, ReachesAll (world cfg) b σ₁ t τ ∧ Stuck (world cfg) (waits cfg) t τ)

theorem loop_stuck {cfg : Cfg} {c : Expr} {b : List Stmt}
    (hb : ∀ σ, AllHang cfg b σ → ∃ t τ, ReachesAll (world cfg) b σ t τ ∧ Stuck (world cfg) (waits cfg) t τ) :
    ∀ (k : Nat) (σ : State), (∀ σ₁, ¬ Turns (world cfg) c b k σ σ₁) → LoopHang cfg c b σ → LoopStuck cfg c b σ := by
  intro k
  induction k with
  | zero => intro σ hk _; exact absurd .zero (hk σ)
  | succ k ih =>
    intro σ hk h
    rcases comes_to cfg σ c with h' | ⟨n, f, hf, h'⟩ | ⟨v, hv⟩
    · exact ⟨0, σ, .zero, .inl (hangs_ev cfg σ c h')⟩
    · have := h n 1
      unfold turnsAt whileLoop at this
      simp only [evalCond, h' n (Nat.le_refl n), bind, Except.bind, IRes.fail.injEq] at this
      exact absurd this hf
    · obtain ⟨n, hn⟩ := ev_gives hv
      have hbool : v = .bool true := by
        have := h n 1
        unfold turnsAt whileLoop at this
        simp only [evalCond, hn n (Nat.le_refl n), bind, Except.bind] at this
        cases v with
        | bool t =>
          cases t with
          | true => rfl
          | false => simp [Value.asBoolean] at this
        | _ => simp [Value.asBoolean, R.err] at this
      subst hbool
      by_cases hbody : AllHang cfg b σ
      · obtain ⟨t, τ, h1, h2⟩ := hb σ hbody
        exact ⟨0, σ, .zero, .inr ⟨hv, t, τ, h1, h2⟩⟩
      · obtain ⟨n₁, σ₁, r, hr, h1, h2⟩ := ends_of_not_hang hbody
        have step : ∀ m j, n + n₁ ≤ m → turnsAt cfg c b m (j + 1) σ =
            afterTurn σ₁ (turnsAt cfg c b m j σ₁) r := by
          intro m j hm
          unfold turnsAt
          rw [whileLoop]
          simp only [cond_of_ev (hn m (by omega)), h1 m (by omega)]
          cases r <;> rfl
        have next : kind r = .done ∨ kind r = .cont → LoopStuck cfg c b σ := by
          intro ho
          have hs : ∀ m j, n + n₁ ≤ m → turnsAt cfg c b m (j + 1) σ = turnsAt cfg c b m j σ₁ := by
            intro m j hm
            rw [step m j hm]
            rcases ho with ho | ho
            · rw [kind_done ho]; rfl
            · rw [kind_cont ho]; rfl
          obtain ⟨k', σ₂, h3, h4⟩ := ih σ₁ (fun σ₂ ht => hk σ₂ (.succ hv h2 ho ht))
            (loopHang_late (n + n₁) fun m hm => by rw [← hs m m hm]; exact h m (m + 1))
          exact ⟨k' + 1, σ₂, .succ hv h2 ho h3, h4⟩
        cases r with
        | ok => exact next (.inl rfl)
        | cont => exact next (.inr rfl)
        | brk => have := h (n + n₁) 1; rw [step _ _ (Nat.le_refl _)] at this; simp [afterTurn] at this
        | quit => have := h (n + n₁) 1; rw [step _ _ (Nat.le_refl _)] at this; simp [afterTurn] at this
        | fail f =>
          have := h (n + n₁) 1
          rw [step _ _ (Nat.le_refl _)] at this
          exact absurd this hr

/-- a complete iteration takes one of the steps -/
theorem turn_step {cfg : Cfg} {c : Expr} {b : List Stmt} {σ σ₁ : State} {o : Outcome}
    (hc : Ev (world cfg) σ c (.bool true)) (hb : RunsAll (world cfg) b σ σ₁ o) (ho : o = .done ∨ o = .cont) (m k : Nat) :
    turnsAt cfg c b m (k + 1) σ = turnsAt cfg c b m k σ₁ ∨ (turnsAt cfg c b m (k + 1) σ).2 = .fail .diverge := by
  unfold turnsAt
  rw [whileLoop]
  rcases ev_eval hc m with h | h
  · simp only [cond_of_ev h]
    rcases (meets_stmts hb).1 m with h' | h'
    · rcases ho with rfl | rfl
      · simp only [is_ok h', true_or]
      · simp only [is_cont h', true_or]
    · obtain ⟨σ₂, h'⟩ := is_diverge h'
      dsimp only at h'
      simp only [h', or_true]
  · simp only [cond_of_diverge h, or_true]

theorem turns_hang {cfg : Cfg} {c : Expr} {b : List Stmt} {k : Nat} {σ σ₁ : State} (h : Turns (world cfg) c b k σ σ₁) :
    (∀ m j, j ≤ k → (turnsAt cfg c b m j σ).2 = .fail .diverge) ∧ (LoopHang cfg c b σ₁ → LoopHang cfg c b σ) := by
  induction h with
  | zero =>
    refine ⟨fun m j hj => ?_, id⟩
    have : j = 0 := by omega
    subst this
    rfl
  | succ hc hb ho _ ih =>
    refine ⟨fun m j hj => ?_, fun hl m j => ?_⟩
    · cases j with
      | zero => rfl
      | succ j =>
        rcases turn_step hc hb ho m j with h | h
        · rw [h]; exact ih.1 m j (by omega)
        · exact h
    · cases j with
      | zero => rfl
      | succ j =>
        rcases turn_step hc hb ho m j with h | h
        · rw [h]; exact ih.2 hl m j
        · exact h

/-- where the visits of a `for` loop that hang are stuck -/
theorem visits_stuck {cfg : Cfg} {x : Str} {b : List Stmt}
    (hb : ∀ σ, AllHang cfg b σ → ∃ t τ, ReachesAll (world cfg) b σ t τ ∧ Stuck (world cfg) (waits cfg) t τ) :
    ∀ (xs : List Value) (σ : State), σ.vars ≠ [] → (n : Nat) →
      (∀ m, n ≤ m → (forLoop x (evalStmts (cfg.steps m) b) xs σ).2 = .fail .diverge) →
      ∃ before v after σ₁ vs, xs = before ++ v :: after ∧ Visited (world cfg) x b before σ σ₁ ∧
        Assigns x v σ₁.vars vs ∧
        ∃ t τ, ReachesAll (world cfg) b { σ₁ with vars := vs } t τ ∧ Stuck (world cfg) (waits cfg) t τ := by
  intro xs
  induction xs with
  | nil => intro σ _ n h; have := h n (Nat.le_refl n); simp [forLoop] at this
  | cons v xs ih =>
    intro σ hne n h
    obtain ⟨vs, hvs⟩ := insert_ok σ.vars x v hne
    have ha := insert_iff.1 hvs
    by_cases hbody : AllHang cfg b { σ with vars := vs }
    · exact ⟨[], v, xs, σ, vs, rfl, .nil, ha, hb _ hbody⟩
    · obtain ⟨n₁, σ₁, r, hr, h1, h2⟩ := ends_of_not_hang hbody
      have step : ∀ m, n₁ ≤ m → forLoop x (evalStmts (cfg.steps m) b) (v :: xs) σ =
          afterTurn σ₁ (forLoop x (evalStmts (cfg.steps m) b) xs σ₁) r := by
        intro m hm
        rw [forLoop]
        simp only [hvs, h1 m hm]
        cases r <;> rfl
      have next : kind r = .done ∨ kind r = .cont → ∃ before w after σ₁ vs, v :: xs = before ++ w :: after ∧
          Visited (world cfg) x b before σ σ₁ ∧ Assigns x w σ₁.vars vs ∧
          ∃ t τ, ReachesAll (world cfg) b { σ₁ with vars := vs } t τ ∧ Stuck (world cfg) (waits cfg) t τ := by
        intro ho
        have hne₁ : σ₁.vars ≠ [] := by
          have hg := evalStmts_rel (gained_closed (cfg.steps n₁)) b (allT_true b) { σ with vars := vs }
          rw [h1 n₁ (Nat.le_refl _)] at hg
          exact gained_ne_nil hg (assigns_ne ha)
        obtain ⟨before, w, after, σ₂, vs₂, rfl, h3, h4, h5⟩ := ih σ₁ hne₁ (n + n₁) fun m hm => by
          have := h m (by omega)
          rw [step m (by omega)] at this
          rcases ho with ho | ho
          · rw [kind_done ho] at this; exact this
          · rw [kind_cont ho] at this; exact this
        exact ⟨v :: before, w, after, σ₂, vs₂, rfl, .cons ha h2 ho h3, h4, h5⟩
      have h0 := h (n + n₁) (by omega)
      rw [step _ (by omega)] at h0
      cases r with
      | ok => exact next (.inl rfl)
      | cont => exact next (.inr rfl)
      | brk => simp [afterTurn] at h0
      | quit => simp [afterTurn] at h0
      | fail f => exact absurd h0 hr

theorem visited_hang {cfg : Cfg} {x : Str} {b : List Stmt} {before : List Value} {σ σ₁ : State}
    (h : Visited (world cfg) x b before σ σ₁) {v : Value} {after : List Value} {vs : Vars Value}
    (ha : Assigns x v σ₁.vars vs) (hb : AllHang cfg b { σ₁ with vars := vs }) (m : Nat) :
    (forLoop x (evalStmts (cfg.steps m) b) (before ++ v :: after) σ).2 = .fail .diverge := by
  induction h with
  | nil =>
    rw [List.nil_append, forLoop, insert_iff.2 ha]
    obtain ⟨σ₂, h⟩ := is_diverge (hb m)
    simp only [h]
  | cons ha' hr ho _ ih =>
    rw [List.cons_append, forLoop, insert_iff.2 ha']
    rcases (meets_stmts hr).1 m with h' | h'
    · rcases ho with rfl | rfl
      · simp only [is_ok h']; exact ih ha hb
      · simp only [is_cont h']; exact ih ha hb
    · obtain ⟨σ₂, h'⟩ := is_diverge h'
      dsimp only at h'
      simp only [h']

/-! ### statements -/

theorem new_ends {h : Host} {path : Str} (hn : Fs.new h path = .error .diverge) : False := by
  unfold Fs.new Fs.newMounted Fs.newUnmounted at hn
  repeat' split at hn
  all_goals simp at hn

theorem while_scope (cfg : Cfg) (c : Expr) (b : List Stmt) (σ : State) (n : Nat) :
    (evalStmt (cfg.steps n) (.while c b) σ).2 = (turnsAt cfg c b n n (opened σ)).2 := by
  rw [evalStmt]
  refine (inScope_closes (σ := σ) (body := fun st => whileLoop (fun st => evalCond (cfg.steps n) st c)
    (evalStmts (cfg.steps n) b) (cfg.steps n).fuel st) fun st => ?_).2
  exact whileLoop_rel (gained_closed (cfg.steps n)) _ _
    (fun st => evalStmts_rel (gained_closed (cfg.steps n)) b (allT_true b) st) _ st

theorem for_scope (cfg : Cfg) (x r : Expr) (b : List Stmt) (σ : State) (n : Nat) :
    (evalStmt (cfg.steps n) (.for x r b) σ).2 =
      (evalFor (cfg.steps n) x r (evalStmts (cfg.steps n) b) (opened σ)).2 := by
  rw [evalStmt]
  exact (inScope_closes (σ := σ) fun st =>
    evalFor_rel (gained_closed (cfg.steps n)) x r trivial _
      (fun st => evalStmts_rel (gained_closed (cfg.steps n)) b (allT_true b) st) st).2

mutual
/-- a statement that hangs gets to one that is stuck -/
theorem stuck_stmt (cfg : Cfg) : ∀ (s : Stmt) (σ : State), StmtHang cfg s σ →
    ∃ t τ, Reaches (world cfg) s σ t τ ∧ Stuck (world cfg) (waits cfg) t τ
  | .assign l r, σ, h => by
    refine ⟨_, σ, .self, ?_⟩
    rcases comes_to cfg σ r with h' | ⟨n, f, hf, h'⟩ | ⟨v, hv⟩
    · exact .assign (hangs_ev cfg σ r h')
    · have := h n
      rw [evalStmt, evalAssign, h' n (Nat.le_refl n)] at this
      simp only [IRes.fail.injEq] at this
      exact absurd this hf
    · obtain ⟨n, hn⟩ := ev_gives hv
      refine .target hv ?_
      have key : ∀ m, n ≤ m → (∀ x, l ≠ .ident x) ∧
          modifyLhs (cfg.steps m) σ l (fun _ => .ok v) = .error .diverge := by
        intro m hm
        have h := h m
        rw [evalStmt, evalAssign, hn m hm] at h
        cases l with
        | ident x =>
          exfalso
          dsimp only at h
          cases hi : σ.vars.insert x v with
          | ok vs => rw [hi] at h; simp at h
          | error e =>
            rw [hi] at h
            simp only [IRes.fail.injEq] at h
            subst h
            unfold Vars.insert at hi
            split at hi
            · simp at hi
            · split at hi <;> simp at hi
        | _ =>
          refine ⟨by simp, ?_⟩
          dsimp only at h
          generalize modifyLhs (cfg.steps m) σ _ (fun _ => .ok v) = q at h ⊢
          cases q with
          | ok vs => simp at h
          | error e => simp only [IRes.fail.injEq] at h; rw [h]
      exact hangs_lhs cfg σ l _ (fun _ => only_ok _) (lhs_late n fun m hm => (key m hm).2)
  | .ite c t f, σ, h => by
    have ht := stuck_stmts cfg t (opened σ)
    have hf' := stuck_stmts cfg f (opened σ)
    have h : ∀ n, (iteBody (cfg.steps n) c t f (opened σ)).2 = .fail .diverge := fun n => by
      rw [← (inScope_closes (σ := σ) (iteBody_gained (cfg.steps n) c t f)).2, ← evalStmt_ite]; exact h n
    rcases comes_to cfg (opened σ) c with h' | ⟨n, g, hg, h'⟩ | ⟨v, hv⟩
    · exact ⟨_, σ, .self, .cond (hangs_ev cfg _ c h')⟩
    · have := h n
      simp only [iteBody, evalCond, h' n (Nat.le_refl n), bind, Except.bind, IRes.fail.injEq] at this
      exact absurd this hg
    · obtain ⟨n, hn⟩ := ev_gives hv
      have hbool : ∃ b, v = .bool b := by
        have := h n
        simp only [iteBody, evalCond, hn n (Nat.le_refl n), bind, Except.bind] at this
        cases v with
        | bool b => exact ⟨b, rfl⟩
        | _ => simp [Value.asBoolean, R.err] at this
      obtain ⟨b, rfl⟩ := hbool
      cases b with
      | true =>
        obtain ⟨s, τ, h1, h2⟩ := ht (allHang_late n fun m hm => by
          have := h m
          simp only [iteBody, cond_of_ev (hn m hm)] at this
          exact this)
        exact ⟨s, τ, .thenBranch hv h1, h2⟩
      | false =>
        obtain ⟨s, τ, h1, h2⟩ := hf' (allHang_late n fun m hm => by
          have := h m
          simp only [iteBody, cond_of_ev (hn m hm)] at this
          exact this)
        exact ⟨s, τ, .elseBranch hv h1, h2⟩
  | .while c b, σ, h => by
    have hb := stuck_stmts cfg b
    have hl : LoopHang cfg c b (opened σ) := loopHang_late 0 fun m _ => by rw [← while_scope]; exact h m
    by_cases he : ∀ k, ∃ σ₁, Turns (world cfg) c b k (opened σ) σ₁
    · exact ⟨_, σ, .self, .endless he⟩
    · obtain ⟨k, hk⟩ := Classical.not_forall.1 he
      obtain ⟨k', σ₁, h1, h2 | ⟨h2, t, τ, h3, h4⟩⟩ := loop_stuck hb k (opened σ) (fun σ₁ h => hk ⟨σ₁, h⟩) hl
      · exact ⟨_, σ, .self, .whileCond h1 h2⟩
      · exact ⟨t, τ, .whileBody h1 h2 h3, h4⟩
  | .for x r b, σ, h => by
    have hb := stuck_stmts cfg b
    have h : ∀ n, (evalFor (cfg.steps n) x r (evalStmts (cfg.steps n) b) (opened σ)).2 = .fail .diverge := fun n => by
      rw [← for_scope]; exact h n
    cases x with
    | ident x =>
      rcases comes_to cfg (opened σ) r with h' | ⟨n, g, hg, h'⟩ | ⟨v, hv⟩
      · exact ⟨_, σ, .self, .range (hangs_ev cfg _ r h')⟩
      · have := h n
        simp only [evalFor, h' n (Nat.le_refl n), IRes.fail.injEq] at this
        exact absurd this hg
      · obtain ⟨n, hn⟩ := ev_gives hv
        have harr : ∃ xs k, v = .array xs k := by
          have := h n
          simp only [evalFor, hn n (Nat.le_refl n)] at this
          cases v with
          | array xs k => exact ⟨xs, k, rfl⟩
          | _ => simp [Value.asVec, R.err] at this
        obtain ⟨xs, k, rfl⟩ := harr
        obtain ⟨before, v, after, σ₁, vs, rfl, h1, h2, t, τ, h3, h4⟩ := visits_stuck hb xs (opened σ)
          (by simp [opened]) n fun m hm => by
            have := h m
            simp only [evalFor, hn m hm, Value.asVec] at this
            exact this
        exact ⟨t, τ, .forBody hv h1 h2 h3, h4⟩
    | _ => exact absurd (h 0) (by simp [evalFor])
  | .brk, σ, h => by have := h 0; rw [evalStmt] at this; simp at this
  | .cont, σ, h => by have := h 0; rw [evalStmt] at this; simp at this
  | .quit, σ, h => by have := h 0; rw [evalStmt] at this; simp at this
  | .help, σ, h => by have := h 0; rw [evalStmt] at this; exact absurd this (write_not_diverge σ _)
  | .filesystem e, σ, h => by
    refine ⟨_, σ, .self, ?_⟩
    rcases comes_to cfg σ e with h' | ⟨n, f, hf, h'⟩ | ⟨v, hv⟩
    · exact .filesystem (hangs_ev cfg σ e h')
    · have := h n
      rw [evalStmt, evalFilesystem, h' n (Nat.le_refl n)] at this
      simp only [IRes.fail.injEq] at this
      exact absurd this hf
    · exfalso
      obtain ⟨n, hn⟩ := ev_gives hv
      have h := h n
      rw [evalStmt, evalFilesystem, hn n (Nat.le_refl n)] at h
      dsimp only at h
      have h1 := only_ends (only_asString errs_ends true v)
      cases hs : v.asString true with
      | error f => rw [hs] at h h1; simp only [IRes.fail.injEq] at h; rw [h] at h1; exact h1 rfl
      | ok path =>
        rw [hs] at h
        dsimp only at h
        cases hn : Fs.new (cfg.steps n).host path with
        | ok fs => rw [hn] at h; simp at h
        | error f =>
          rw [hn] at h
          simp only [IRes.fail.injEq] at h
          subst h
          exact new_ends hn
  | .print e, σ, h => by
    refine ⟨_, σ, .self, ?_⟩
    rcases comes_to cfg σ e with h' | ⟨n, f, hf, h'⟩ | ⟨v, hv⟩
    · exact .print (hangs_ev cfg σ e h')
    · have := h n
      rw [evalStmt, evalPrint, h' n (Nat.le_refl n)] at this
      simp only [IRes.fail.injEq] at this
      exact absurd this hf
    · obtain ⟨n, hn⟩ := ev_gives hv
      have key : ∀ m, n ≤ m → printText (cfg.steps m) v = .error .diverge := by
        intro m hm
        have h := h m
        rw [evalStmt, evalPrint, hn m hm] at h
        dsimp only at h
        cases hp : printText (cfg.steps m) v with
        | ok t => rw [hp] at h; exact absurd h (write_not_diverge σ _)
        | error f => rw [hp] at h; simp only [IRes.fail.injEq] at h; rw [h]
      have harr : ∃ xs, v = .array xs true := by
        have := key n (Nat.le_refl n)
        unfold printText at this
        split at this
        · exact ⟨_, rfl⟩
        · exact absurd this (only_ends (only_asString errs_ends _ _))
        · exact absurd this (only_ends (only_display _))
      obtain ⟨xs, rfl⟩ := harr
      refine .diagram hv fun m => ?_
      rcases apx_printText (finer_steps cfg (Nat.le_max_right n m)) (.array xs true) with h' | ⟨f, rfl, h'⟩
      · rw [key _ (Nat.le_max_left n m)] at h'; exact h'
      · exact h'
  | .expr e, σ, h => by
    refine ⟨_, σ, .self, ?_⟩
    rcases comes_to cfg σ e with h' | ⟨n, f, hf, h'⟩ | ⟨v, hv⟩
    · exact .expr (hangs_ev cfg σ e h')
    · have := h n
      rw [evalStmt, evalExprStmt, h' n (Nat.le_refl n)] at this
      simp only [IRes.fail.injEq] at this
      exact absurd this hf
    · exfalso
      obtain ⟨n, hn⟩ := ev_gives hv
      have h := h n
      obtain ⟨t, ht⟩ := display_total v
      rw [evalStmt, evalExprStmt, hn n (Nat.le_refl n)] at h
      simp only [ht] at h
      split at h
      · exact write_not_diverge σ _ h
      · simp at h
/-- and so do statements in a row -/
theorem stuck_stmts (cfg : Cfg) : ∀ (p : List Stmt) (σ : State), AllHang cfg p σ →
    ∃ t τ, ReachesAll (world cfg) p σ t τ ∧ Stuck (world cfg) (waits cfg) t τ
  | [], σ, h => by have := h 0; rw [evalStmts] at this; simp at this
  | s :: ss, σ, h => by
    have hs := stuck_stmt cfg s σ
    have hss := stuck_stmts cfg ss
    by_cases h1 : StmtHang cfg s σ
    · obtain ⟨t, τ, h2, h3⟩ := hs h1
      exact ⟨t, τ, .head h2, h3⟩
    · obtain ⟨n, hn⟩ := Classical.not_forall.1 h1
      have hr := stmt_rule (cfg.steps n) s σ hn
      have hm : ∀ m, n ≤ m → evalStmt (cfg.steps m) s σ = evalStmt (cfg.steps n) s σ := by
        intro m hm
        rcases apxI_stmt (finer_steps cfg hm) s σ with h' | ⟨f, rfl, h'⟩
        · exact h'.symm
        · exact absurd h' hn
      generalize evalStmt (cfg.steps n) s σ = q at hn hr hm
      obtain ⟨σ₁, r⟩ := q
      have hok : r = .ok := by
        have := h n
        rw [evalStmts, hm n (Nat.le_refl n)] at this
        cases r with
        | ok => rfl
        | fail f => exact absurd this hn
        | _ => simp at this
      subst hok
      obtain ⟨t, τ, h2, h3⟩ := hss σ₁ (allHang_late n fun m hm' => by
        have := h m
        rw [evalStmts, hm m hm'] at this
        exact this)
      exact ⟨t, τ, .tail hr h2, h3⟩
end

/-- a stuck statement hangs -/
theorem hang_of_stuck {cfg : Cfg} {s : Stmt} {σ : State} (h : Stuck (world cfg) (waits cfg) s σ) : StmtHang cfg s σ := by
  intro n
  cases h with
  | assign h => rw [evalStmt, evalAssign, ev_hangs h n]
  | target hv h =>
    rw [evalStmt, evalAssign]
    rcases ev_eval hv n with h' | h'
    · rw [h']
      have := lhs_hangs h n
      rename_i l r v
      cases l with
      | ident x => cases h
      | _ => simp only [this]
    · rw [h']
  | cond h =>
    rw [evalStmt_ite, (inScope_closes (σ := σ) (iteBody_gained (cfg.steps n) _ _ _)).2]
    simp only [iteBody, cond_of_diverge (ev_hangs h n)]
  | whileCond ht h =>
    rw [while_scope]
    refine (turns_hang ht).2 (fun m k => ?_) n n
    cases k with
    | zero => rfl
    | succ k =>
      unfold turnsAt
      rw [whileLoop]
      simp only [cond_of_diverge (ev_hangs h m)]
  | endless h =>
    rw [while_scope]
    obtain ⟨σ₁, ht⟩ := h n
    exact (turns_hang ht).1 n n (Nat.le_refl n)
  | range h => rw [for_scope]; simp only [evalFor, ev_hangs h n]
  | filesystem h => rw [evalStmt, evalFilesystem, ev_hangs h n]
  | print h => rw [evalStmt, evalPrint, ev_hangs h n]
  | diagram hv h =>
    rw [evalStmt, evalPrint]
    rcases ev_eval hv n with h' | h'
    · rw [h']
      simp only [printText]
      have : asHist (cfg.steps n).build (cfg.steps n).fuel _ = _ := h n
      rw [this]
    · rw [h']
  | expr h => rw [evalStmt, evalExprStmt, ev_hangs h n]

mutual
/-- what gets to a statement that hangs, hangs -/
theorem hang_reaches {cfg : Cfg} {t : Stmt} {τ : State} (ht : StmtHang cfg t τ) : ∀ {s : Stmt} {σ : State},
    Reaches (world cfg) s σ t τ → StmtHang cfg s σ
  | _, _, .self => ht
  | .ite c a b, σ, .thenBranch hv h => fun n => by
    have ih := hang_reachesAll ht h
    rw [evalStmt_ite, (inScope_closes (σ := σ) (iteBody_gained (cfg.steps n) c a b)).2]
    rcases ev_eval hv n with h' | h'
    · simp only [iteBody, cond_of_ev h']; exact ih n
    · simp only [iteBody, cond_of_diverge h']
  | .ite c a b, σ, .elseBranch hv h => fun n => by
    have ih := hang_reachesAll ht h
    rw [evalStmt_ite, (inScope_closes (σ := σ) (iteBody_gained (cfg.steps n) c a b)).2]
    rcases ev_eval hv n with h' | h'
    · simp only [iteBody, cond_of_ev h']; exact ih n
    · simp only [iteBody, cond_of_diverge h']
  | .while c b, σ, .whileBody hturns hv h => fun n => by
    have ih := hang_reachesAll ht h
    rw [while_scope]
    refine (turns_hang hturns).2 (fun m k => ?_) n n
    cases k with
    | zero => rfl
    | succ k =>
      unfold turnsAt
      rw [whileLoop]
      rcases ev_eval hv m with h' | h'
      · obtain ⟨σ₂, h2⟩ := is_diverge (ih m)
        simp only [cond_of_ev h', h2]
      · simp only [cond_of_diverge h']
  | .for (.ident x) r b, σ, .forBody hv hvis ha h => fun n => by
    have ih := hang_reachesAll ht h
    rw [for_scope]
    rcases ev_eval hv n with h' | h'
    · simp only [evalFor, h', Value.asVec]
      exact visited_hang hvis ha ih n
    · simp only [evalFor, h']
theorem hang_reachesAll {cfg : Cfg} {t : Stmt} {τ : State} (ht : StmtHang cfg t τ) : ∀ {p : List Stmt} {σ : State},
    ReachesAll (world cfg) p σ t τ → AllHang cfg p σ
  | s :: ss, σ, .head h => fun n => by
    have ih := hang_reaches ht h
    obtain ⟨σ₂, h2⟩ := is_diverge (ih n)
    rw [evalStmts, h2]
  | s :: ss, σ, .tail hr h => fun n => by
    have ih := hang_reachesAll ht h
    rw [evalStmts]
    rcases (meets_stmt hr).1 n with h' | h'
    · have h' := is_ok h'
      dsimp only at h'
      rw [h']; exact ih n
    · obtain ⟨σ₂, h2⟩ := is_diverge h'
      dsimp only at h2
      rw [h2]
end

theorem allHang_iff {cfg : Cfg} {p : List Stmt} {σ : State} : AllHang cfg p σ ↔
    ∃ t τ, ReachesAll (world cfg) p σ t τ ∧ Stuck (world cfg) (waits cfg) t τ :=
  ⟨stuck_stmts cfg p σ, fun ⟨_, _, h1, h2⟩ => hang_reachesAll (hang_of_stuck h2) h1⟩

end Btrd
