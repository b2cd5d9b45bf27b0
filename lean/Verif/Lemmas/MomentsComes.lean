/-
Statements in a world that changes: what the rules of `Spec/Moments` say, the evaluator that asks does, given enough
steps.
-/
import Verif.Lemmas.MomentsStmt

namespace Btrd
open Spec

/-- with enough steps, this is the result -/
def LateC (r : Nat → (State × IRes) × Nat) (σ : State) (h : How) : Prop := ∃ n, ∀ k, n ≤ k → Comes (r k) σ h

theorem lateC_now {r : Nat → (State × IRes) × Nat} {σ : State} {h : How} (hr : ∀ k, Comes (r k) σ h) : LateC r σ h :=
  ⟨0, fun k _ => hr k⟩

theorem lateC_eq {r r' : Nat → (State × IRes) × Nat} {σ : State} {h : How} {n : Nat} (hr : ∀ k, n ≤ k → r k = r' k)
    (h' : LateC r' σ h) : LateC r σ h := by
  obtain ⟨n', hn⟩ := h'
  exact ⟨max n n', fun k hk => by rw [hr k (by omega)]; exact hn k (by omega)⟩

theorem comes_write {text : Str} {σ σ' : State} {t : Nat} {h : How} (hw : Writes text σ t σ' h) (k : Nat) (ω : Live) :
    Comes ((T.ret (σ.write text)).ends k ω t) σ' h := by
  rw [tends_ret]
  cases hw with
  | done ho =>
    have := is_ok (rule_write ho)
    rw [this]
    rfl
  | full ho =>
    obtain ⟨er, h1, h2⟩ := outputs_told ho
    have := (rule_write ho).1
    refine ⟨er, ?_, h2⟩
    generalize σ.write text = q at this h1
    obtain ⟨q1, q2⟩ := q
    simp only at this h1
    rw [this, h1]

theorem comes_scope {fuel : Nat} {ω : Live} {σ σ₁ σ₂ : State} {body : State → T (State × IRes)} {t : Nat} {h : How}
    (hb : Comes ((body (opened σ)).ends fuel ω t) σ₁ h) (hc : Closes σ₁ σ₂) :
    Comes ((inScopeT σ body).ends fuel ω t) σ₂ h := by
  have hb : Comes ((body { σ with vars := σ.vars.push }).ends fuel ω t) σ₁ h := hb
  unfold inScopeT
  generalize hr : (body { σ with vars := σ.vars.push }).ends fuel ω t = r at hb
  obtain ⟨⟨σ₃, x⟩, t₁⟩ := r
  rw [tends_bind hr, tends_ret]
  obtain ⟨s, h1, h2, h3⟩ := hc
  obtain ⟨sk, vs, fs⟩ := σ₂
  simp only at h1 h2 h3
  subst h2 h3
  have e : ∀ y, (match σ₁.vars.pop with
    | .ok vs => ({ σ₁ with vars := vs }, y)
    | .error e => (σ₁, .fail e) : State × IRes) = (⟨σ₁.sink, vs, σ₁.fs⟩, y) := by
    intro y
    rw [h1]
    rfl
  cases h with
  | done t => simp only [Comes, Prod.mk.injEq] at hb; obtain ⟨⟨rfl, rfl⟩, rfl⟩ := hb; exact congrArg (·, _) (e _)
  | brk t => simp only [Comes, Prod.mk.injEq] at hb; obtain ⟨⟨rfl, rfl⟩, rfl⟩ := hb; exact congrArg (·, _) (e _)
  | cont t => simp only [Comes, Prod.mk.injEq] at hb; obtain ⟨⟨rfl, rfl⟩, rfl⟩ := hb; exact congrArg (·, _) (e _)
  | quit => simp only [Comes, Prod.mk.injEq] at hb; obtain ⟨rfl, rfl⟩ := hb; exact e _
  | failed m =>
    obtain ⟨er, hb, hm⟩ := hb
    simp only [Prod.mk.injEq] at hb
    obtain ⟨rfl, rfl⟩ := hb
    exact ⟨er, e _, hm⟩

section
variable (cfg : Cfg) (ω : Live)

theorem late_ev {σ : State} (hσ : GoodVars σ.vars) {e : Expr} (hl : Lits e) {t t' : Nat} {v : Value}
    (he : LEv cfg ω σ e t v t') {K : Nat → Value → T (State × IRes)} {σ' : State} {h : How}
    (hk : LateC (fun k => (K k v).ends k ω t') σ' h) :
    LateC (fun k => ((evalExprT (cfg.steps k) σ e).into σ (K k)).ends k ω t) σ' h := by
  obtain ⟨n, hn⟩ := ev_comes cfg ω hσ he hl
  exact lateC_eq (fun k hk => into_ok (hn k hk) _ _) hk

theorem late_fails {σ : State} (hσ : GoodVars σ.vars) {e : Expr} (hl : Lits e) {t : Nat} {m : Option Str}
    (he : LFails cfg ω σ e t m) (K : Nat → Value → T (State × IRes)) :
    LateC (fun k => ((evalExprT (cfg.steps k) σ e).into σ (K k)).ends k ω t) σ (.failed m) := by
  obtain ⟨n, hn⟩ := fails_comes cfg ω hσ he hl
  refine ⟨n, fun k hk => ?_⟩
  obtain ⟨er, t', h1, h2⟩ := hn k hk
  exact ⟨er, by dsimp only; rw [into_err h1], h2⟩

theorem cond_comes {σ : State} (hσ : GoodVars σ.vars) {c : Expr} (hl : Lits c) {t t' : Nat} {b : Bool}
    (he : LEv cfg ω σ c t (.bool b) t') : ∃ n, ∀ k, n ≤ k → (evalCondT (cfg.steps k) σ c).ends k ω t = (.ok b, t') := by
  obtain ⟨n, hn⟩ := ev_comes cfg ω hσ he hl
  exact ⟨n, fun k hk => ends_bind_ok (hn k hk) _⟩

theorem late_test {σ : State} (hσ : GoodVars σ.vars) {c : Expr} (hl : Lits c) {t t' : Nat} {b : Bool}
    (he : LEv cfg ω σ c t (.bool b) t') {K : Nat → Bool → T (State × IRes)} {σ' : State} {h : How}
    (hk : LateC (fun k => (K k b).ends k ω t') σ' h) :
    LateC (fun k => ((evalCondT (cfg.steps k) σ c).into σ (K k)).ends k ω t) σ' h := by
  obtain ⟨n, hn⟩ := cond_comes cfg ω hσ hl he
  exact lateC_eq (fun k hk => into_ok (hn k hk) _ _) hk

theorem comes_testFails {σ : State} (hσ : GoodVars σ.vars) {c : Expr} (hl : Lits c) {t : Nat} {m : Option Str}
    (he : LTestFails cfg ω σ c t m) : ∃ n, ∀ k, n ≤ k → ∃ er t',
      (evalCondT (cfg.steps k) σ c).ends k ω t = (.error (.err er), t') ∧ er.text = m := by
  cases he with
  | fails he =>
    obtain ⟨n, hn⟩ := fails_comes cfg ω hσ he hl
    refine ⟨n, fun k hk => ?_⟩
    obtain ⟨er, t', h1, h2⟩ := hn k hk
    exact ⟨er, t', ends_bind_error h1 _, h2⟩
  | kind he hv =>
    rename_i v t'
    obtain ⟨n, hn⟩ := ev_comes cfg ω hσ he hl
    refine ⟨n, fun k hk => ⟨.typeMismatch s!' "boolean" v.shortDisplay, t', ?_, text_mismatch _ _⟩⟩
    refine (ends_bind_ok (hn k hk) _).trans ?_
    rw [not_boolean hv]
    rfl

theorem late_testFails {σ : State} (hσ : GoodVars σ.vars) {c : Expr} (hl : Lits c) {t : Nat} {m : Option Str}
    (he : LTestFails cfg ω σ c t m) (K : Nat → Bool → T (State × IRes)) :
    LateC (fun k => ((evalCondT (cfg.steps k) σ c).into σ (K k)).ends k ω t) σ (.failed m) := by
  obtain ⟨n, hn⟩ := comes_testFails cfg ω hσ hl he
  refine ⟨n, fun k hk => ?_⟩
  obtain ⟨er, t', h1, h2⟩ := hn k hk
  exact ⟨er, by dsimp only; rw [into_err h1], h2⟩

theorem fixes_ident {σ : State} {l l' : Expr} {t t' : Nat} (h : LFixes cfg ω σ l t l' t') :
    (∀ x, l' = .ident x → l = .ident x ∧ t' = t) ∧ ((∀ x, l' ≠ .ident x) → ∀ x, l ≠ .ident x) := by
  cases h <;> simp

/-- the indices of a target are evaluated -/
theorem late_target {σ : State} (hσ : GoodVars σ.vars) {l l' : Expr} (hl : Lits l) {t t' : Nat} {v : Value}
    (hf : LFixes cfg ω σ l t l' t') {r : R (Vars Value)}
    (hm : modifyLhs cfg σ l' (fun _ => .ok v) = r) : ∃ n, ∀ k, n ≤ k →
      (modifyLhsT (cfg.steps k) σ l (fun _ => .ok v)).ends k ω t = (r, t') := by
  obtain ⟨n, hn⟩ := fixes_comes cfg ω hσ hf hl
  refine ⟨n, fun k hk => ?_⟩
  rw [hn k hk, fixed_any hf (cfg.steps k) cfg, hm]

theorem assignT_part {c : Cfg} {σ : State} {l : Expr} (hi : ∀ x, l ≠ .ident x) (r : Expr) :
    evalAssignT c σ l r = (evalExprT c σ r).into σ fun v =>
      (modifyLhsT c σ l (fun _ => .ok v)).into σ fun vs => .ret ({ σ with vars := vs }, .ok) := by
  cases l with
  | ident x => exact absurd rfl (hi x)
  | _ => rfl

theorem fixFails_ident {σ : State} {l : Expr} {t : Nat} {m : Option Str} (h : LFixFails cfg ω σ l t m) (x : Str) :
    l ≠ .ident x := by
  rintro rfl
  cases h

/-- what a loop does after its body -/
def turn (next : State → T (State × IRes)) : State × IRes → T (State × IRes)
  | (st', .ok) => next st'
  | (st', .cont) => next st'
  | (st', .brk) => .ret (st', .ok)
  | (st', r) => .ret (st', r)

theorem whileT_succ (cond : State → E Bool) (body : State → T (State × IRes)) (j : Nat) (σ : State) :
    whileLoopT cond body (j + 1) σ = (cond σ).into σ fun b =>
      if b then T.bind (turn (whileLoopT cond body j)) (body σ) else .ret (σ, .ok) := by
  rw [whileLoopT]
  refine congrArg (E.into (cond σ) σ) (funext fun b => ?_)
  cases b with
  | false => rfl
  | true =>
    refine congrArg (fun k => T.bind k (body σ)) (funext fun r => ?_)
    obtain ⟨st, x⟩ := r
    cases x <;> rfl

theorem forT_cons (x : Str) (body : State → T (State × IRes)) (v : Value) (xs : List Value) (σ : State) :
    forLoopT x body (v :: xs) σ = (E.of (σ.vars.insert x v)).into σ fun vars =>
      T.bind (turn (forLoopT x body xs)) (body { σ with vars := vars }) := by
  rw [forLoopT]
  refine congrArg (E.into (E.of (σ.vars.insert x v)) σ) (funext fun vars => ?_)
  refine congrArg (fun k => T.bind k (body { σ with vars := vars })) (funext fun r => ?_)
  obtain ⟨st, y⟩ := r
  cases y <;> rfl

/-- the loop goes on -/
theorem turn_next {fuel : Nat} {ω : Live} {body : T (State × IRes)} {next : State → T (State × IRes)} {t t₂ : Nat} {σ₁ : State}
    {h : How} (hb : Comes (body.ends fuel ω t) σ₁ h) (ho : h = .done t₂ ∨ h = .cont t₂) :
    (T.bind (turn next) body).ends fuel ω t = (next σ₁).ends fuel ω t₂ := by
  rcases ho with rfl | rfl
  · exact tends_bind hb _
  · exact tends_bind hb _

theorem turn_broken {fuel : Nat} {ω : Live} {body : T (State × IRes)} {next : State → T (State × IRes)} {t t₂ : Nat}
    {σ₁ : State} (hb : Comes (body.ends fuel ω t) σ₁ (.brk t₂)) :
    Comes ((T.bind (turn next) body).ends fuel ω t) σ₁ (.done t₂) :=
  tends_bind hb _

theorem turn_ended {fuel : Nat} {ω : Live} {body : T (State × IRes)} {next : State → T (State × IRes)} {t : Nat}
    {σ₁ : State} {h : How} (hb : Comes (body.ends fuel ω t) σ₁ h) (ho : h = .quit ∨ ∃ m, h = .failed m) :
    Comes ((T.bind (turn next) body).ends fuel ω t) σ₁ h := by
  generalize hr : body.ends fuel ω t = r at hb
  obtain ⟨⟨σ₂, x⟩, t₂⟩ := r
  rw [tends_bind hr]
  rcases ho with rfl | ⟨m, rfl⟩
  · simp only [Comes, Prod.mk.injEq] at hb; obtain ⟨rfl, rfl⟩ := hb; rfl
  · obtain ⟨er, hb, hm⟩ := hb
    simp only [Prod.mk.injEq] at hb; obtain ⟨rfl, rfl⟩ := hb
    exact ⟨er, rfl, hm⟩

mutual
theorem goes_comes : ∀ {s : Stmt} {σ : State} {t : Nat} {σ' : State} {h : How}, LGoes cfg ω s σ t σ' h →
    GoodVars σ.vars → s.AllE Lits → LateC (fun k => (evalStmtT (cfg.steps k) s σ).ends k ω t) σ' h
  | _, _, _, _, _, .assign hv hf hs => fun hg hl => by
    rw [Stmt.AllE] at hl
    rename_i l r l' σ t v t₁ t₂ vs
    simp only [evalStmtT]
    have hll := fixes_lits hg hf hl.1
    cases stores_alike (alike (cfg.moment ω t₂)).symm hg hll hs with
    | var ha =>
      obtain ⟨rfl, rfl⟩ := (fixes_ident cfg ω hf).1 _ rfl
      refine late_ev cfg ω hg hl.2 hv (lateC_now fun k => ?_)
      simp only
      rw [insert_iff.2 ha]
      rfl
    | part hi h1 h2 h3 h4 =>
      have hli := (fixes_ident cfg ω hf).2 hi
      simp only [assignT_part hli]
      obtain ⟨n, hn⟩ := rule_lhs h1 h2 (through_const.2 h3) h4
      have hm := hn n (Nat.le_refl n)
      rw [fixed_any hf _ cfg] at hm
      obtain ⟨n', hn'⟩ := late_target cfg ω hg hl.1 hf hm
      refine late_ev cfg ω hg hl.2 hv ⟨n', fun k hk => ?_⟩
      dsimp only
      rw [into_ok (hn' k hk)]
      rfl
  | _, _, _, _, _, .assignFrom h => fun hg hl => by
    rw [Stmt.AllE] at hl
    simp only [evalStmtT, evalAssignT]
    exact late_fails cfg ω hg hl.2 h _
  | _, _, _, _, _, .assignAt hv hf => fun hg hl => by
    rw [Stmt.AllE] at hl
    simp only [evalStmtT, assignT_part (fixFails_ident cfg ω hf)]
    obtain ⟨n, hn⟩ := fixFails_comes cfg ω hg hf hl.1
    refine late_ev cfg ω hg hl.2 hv ⟨n, fun k hk => ?_⟩
    obtain ⟨er, t', h1, h2⟩ := hn k hk _
    exact ⟨er, by dsimp only; rw [into_err h1], h2⟩
  | _, σ, _, _, _, .assignTo (v := v) (t₂ := t₂) (l' := l') hv hf hs => fun hg hl => by
    rw [Stmt.AllE] at hl
    have hll := fixes_lits hg hf hl.1
    obtain ⟨hi, n, hn⟩ := storeFails_late (v := v)
      (storeFails_alike (alike (cfg.moment ω t₂)).symm (alikeC (cfg.moment ω t₂)).symm hg hll hs)
    obtain ⟨er, h1, h2⟩ := hn n (Nat.le_refl n)
    have h1 : modifyLhs ((cfg.moment ω t₂).steps n) σ l' (fun _ => .ok v) = .error (.err er) := h1
    rw [fixed_any hf _ cfg] at h1
    have hli := (fixes_ident cfg ω hf).2 hi
    simp only [evalStmtT, assignT_part hli]
    obtain ⟨n', hn'⟩ := late_target cfg ω hg hl.1 hf h1
    refine late_ev cfg ω hg hl.2 hv ⟨n', fun k hk => ⟨er, ?_, h2⟩⟩
    dsimp only
    rw [into_err (hn' k hk)]
  | _, _, _, _, _, .ifTrue hc hr hx => fun hg hl => by
    rw [Stmt.AllE] at hl
    simp only [evalStmtT]
    obtain ⟨n, hn⟩ := late_test cfg ω (goodVars_opened hg) hl.1 hc (goesAll_comes hr (goodVars_opened hg) hl.2.1)
      (K := fun k b => if b then evalStmtsT (cfg.steps k) _ (opened _) else evalStmtsT (cfg.steps k) _ (opened _))
    exact ⟨n, fun k hk => comes_scope (hn k hk) hx⟩
  | _, _, _, _, _, .ifFalse hc hr hx => fun hg hl => by
    rw [Stmt.AllE] at hl
    simp only [evalStmtT]
    obtain ⟨n, hn⟩ := late_test cfg ω (goodVars_opened hg) hl.1 hc (goesAll_comes hr (goodVars_opened hg) hl.2.2)
      (K := fun k b => if b then evalStmtsT (cfg.steps k) _ (opened _) else evalStmtsT (cfg.steps k) _ (opened _))
    exact ⟨n, fun k hk => comes_scope (hn k hk) hx⟩
  | _, _, _, _, _, .ifFails hc => fun hg hl => by
    rw [Stmt.AllE] at hl
    simp only [evalStmtT]
    obtain ⟨n, hn⟩ := late_testFails cfg ω (goodVars_opened hg) hl.1 hc
      (fun k b => if b then evalStmtsT (cfg.steps k) _ (opened _) else evalStmtsT (cfg.steps k) _ (opened _))
    exact ⟨n, fun k hk => comes_scope (hn k hk) (closes_opened _)⟩
  | _, _, _, _, _, .while hr hx => fun hg hl => by
    rw [Stmt.AllE] at hl
    simp only [evalStmtT]
    obtain ⟨n, hn⟩ := goesOn_comes hr (goodVars_opened hg) hl.1 hl.2
    exact ⟨n, fun k hk => comes_scope (hn k k hk hk) hx⟩
  | _, _, _, _, _, .for hv hr hx => fun hg hl => by
    rw [Stmt.AllE] at hl
    simp only [evalStmtT]
    obtain ⟨n, hn⟩ := late_ev cfg ω (goodVars_opened hg) hl.2.1 hv
      (K := fun k v => (E.of v.asVec).into _ fun items => forLoopT _ (evalStmtsT (cfg.steps k) _) items _)
      (goesThrough_comes hr (goodVars_opened hg) hl.2.2 (good_array.1 (live_good cfg ω (goodVars_opened hg) hv hl.2.1)))
    exact ⟨n, fun k hk => comes_scope (hn k hk) hx⟩
  | _, _, _, _, _, .forOf hv => fun hg hl => by
    rw [Stmt.AllE] at hl
    simp only [evalStmtT]
    obtain ⟨n, hn⟩ := late_fails cfg ω (goodVars_opened hg) hl.2.1 hv
      (fun k v => (E.of v.asVec).into _ fun items => forLoopT _ (evalStmtsT (cfg.steps k) _) items _)
    exact ⟨n, fun k hk => comes_scope (hn k hk) (closes_opened _)⟩
  | _, _, _, _, _, .forKind hv hn => fun hg hl => by
    rw [Stmt.AllE] at hl
    simp only [evalStmtT]
    obtain ⟨n, hn⟩ := late_ev cfg ω (goodVars_opened hg) hl.2.1 hv
      (K := fun k v => (E.of v.asVec).into _ fun items => forLoopT _ (evalStmtsT (cfg.steps k) _) items _)
      (σ' := opened _) (h := .failed _) (lateC_now fun k => by
        rw [not_array hn, into_err (ends_of _ _ _ _)]
        exact ⟨_, rfl, text_mismatch _ _⟩)
    exact ⟨n, fun k hk => comes_scope (hn k hk) (closes_opened _)⟩
  | _, σ, _, _, _, .forNoName (x := x) hx => fun hg hl => by
    simp only [evalStmtT]
    refine lateC_now fun k => comes_scope (σ₁ := opened σ) ?_ (closes_opened _)
    cases x with
    | ident y => exact absurd rfl (hx y)
    | _ => exact ⟨_, rfl, rfl⟩
  | _, _, _, _, _, .brk => fun _ _ => by simp only [evalStmtT]; exact lateC_now fun k => rfl
  | _, _, _, _, _, .cont => fun _ _ => by simp only [evalStmtT]; exact lateC_now fun k => rfl
  | _, _, _, _, _, .quit => fun _ _ => by simp only [evalStmtT]; exact lateC_now fun k => rfl
  | _, _, _, _, _, .help h => fun _ _ => by
    simp only [evalStmtT, help_rule]
    exact lateC_now fun k => comes_write h k ω
  | _, _, _, _, _, .filesystem (s := s) (t₁ := t₁) hv ho => fun hg hl => by
    rw [Stmt.AllE] at hl
    simp only [evalStmtT, evalFilesystemT]
    refine late_ev cfg ω hg hl hv (lateC_now fun k => ?_)
    rw [C41_string_text_bytewise, into_ok (ends_of _ _ _ _)]
    have hx : (E.opens (s.flatMap byteText)).ends k ω t₁ = (Fs.new (ω.host t₁) (s.flatMap byteText), t₁ + 1) := rfl
    rw [(opens_iff _ _ _).2 ho] at hx
    rw [into_ok hx]
    rfl
  | _, _, _, _, _, .filesystemOf h => fun hg hl => by
    rw [Stmt.AllE] at hl
    simp only [evalStmtT, evalFilesystemT]
    exact late_fails cfg ω hg hl h _
  | _, _, _, _, _, .filesystemKind (v := v) hv hs => fun hg hl => by
    rw [Stmt.AllE] at hl
    simp only [evalStmtT, evalFilesystemT]
    refine late_ev cfg ω hg hl hv (lateC_now fun k => ?_)
    have : v.asString true = .error (.err (.typeMismatch s!' "string" v.shortDisplay)) := by
      cases v with
      | str s => exact absurd rfl (hs s)
      | _ => rfl
    rw [this, into_err (ends_of _ _ _ _)]
    exact ⟨_, rfl, text_mismatch _ _⟩
  | _, _, _, _, _, .filesystemFails (s := s) (t₁ := t₁) hv ho => fun hg hl => by
    rw [Stmt.AllE] at hl
    simp only [evalStmtT, evalFilesystemT]
    refine late_ev cfg ω hg hl hv (lateC_now fun k => ?_)
    obtain ⟨er, h1, h2⟩ := (open_fails_iff _ _ _).2 ho
    rw [C41_string_text_bytewise, into_ok (ends_of _ _ _ _)]
    have hx : (E.opens (s.flatMap byteText)).ends k ω t₁ = (Fs.new (ω.host t₁) (s.flatMap byteText), t₁ + 1) := rfl
    rw [h1] at hx
    rw [into_err hx]
    exact ⟨er, rfl, h2⟩
  | _, _, _, _, _, .print (v := v) (text := text) (t₁ := t₁) hv hp hw => fun hg hl => by
    rw [Stmt.AllE] at hl
    simp only [evalStmtT, evalPrintT]
    obtain ⟨n, hn⟩ := rule_print (prints_alike (alike (cfg.moment ω t₁)).symm (live_good cfg ω hg hv hl) hp)
    refine late_ev cfg ω hg hl hv ⟨n, fun k hk => ?_⟩
    have hx : printText (cfg.steps k) v = .ok text := hn k hk
    dsimp only
    rw [hx, into_ok (ends_of _ _ _ _)]
    exact comes_write hw k ω
  | _, _, _, _, _, .printOf h => fun hg hl => by
    rw [Stmt.AllE] at hl
    simp only [evalStmtT, evalPrintT]
    exact late_fails cfg ω hg hl h _
  | _, _, _, _, _, .printNoDiagram hv h1 h2 => fun hg hl => by
    rw [Stmt.AllE] at hl
    simp only [evalStmtT, evalPrintT]
    refine late_ev cfg ω hg hl hv (lateC_now fun k => ?_)
    obtain ⟨er, h3, h4⟩ := hist_told (b := (cfg.steps k).build) (fuel := (cfg.steps k).fuel) (after := _) h1 h2
    have hx : ∀ xs, asHist (cfg.steps k).build (cfg.steps k).fuel xs = .error (.err er) →
        printText (cfg.steps k) (.array xs true) = .error (.err er) := fun xs h => h
    rw [hx _ h3, into_err (ends_of _ _ _ _)]
    exact ⟨er, rfl, h4⟩
  | _, _, _, _, _, .shown (v := v) (text := text) hi hv hs hw => fun hg hl => by
    rw [Stmt.AllE] at hl
    simp only [evalStmtT, evalExprStmtT]
    refine late_ev cfg ω hg hl hv (lateC_now fun k => ?_)
    have hi' : (cfg.steps k).interactive = true := hi
    have hx := (C78_shows cfg _ (live_good cfg ω hg hv hl).2 _).2 hs
    have hx : v.display = .ok text := hx
    rw [if_pos hi', hx, into_ok (ends_of _ _ _ _)]
    exact comes_write hw k ω
  | _, _, _, _, _, .silent hi hv => fun hg hl => by
    rw [Stmt.AllE] at hl
    simp only [evalStmtT, evalExprStmtT]
    refine late_ev cfg ω hg hl hv (lateC_now fun k => ?_)
    have hi' : ¬ (cfg.steps k).interactive = true := hi
    rw [if_neg hi']
    rfl
  | _, _, _, _, _, .exprOf h => fun hg hl => by
    rw [Stmt.AllE] at hl
    simp only [evalStmtT, evalExprStmtT]
    exact late_fails cfg ω hg hl h _
termination_by structural _ _ _ _ _ h => h
theorem goesAll_comes : ∀ {p : List Stmt} {σ : State} {t : Nat} {σ' : State} {h : How}, LGoesAll cfg ω p σ t σ' h →
    GoodVars σ.vars → allE Lits p → LateC (fun k => (evalStmtsT (cfg.steps k) p σ).ends k ω t) σ' h
  | _, _, _, _, _, .nil => fun _ _ => by simp only [evalStmtsT]; exact lateC_now fun k => rfl
  | _, _, _, _, _, .next h1 h2 => fun hg hl => by
    rw [allE] at hl
    obtain ⟨n, hn⟩ := goes_comes h1 hg hl.1
    simp only [evalStmtsT]
    exact lateC_eq (fun k hk => tends_bind (hn k hk) _) (goesAll_comes h2 (goes_good cfg ω h1 hg hl.1) hl.2)
  | _, _, _, _, _, .stop h1 hd => fun hg hl => by
    rw [allE] at hl
    obtain ⟨n, hn⟩ := goes_comes h1 hg hl.1
    simp only [evalStmtsT]
    refine ⟨n, fun k hk => ?_⟩
    have hx := hn k hk
    dsimp only at hx ⊢
    rename_i σ t σ₁ h s ss
    generalize hr : (evalStmtT (cfg.steps k) s σ).ends k ω t = r at hx
    obtain ⟨⟨σ₂, x⟩, t₂⟩ := r
    rw [tends_bind hr]
    cases h with
    | done t => exact absurd rfl (hd t)
    | brk t => simp only [Comes, Prod.mk.injEq] at hx; obtain ⟨⟨rfl, rfl⟩, rfl⟩ := hx; rfl
    | cont t => simp only [Comes, Prod.mk.injEq] at hx; obtain ⟨⟨rfl, rfl⟩, rfl⟩ := hx; rfl
    | quit => simp only [Comes, Prod.mk.injEq] at hx; obtain ⟨rfl, rfl⟩ := hx; rfl
    | failed m =>
      obtain ⟨er, hx, hm⟩ := hx
      simp only [Prod.mk.injEq] at hx; obtain ⟨rfl, rfl⟩ := hx
      exact ⟨er, rfl, hm⟩
termination_by structural _ _ _ _ _ h => h
theorem goesOn_comes : ∀ {c : Expr} {b : List Stmt} {σ : State} {t : Nat} {σ' : State} {h : How},
    LGoesOn cfg ω c b σ t σ' h → GoodVars σ.vars → Lits c → allE Lits b → ∃ n, ∀ k j, n ≤ k → n ≤ j →
      Comes ((whileLoopT (fun st => evalCondT (cfg.steps k) st c) (evalStmtsT (cfg.steps k) b) j σ).ends k ω t) σ' h
  | _, _, _, _, _, _, .over hc => fun hg hl _ => by
    obtain ⟨n, hn⟩ := cond_comes cfg ω hg hl hc
    refine ⟨n + 1, fun k j hk hj => ?_⟩
    obtain ⟨j, rfl⟩ : ∃ i, j = i + 1 := ⟨j - 1, by omega⟩
    rw [whileT_succ, into_ok (hn k (by omega))]
    rfl
  | _, _, _, _, _, _, .again hc h1 ho h2 => fun hg hl hb => by
    obtain ⟨n, hn⟩ := cond_comes cfg ω hg hl hc
    obtain ⟨n₁, hn₁⟩ := goesAll_comes h1 hg hb
    obtain ⟨n₂, hn₂⟩ := goesOn_comes h2 (goesAll_good cfg ω h1 hg hb) hl hb
    refine ⟨n + n₁ + n₂ + 1, fun k j hk hj => ?_⟩
    obtain ⟨j, rfl⟩ : ∃ i, j = i + 1 := ⟨j - 1, by omega⟩
    rw [whileT_succ, into_ok (hn k (by omega))]
    simp only [if_true]
    rw [turn_next (hn₁ k (by omega)) ho]
    exact hn₂ k j (by omega) (by omega)
  | _, _, _, _, _, _, .broken hc h1 => fun hg hl hb => by
    obtain ⟨n, hn⟩ := cond_comes cfg ω hg hl hc
    obtain ⟨n₁, hn₁⟩ := goesAll_comes h1 hg hb
    refine ⟨n + n₁ + 1, fun k j hk hj => ?_⟩
    obtain ⟨j, rfl⟩ : ∃ i, j = i + 1 := ⟨j - 1, by omega⟩
    rw [whileT_succ, into_ok (hn k (by omega))]
    simp only [if_true]
    exact turn_broken (hn₁ k (by omega))
  | _, _, _, _, _, _, .ended hc h1 ho => fun hg hl hb => by
    obtain ⟨n, hn⟩ := cond_comes cfg ω hg hl hc
    obtain ⟨n₁, hn₁⟩ := goesAll_comes h1 hg hb
    refine ⟨n + n₁ + 1, fun k j hk hj => ?_⟩
    obtain ⟨j, rfl⟩ : ∃ i, j = i + 1 := ⟨j - 1, by omega⟩
    rw [whileT_succ, into_ok (hn k (by omega))]
    simp only [if_true]
    exact turn_ended (hn₁ k (by omega)) ho
  | _, _, _, _, _, _, .fails hc => fun hg hl hb => by
    obtain ⟨n, hn⟩ := comes_testFails cfg ω hg hl hc
    refine ⟨n + 1, fun k j hk hj => ?_⟩
    obtain ⟨j, rfl⟩ : ∃ i, j = i + 1 := ⟨j - 1, by omega⟩
    obtain ⟨er, t', h1, h2⟩ := hn k (by omega)
    rw [whileT_succ, into_err h1]
    exact ⟨er, rfl, h2⟩
termination_by structural _ _ _ _ _ _ h => h
theorem goesThrough_comes : ∀ {x : Str} {b : List Stmt} {xs : List Value} {σ : State} {t : Nat} {σ' : State} {h : How},
    LGoesThrough cfg ω x b xs σ t σ' h → GoodVars σ.vars → allE Lits b → (∀ v ∈ xs, Good v) →
      LateC (fun k => (forLoopT x (evalStmtsT (cfg.steps k) b) xs σ).ends k ω t) σ' h
  | _, _, _, _, _, _, _, .over => fun _ _ _ => by simp only [forLoopT]; exact lateC_now fun k => rfl
  | _, _, _, _, _, _, _, .again ha h1 ho h2 => fun hg hl hx => by
    have hg' := goodVars_assigns (hx _ List.mem_cons_self) ha hg
    obtain ⟨n₁, hn₁⟩ := goesAll_comes h1 hg' hl
    refine lateC_eq (n := n₁) (fun k hk => ?_) (goesThrough_comes h2 (goesAll_good cfg ω h1 hg' hl) hl
      fun v hv => hx v (List.mem_cons_of_mem _ hv))
    rw [forT_cons, insert_iff.2 ha, into_ok (ends_of _ _ _ _)]
    exact turn_next (hn₁ k hk) ho
  | _, _, _, _, _, _, _, .broken ha h1 => fun hg hl hx => by
    have hg' := goodVars_assigns (hx _ List.mem_cons_self) ha hg
    obtain ⟨n₁, hn₁⟩ := goesAll_comes h1 hg' hl
    refine ⟨n₁, fun k hk => ?_⟩
    dsimp only
    rw [forT_cons, insert_iff.2 ha, into_ok (ends_of _ _ _ _)]
    exact turn_broken (hn₁ k hk)
  | _, _, _, _, _, _, _, .ended ha h1 ho => fun hg hl hx => by
    have hg' := goodVars_assigns (hx _ List.mem_cons_self) ha hg
    obtain ⟨n₁, hn₁⟩ := goesAll_comes h1 hg' hl
    refine ⟨n₁, fun k hk => ?_⟩
    dsimp only
    rw [forT_cons, insert_iff.2 ha, into_ok (ends_of _ _ _ _)]
    exact turn_ended (hn₁ k hk) ho
termination_by structural _ _ _ _ _ _ _ h => h
end

end

end Btrd
