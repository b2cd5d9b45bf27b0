/-
A release build does not panic in a world that changes while a program runs, and scopes are balanced there (C88).
-/
import Verif.Lemmas.MomentsComes

namespace Btrd
open Spec

theorem soundL_mem : ∀ {es : List Expr} {q : Expr}, SoundL es → q ∈ es → q.Sound
  | [], _, _, hq => by simp at hq
  | e :: es, q, h, hq => by
    rw [SoundL] at h
    rcases List.mem_cons.1 hq with rfl | hq
    · exact h.1
    · exact soundL_mem h.2 hq

theorem operand_sound {e q : Expr} (h : e.Sound) (hq : q ∈ operands e) : q.Sound := by
  cases e with
  | call f args =>
    rw [Expr.Sound] at h
    rcases List.mem_cons.1 hq with rfl | hq
    · exact h.1
    · exact soundL_mem h.2 hq
  | paren e => simp only [operands, List.mem_singleton] at hq; subst hq; rw [Expr.Sound] at h; exact h
  | field e f => simp only [operands, List.mem_singleton] at hq; subst hq; rw [Expr.Sound] at h; exact h.2
  | un op e => simp only [operands, List.mem_singleton] at hq; subst hq; rw [Expr.Sound] at h; exact h
  | cast ty e => simp only [operands, List.mem_singleton] at hq; subst hq; rw [Expr.Sound] at h; exact h.2
  | index e i =>
    rw [Expr.Sound] at h
    simp only [operands, List.mem_cons, List.not_mem_nil, or_false] at hq
    rcases hq with rfl | rfl
    · exact h.1
    · exact h.2
  | bin op l r =>
    rw [Expr.Sound] at h
    simp only [operands, List.mem_cons, List.not_mem_nil, or_false] at hq
    rcases hq with rfl | rfl
    · exact h.1
    · exact h.2
  | _ => simp [operands] at hq

theorem soundL_idents (g : Nat → Str) : ∀ l : List Nat, SoundL (l.map fun i => .ident (g i))
  | [] => trivial
  | _ :: l => by rw [List.map_cons, SoundL]; exact ⟨trivial, soundL_idents g l⟩

theorem outline_sound {e : Expr} (h : e.Sound) : (outline e).Sound := by
  cases e with
  | call f args =>
    rw [outline, Expr.Sound]
    exact ⟨trivial, soundL_idents (fun i => slot (i + 1)) _⟩
  | paren e => rw [outline, Expr.Sound]; trivial
  | field e f => rw [Expr.Sound] at h; rw [outline, Expr.Sound]; exact ⟨h.1, trivial⟩
  | un op e => rw [outline, Expr.Sound]; trivial
  | cast ty e => rw [Expr.Sound] at h; rw [outline, Expr.Sound]; exact ⟨h.1, trivial⟩
  | index e i => rw [outline, Expr.Sound]; exact ⟨trivial, trivial⟩
  | bin op l r => rw [outline, Expr.Sound]; exact ⟨trivial, trivial⟩
  | _ => exact h

/-- an evaluation in a world as it is at one moment -/
theorem moment_safe (cfg : Cfg) (hb : cfg.build.ovfChecks = false) (σ : State) {e : Expr} (h : e.Sound) :
    evalExpr cfg σ e ≠ .error .panic := fun hp =>
  only_evalExpr (P := fun f => f ≠ .panic) ordinary_noPanic cfg (.inr hb) σ e ⟨.inr h, fun x _ => .inr (by simp)⟩ _ hp rfl

section
variable (cfg : Cfg) (hb : cfg.build.ovfChecks = false) (ω : Live)
include hb

theorem op_safe {σ : State} {e : Expr} (hs : e.Sound) (he : operands e ≠ [])
    (ih : ∀ q ∈ operands e, ∀ t, ((evalExprT cfg σ q).ends cfg.fuel ω t).1 ≠ .error .panic) :
    ∀ (post : List Expr) (vs : List Value) (t : Nat), vs.length ≤ (operands e).length → (operands e).drop vs.length = post →
    ((opT cfg σ.fs e (pures vs ++ post.map (evalExprT cfg σ))).ends cfg.fuel ω t).1 ≠ .error .panic
  | post, vs, t, hn, hd => by
    have hlen : vs.length + post.length = (operands e).length := by
      have := congrArg List.length hd
      simp only [List.length_drop] at this
      omega
    by_cases hw : wants e vs = true
    · match post, hd, hlen with
      | [], _, hlen => exact absurd (wants_short hw hn) (by simp at hlen; omega)
      | q :: post, hd, hlen =>
        have hq : (operands e)[vs.length]? = some q := by
          rw [← List.head?_drop, hd]; rfl
        have hm := List.mem_of_getElem? hq
        simp only [List.map_cons]
        rw [op_next _ _ hw (by simp; simp at hlen; omega)]
        have hi := ih q hm t
        cases hr : (evalExprT cfg σ q).ends cfg.fuel ω t with
        | mk r t₃ =>
          rw [hr] at hi
          cases r with
          | error f =>
            rw [ends_bind_error hr]
            exact hi
          | ok w =>
            rw [ends_bind_ok hr]
            have := op_safe hs he ih post (vs ++ [w]) t₃ (by simp at hlen ⊢; omega) (by
              rw [List.length_append, ← List.drop_drop, hd]; rfl)
            simpa [pures] using this
    · have hw : wants e vs = false := by simpa using hw
      obtain ⟨t', h1, -⟩ := op_comes cfg ω (σ := σ) he hn hw t
      rw [hd] at h1
      rw [h1]
      exact moment_safe (cfg.moment ω t) hb _ (outline_sound hs)

/-- evaluating a sound expression never panics -/
theorem expr_safe (σ : State) (e : Expr) (hs : e.Sound) (t : Nat) : ((evalExprT cfg σ e).ends cfg.fuel ω t).1 ≠ .error .panic := by
  by_cases he : operands e = []
  · rw [quiet_ends (evalExprT_atom cfg σ he) cfg.fuel ω t cfg.fuel cfg.host]
    have ho := evalExprT_outcome (cfg.moment ω t) σ cfg.host e
    have h2 := moment_safe (cfg.moment ω t) hb σ hs
    rw [← ho, evalExprT_host] at h2
    exact h2
  · rw [evalExprT_op cfg σ he]
    exact op_safe cfg hb ω hs he (fun q hq t => expr_safe σ q (operand_sound hs hq) t) (operands e) [] t (by simp) rfl
termination_by sizeOf e
decreasing_by exact operand_size hq

theorem modifyT_plain (σ : State) {l : Expr} (hs : l.Sound) (h1 : ∀ a i, l ≠ .index a i) (h2 : ∀ a g, l ≠ .field a (.ident g))
    {f : Value → R Value} (hf : ∀ v, Only (· ≠ .panic) (f v)) (t : Nat) :
    ((modifyLhsT cfg σ l f).ends cfg.fuel ω t).1 ≠ .error .panic := by
  rw [modifyT_other cfg σ h1 h2]
  exact fun hp => only_modifyLhs (P := (· ≠ .panic)) ordinary_noPanic cfg (.inr hb) σ l f hf
    ⟨.inr hs, fun x _ => .inr (by simp)⟩ _ hp rfl

theorem modifyT_safe (σ : State) : ∀ (l : Expr), l.Sound → ∀ (f : Value → R Value), (∀ v, Only (· ≠ .panic) (f v)) → ∀ t,
    ((modifyLhsT cfg σ l f).ends cfg.fuel ω t).1 ≠ .error .panic
  | .index e i, hs, f, hf, t => by
    rw [Expr.Sound] at hs
    have hi := expr_safe cfg hb ω σ i hs.2 t
    generalize hr : (evalExprT cfg σ i).ends cfg.fuel ω t = r at hi
    obtain ⟨r, t₁⟩ := r
    cases r with
    | error fl =>
      have hx : (modifyLhsT cfg σ (.index e i) f).ends cfg.fuel ω t = (.error fl, t₁) := by
        rw [modifyLhsT]; exact ends_bind_error hr _
      rw [hx]
      simpa using hi
    | ok v =>
      rcases asInteger_live (v := v) with ⟨n, rfl⟩ | ⟨hn, hx⟩
      · have hx : (modifyLhsT cfg σ (.index e i) f).ends cfg.fuel ω t = (modifyLhsT cfg σ e fun v =>
            match v with
            | .array vec h => do
              let k ← tryUnsigned 64 n
              let vec' ← modifyNth (.indexRange n vec.length) f vec k
              .ok (.array vec' h)
            | _ => R.err (.badLhs s!' "Array index must be used on an array")).ends cfg.fuel ω t₁ := by
          rw [modifyLhsT]
          exact (ends_bind_ok hr _).trans rfl
        rw [hx]
        refine modifyT_safe σ e hs.1 _ (fun v => ?_) t₁
        split
        · exact only_bind (only_tryUnsigned ordinary_noPanic.errs _ _) fun _ _ =>
            only_bind (only_modifyNth ordinary_noPanic.errs hf _ _) fun _ _ => only_ok _
        · exact only_err ordinary_noPanic.errs _ (by simp)
      · rw [modifyLhsT]
        have : ((evalExprT cfg σ i) >>= fun iv => E.of iv.asInteger >>= fun idx => modifyLhsT cfg σ e fun v =>
            match v with
            | .array vec h => do
              let k ← tryUnsigned 64 idx
              let vec' ← modifyNth (.indexRange idx vec.length) f vec k
              .ok (.array vec' h)
            | _ => R.err (.badLhs s!' "Array index must be used on an array")).ends cfg.fuel ω t =
              (.error (.err (.typeMismatch s!' "integer" v.shortDisplay)), t₁) := by
          refine (ends_bind_ok hr _).trans ?_
          rw [hx]
          rfl
        intro h
        have := (congrArg Prod.fst this).symm.trans h
        simp at this
  | .field e (.ident g), hs, f, hf, t => by
    rw [Expr.Sound] at hs
    rw [modifyLhsT]
    refine modifyT_safe σ e hs.2 _ (fun v => ?_) t
    split
    · exact only_bind (only_modifyField ordinary_noPanic.errs hf _ _) fun _ _ => only_ok _
    · exact only_err ordinary_noPanic.errs _ (by simp)
  | .field e (.int x), hs, f, hf, t => modifyT_plain cfg hb ω σ hs (by simp) (by simp) hf t
  | .field e (.bool x), hs, f, hf, t => modifyT_plain cfg hb ω σ hs (by simp) (by simp) hf t
  | .field e (.str x), hs, f, hf, t => modifyT_plain cfg hb ω σ hs (by simp) (by simp) hf t
  | .field e (.paren x), hs, f, hf, t => modifyT_plain cfg hb ω σ hs (by simp) (by simp) hf t
  | .field e (.call _ _), hs, f, hf, t => modifyT_plain cfg hb ω σ hs (by simp) (by simp) hf t
  | .field e (.bin _ _ _), hs, f, hf, t => modifyT_plain cfg hb ω σ hs (by simp) (by simp) hf t
  | .field e (.un _ _), hs, f, hf, t => modifyT_plain cfg hb ω σ hs (by simp) (by simp) hf t
  | .field e (.cast _ _), hs, f, hf, t => modifyT_plain cfg hb ω σ hs (by simp) (by simp) hf t
  | .field e (.field _ _), hs, f, hf, t => modifyT_plain cfg hb ω σ hs (by simp) (by simp) hf t
  | .field e (.index _ _), hs, f, hf, t => modifyT_plain cfg hb ω σ hs (by simp) (by simp) hf t
  | .ident x, hs, f, hf, t => modifyT_plain cfg hb ω σ hs (by simp) (by simp) hf t
  | .int x, hs, f, hf, t => modifyT_plain cfg hb ω σ hs (by simp) (by simp) hf t
  | .bool x, hs, f, hf, t => modifyT_plain cfg hb ω σ hs (by simp) (by simp) hf t
  | .str x, hs, f, hf, t => modifyT_plain cfg hb ω σ hs (by simp) (by simp) hf t
  | .paren x, hs, f, hf, t => modifyT_plain cfg hb ω σ hs (by simp) (by simp) hf t
  | .call _ _, hs, f, hf, t => modifyT_plain cfg hb ω σ hs (by simp) (by simp) hf t
  | .bin _ _ _, hs, f, hf, t => modifyT_plain cfg hb ω σ hs (by simp) (by simp) hf t
  | .un _ _, hs, f, hf, t => modifyT_plain cfg hb ω σ hs (by simp) (by simp) hf t
  | .cast _ _, hs, f, hf, t => modifyT_plain cfg hb ω σ hs (by simp) (by simp) hf t

/-! ### statements -/

/-- the program did not panic, and there are as many scopes as before -/
def Kept (σ : State) (r : (State × IRes) × Nat) : Prop := r.1.2 ≠ .fail .panic ∧ r.1.1.vars.length = σ.vars.length

omit hb in
theorem into_kept {α : Type} {σ : State} {x : E α} {k : α → T (State × IRes)} {t : Nat}
    (hx : (x.ends cfg.fuel ω t).1 ≠ .error .panic)
    (hk : ∀ a t', x.ends cfg.fuel ω t = (.ok a, t') → Kept σ ((k a).ends cfg.fuel ω t')) :
    Kept σ ((x.into σ k).ends cfg.fuel ω t) := by
  generalize hr : x.ends cfg.fuel ω t = r at hx
  obtain ⟨r, t₁⟩ := r
  cases r with
  | ok a => rw [into_ok hr]; exact hk a t₁ hr
  | error e =>
    rw [into_err hr]
    refine ⟨fun h => hx ?_, rfl⟩
    simp only [IRes.fail.injEq] at h
    rw [h]

omit hb in
theorem of_kept {α : Type} {σ : State} {x : R α} {k : α → T (State × IRes)} {t : Nat} (hx : Only (· ≠ .panic) x)
    (hk : ∀ a, x = .ok a → Kept σ ((k a).ends cfg.fuel ω t)) : Kept σ (((E.of x).into σ k).ends cfg.fuel ω t) := by
  refine into_kept cfg ω (fun h => hx _ h rfl) fun a t' h => ?_
  rw [ends_of] at h
  obtain ⟨h1, rfl⟩ := Prod.mk.inj h
  exact hk a h1

omit hb in
theorem write_kept (σ : State) (s : Str) (t : Nat) : Kept σ ((T.ret (σ.write s)).ends cfg.fuel ω t) := by
  rw [tends_ret]
  exact ⟨fun h => onlyI_write (P := (· ≠ .panic)) ordinary_noPanic σ s _ h rfl, by rw [State.write_vars]⟩

theorem assign_kept {σ : State} (hσ : GoodVars σ.vars) (hne : σ.vars ≠ []) {l r : Expr} (hl : Lits l) (hls : l.Sound) (hrs : r.Sound)
    (t : Nat) : Kept σ ((evalAssignT cfg σ l r).ends cfg.fuel ω t) := by
  unfold evalAssignT
  refine into_kept cfg ω (expr_safe cfg hb ω σ r hrs t) fun v t₁ hv => ?_
  by_cases hi : ∃ x, l = .ident x
  · obtain ⟨x, rfl⟩ := hi
    simp only
    obtain ⟨vs, hx⟩ := insert_ok σ.vars x v hne
    rw [hx]
    exact ⟨by simp [into_ok (ends_of _ _ _ _), tends_ret], gained_length (insert_gained hx)⟩
  · have hi' : ∀ x, l ≠ .ident x := fun x hx => hi ⟨x, hx⟩
    suffices h : Kept σ (((modifyLhsT cfg σ l (fun _ => .ok v)).into σ fun vs => .ret ({ σ with vars := vs }, .ok)).ends
        cfg.fuel ω t₁) by
      cases l with
      | ident x => exact absurd rfl (hi' x)
      | _ => exact h
    refine into_kept cfg ω (modifyT_safe cfg hb ω σ l hls _ (fun _ => only_ok _) t₁) fun vs t₂ hx => ?_
    rcases target_goes cfg ω hσ l hl t₁ with ⟨l', t', hf, h'⟩ | ⟨er, t', hf, h'⟩ | ⟨fl, t', hf, h'⟩
    · rw [h'] at hx
      obtain ⟨hx, -⟩ := Prod.mk.inj hx
      obtain ⟨x, p, old, new, hw⟩ := modifyLhs_wrote _ _ _ _ _ hx
      exact ⟨by simp [tends_ret], gained_length hw.defined.gained⟩
    · rw [h'] at hx; cases hx
    · rw [h'] at hx; cases hx

theorem filesystem_kept {σ : State} {e : Expr} (hs : e.Sound) (t : Nat) : Kept σ ((evalFilesystemT cfg σ e).ends cfg.fuel ω t) := by
  unfold evalFilesystemT
  refine into_kept cfg ω (expr_safe cfg hb ω σ e hs t) fun v t₁ hv => ?_
  refine of_kept cfg ω (only_asString ordinary_noPanic.errs _ _) fun path _ => ?_
  refine into_kept cfg ω ?_ fun fs t₂ _ => ⟨by simp [tends_ret], rfl⟩
  show Fs.new (ω.host t₁) path ≠ .error .panic
  unfold Fs.new Fs.newMounted Fs.newUnmounted
  repeat' split
  all_goals simp

theorem print_kept {σ : State} (hσ : GoodVars σ.vars) {e : Expr} (hl : Lits e) (hs : e.Sound) (t : Nat) :
    Kept σ ((evalPrintT cfg σ e).ends cfg.fuel ω t) := by
  unfold evalPrintT
  refine into_kept cfg ω (expr_safe cfg hb ω σ e hs t) fun v t₁ hv => ?_
  have hg := live_good cfg ω hσ ((sound cfg ω hσ e hl t t₁).1 v hv) hl
  refine of_kept cfg ω (only_printText ordinary_noPanic cfg (.inr hb) v (.inr hg)) fun text _ => ?_
  exact write_kept cfg ω σ _ t₁

theorem exprStmt_kept {σ : State} {e : Expr} (hs : e.Sound) (t : Nat) :
    Kept σ ((evalExprStmtT cfg σ e).ends cfg.fuel ω t) := by
  unfold evalExprStmtT
  refine into_kept cfg ω (expr_safe cfg hb ω σ e hs t) fun v t₁ hv => ?_
  by_cases hi : cfg.interactive = true
  · rw [if_pos hi]
    obtain ⟨text, ht⟩ := C42_display_total v
    rw [ht]
    exact of_kept cfg ω (only_ok _) fun text _ => write_kept cfg ω σ _ t₁
  · rw [if_neg hi]
    exact ⟨by simp [tends_ret], rfl⟩

omit hb in
theorem scope_kept {σ : State} {body : State → T (State × IRes)} {t : Nat}
    (h : Kept (opened σ) ((body (opened σ)).ends cfg.fuel ω t)) : Kept σ ((inScopeT σ body).ends cfg.fuel ω t) := by
  have h : Kept (opened σ) ((body { σ with vars := σ.vars.push }).ends cfg.fuel ω t) := h
  unfold inScopeT
  generalize hr : (body { σ with vars := σ.vars.push }).ends cfg.fuel ω t = r at h
  obtain ⟨⟨σ₁, x⟩, t₁⟩ := r
  rw [tends_bind hr, tends_ret]
  obtain ⟨h1, h2⟩ := h
  have h2 : σ₁.vars.length = σ.vars.length + 1 := h2
  cases hv : σ₁.vars with
  | nil => rw [hv] at h2; simp at h2
  | cons s vs =>
    rw [hv] at h2
    exact ⟨h1, by simpa [Vars.pop] using h2⟩

theorem cond_kept {σ : State} {c : Expr} (hs : c.Sound) {k : Bool → T (State × IRes)} {t : Nat}
    (hk : ∀ b t', Kept σ ((k b).ends cfg.fuel ω t')) : Kept σ (((evalCondT cfg σ c).into σ k).ends cfg.fuel ω t) := by
  refine into_kept cfg ω ?_ fun b t' _ => hk b t'
  unfold evalCondT
  have hi := expr_safe cfg hb ω σ c hs t
  generalize hr : (evalExprT cfg σ c).ends cfg.fuel ω t = r at hi
  obtain ⟨r, t₁⟩ := r
  cases r with
  | ok v =>
    rw [ends_bind_ok hr]
    exact fun h => only_asBoolean (P := (· ≠ .panic)) ordinary_noPanic.errs v _ h rfl
  | error fl => rw [ends_bind_error hr]; simpa using hi

/-- what a body of a loop keeps -/
def Keeps (b : List Stmt) : Prop := ∀ σ, GoodVars σ.vars → σ.vars ≠ [] → ∀ t, Kept σ ((evalStmtsT cfg b σ).ends cfg.fuel ω t)

omit hb in
theorem ne_of_length {a b : Vars Value} (h : b.length = a.length) (ha : a ≠ []) : b ≠ [] := by
  intro hb; rw [hb] at h; exact ha (List.length_eq_zero_iff.1 h.symm)

omit hb in
theorem kept_good {b : List Stmt} (hl : allE Lits b) {σ σ₁ : State} (hg : GoodVars σ.vars) {t t₁ : Nat} {x : IRes}
    (hr : (evalStmtsT cfg b σ).ends cfg.fuel ω t = ((σ₁, x), t₁)) (hx : x = .ok ∨ x = .cont) : GoodVars σ₁.vars := by
  have h := stmts_goes cfg ω b hl σ hg t
  rw [hr] at h
  rcases h with (h | h) | ⟨h, h1, -⟩
  · rcases hx with rfl | rfl <;> simp at h
  · rcases hx with rfl | rfl <;> simp at h
  · exact goesAll_good cfg ω h1 hg hl

omit hb in
theorem kept_trans {σ σ₁ : State} {r : (State × IRes) × Nat} (h : σ₁.vars.length = σ.vars.length) (hr : Kept σ₁ r) : Kept σ r :=
  ⟨hr.1, hr.2.trans h⟩

theorem while_kept {c : Expr} (hs : c.Sound) {b : List Stmt} (hl : allE Lits b) (hb' : Keeps cfg ω b) :
    ∀ (n : Nat) (σ : State), GoodVars σ.vars → σ.vars ≠ [] → ∀ t,
      Kept σ ((whileLoopT (fun st => evalCondT cfg st c) (evalStmtsT cfg b) n σ).ends cfg.fuel ω t)
  | 0, σ, _, _, t => ⟨by simp [whileLoopT, tends_ret], rfl⟩
  | n + 1, σ, hg, hne, t => by
    rw [whileLoopT]
    refine cond_kept cfg hb ω hs fun v t₁ => ?_
    cases v with
    | false => exact ⟨by simp [tends_ret], rfl⟩
    | true =>
      simp only [if_true]
      have h1 := hb' σ hg hne t₁
      generalize hr : (evalStmtsT cfg b σ).ends cfg.fuel ω t₁ = r at h1
      obtain ⟨⟨σ₁, x⟩, t₂⟩ := r
      rw [tends_bind hr]
      have hk : (x = .ok ∨ x = .cont) → Kept σ ((whileLoopT (fun st => evalCondT cfg st c) (evalStmtsT cfg b) n σ₁).ends cfg.fuel ω t₂) :=
        fun hx => kept_trans h1.2 (while_kept hs hl hb' n σ₁ (kept_good cfg ω hl hg hr hx) (ne_of_length h1.2 hne) t₂)
      cases x with
      | ok => exact hk (.inl rfl)
      | cont => exact hk (.inr rfl)
      | brk => exact ⟨by simp [tends_ret], h1.2⟩
      | quit => exact ⟨by simp [tends_ret], h1.2⟩
      | fail f => exact h1

omit hb in
theorem for_kept {x : Str} {b : List Stmt} (hl : allE Lits b) (hb' : Keeps cfg ω b) :
    ∀ (xs : List Value), (∀ v ∈ xs, Good v) → ∀ (σ : State), GoodVars σ.vars → σ.vars ≠ [] → ∀ t,
      Kept σ ((forLoopT x (evalStmtsT cfg b) xs σ).ends cfg.fuel ω t)
  | [], _, σ, _, _, t => ⟨by simp [forLoopT, tends_ret], rfl⟩
  | v :: xs, hx, σ, hg, hne, t => by
    rw [forLoopT]
    obtain ⟨vs, hi⟩ := insert_ok σ.vars x v hne
    have hlen := gained_length (insert_gained hi)
    have hg' := goodVars_assigns (hx _ List.mem_cons_self) (insert_iff.1 hi) hg
    rw [hi, into_ok (ends_of _ _ _ _)]
    have h1 := hb' { σ with vars := vs } hg' (ne_of_length hlen hne) t
    generalize hr : (evalStmtsT cfg b { σ with vars := vs }).ends cfg.fuel ω t = r at h1
    obtain ⟨⟨σ₁, y⟩, t₂⟩ := r
    rw [tends_bind hr]
    have h2 : σ₁.vars.length = σ.vars.length := h1.2.trans hlen
    have hk : (y = .ok ∨ y = .cont) → Kept σ ((forLoopT x (evalStmtsT cfg b) xs σ₁).ends cfg.fuel ω t₂) :=
      fun hy => kept_trans h2 (for_kept hl hb' xs (fun w hw => hx w (List.mem_cons_of_mem _ hw)) σ₁
        (kept_good cfg ω hl hg' hr hy) (ne_of_length h2 hne) t₂)
    cases y with
    | ok => exact hk (.inl rfl)
    | cont => exact hk (.inr rfl)
    | brk => exact ⟨by simp [tends_ret], h2⟩
    | quit => exact ⟨by simp [tends_ret], h2⟩
    | fail f => exact ⟨h1.1, h2⟩

mutual
theorem stmt_kept : ∀ (s : Stmt), s.AllE Lits → s.AllE Expr.Sound → ∀ σ, GoodVars σ.vars → σ.vars ≠ [] → ∀ t,
    Kept σ ((evalStmtT cfg s σ).ends cfg.fuel ω t)
  | .assign l r, hl, hs, σ, hg, hne, t => by
    rw [Stmt.AllE] at hl hs; rw [evalStmtT]; exact assign_kept cfg hb ω hg hne hl.1 hs.1 hs.2 t
  | .ite c a b, hl, hs, σ, hg, hne, t => by
    rw [Stmt.AllE] at hl hs
    rw [evalStmtT]
    refine scope_kept cfg ω (cond_kept cfg hb ω hs.1 fun v t₁ => ?_)
    cases v with
    | true => exact stmts_kept a hl.2.1 hs.2.1 (opened σ) (goodVars_opened hg) (by simp [opened]) t₁
    | false => exact stmts_kept b hl.2.2 hs.2.2 (opened σ) (goodVars_opened hg) (by simp [opened]) t₁
  | .while c b, hl, hs, σ, hg, hne, t => by
    rw [Stmt.AllE] at hl hs
    rw [evalStmtT]
    exact scope_kept cfg ω (while_kept cfg hb ω hs.1 hl.2 (fun σ hg hne t => stmts_kept b hl.2 hs.2 σ hg hne t) cfg.fuel (opened σ)
      (goodVars_opened hg) (by simp [opened]) t)
  | .for x r b, hl, hs, σ, hg, hne, t => by
    rw [Stmt.AllE] at hl hs
    rw [evalStmtT]
    refine scope_kept cfg ω ?_
    unfold evalForT
    by_cases hx : ∃ y, x = .ident y
    · obtain ⟨y, rfl⟩ := hx
      refine into_kept cfg ω (expr_safe cfg hb ω _ r hs.2.1 t) fun v t₁ hv => ?_
      refine of_kept cfg ω (only_asVec ordinary_noPanic.errs v) fun items hi => ?_
      obtain ⟨k, rfl⟩ := asVec_inv hi
      have hgv := live_good cfg ω (goodVars_opened hg) ((sound cfg ω (goodVars_opened hg) r hl.2.1 t t₁).1 _ hv) hl.2.1
      exact for_kept cfg ω hl.2.2 (fun σ hg hne t => stmts_kept b hl.2.2 hs.2.2 σ hg hne t) items (good_array.1 hgv) (opened σ)
        (goodVars_opened hg) (by simp [opened]) t₁
    · have hx' : ∀ y, x ≠ .ident y := fun y h => hx ⟨y, h⟩
      cases x with
      | ident y => exact absurd rfl (hx' y)
      | _ => exact ⟨by simp [tends_ret], rfl⟩
  | .brk, _, _, σ, _, _, t => by rw [evalStmtT]; exact ⟨by simp [tends_ret], rfl⟩
  | .cont, _, _, σ, _, _, t => by rw [evalStmtT]; exact ⟨by simp [tends_ret], rfl⟩
  | .help, _, _, σ, _, _, t => by rw [evalStmtT]; exact write_kept cfg ω σ _ t
  | .quit, _, _, σ, _, _, t => by rw [evalStmtT]; exact ⟨by simp [tends_ret], rfl⟩
  | .filesystem e, hl, hs, σ, _, _, t => by rw [Stmt.AllE] at hs; rw [evalStmtT]; exact filesystem_kept cfg hb ω hs t
  | .print e, hl, hs, σ, hg, _, t => by rw [Stmt.AllE] at hl hs; rw [evalStmtT]; exact print_kept cfg hb ω hg hl hs t
  | .expr e, hl, hs, σ, hg, _, t => by rw [Stmt.AllE] at hs; rw [evalStmtT]; exact exprStmt_kept cfg hb ω hs t
/-- running sound statements never panics and leaves as many scopes as there were -/
theorem stmts_kept : ∀ (p : List Stmt), allE Lits p → allE Expr.Sound p → ∀ σ, GoodVars σ.vars → σ.vars ≠ [] → ∀ t,
    Kept σ ((evalStmtsT cfg p σ).ends cfg.fuel ω t)
  | [], _, _, σ, _, _, t => by rw [evalStmtsT]; exact ⟨by simp [tends_ret], rfl⟩
  | s :: ss, hl, hs, σ, hg, hne, t => by
    rw [allE] at hl hs
    rw [evalStmtsT]
    have h1 := stmt_kept s hl.1 hs.1 σ hg hne t
    have hgo := stmt_goes cfg ω s hl.1 σ hg t
    generalize hr : (evalStmtT cfg s σ).ends cfg.fuel ω t = r at h1 hgo
    obtain ⟨⟨σ₁, x⟩, t₂⟩ := r
    rw [tends_bind hr]
    cases x with
    | ok =>
      have hg₁ : GoodVars σ₁.vars := by
        rcases hgo with (h | h) | ⟨h, h1, -⟩
        · simp at h
        · simp at h
        · exact goes_good cfg ω h1 hg hl.1
      exact kept_trans h1.2 (stmts_kept ss hl.2 hs.2 σ₁ hg₁ (ne_of_length h1.2 hne) t₂)
    | cont => exact ⟨by simp [tends_ret], h1.2⟩
    | brk => exact ⟨by simp [tends_ret], h1.2⟩
    | quit => exact ⟨by simp [tends_ret], h1.2⟩
    | fail f => exact h1
end

end

end Btrd
