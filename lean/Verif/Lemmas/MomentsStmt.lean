/-
Statements in a world that changes: the evaluator that asks and the rules of `Spec/Moments`.
-/
import Verif.Lemmas.MomentsExpr
import Verif.Lemmas.Failing

namespace Btrd
open Spec

abbrev LFixes (cfg : Cfg) (ω : Live) := Fixes ω cfg.wraps (cfg.interactive = true)
abbrev LFixFails (cfg : Cfg) (ω : Live) := FixFails ω cfg.wraps (cfg.interactive = true)
abbrev LTestFails (cfg : Cfg) (ω : Live) := TestFails ω cfg.wraps (cfg.interactive = true)
abbrev LGoes (cfg : Cfg) (ω : Live) := Goes ω cfg.wraps (cfg.interactive = true)
abbrev LGoesAll (cfg : Cfg) (ω : Live) := GoesAll ω cfg.wraps (cfg.interactive = true)
abbrev LGoesOn (cfg : Cfg) (ω : Live) := GoesOn ω cfg.wraps (cfg.interactive = true)
abbrev LGoesThrough (cfg : Cfg) (ω : Live) := GoesThrough ω cfg.wraps (cfg.interactive = true)

/-! ### computations -/

/-- the result and the moment at which it is there -/
def T.ends {α : Type} (fuel : Nat) (ω : Live) (x : T α) (t : Nat) : α × Nat :=
  ((x.live fuel ω t).result, (x.live fuel ω t).clock)

theorem tends_ret {α : Type} (fuel : Nat) (ω : Live) (a : α) (t : Nat) : (T.ret a).ends fuel ω t = (a, t) := rfl

theorem tends_bind {α β : Type} {fuel : Nat} {ω : Live} {x : T α} {t t₁ : Nat} {a : α} (h : x.ends fuel ω t = (a, t₁))
    (f : α → T β) : (x.bind f).ends fuel ω t = (f a).ends fuel ω t₁ := by
  obtain ⟨h1, h2⟩ := Prod.mk.inj h
  simp only [T.ends, live_bind, h1, h2]

theorem into_ok {α : Type} {fuel : Nat} {ω : Live} {x : E α} {t t₁ : Nat} {a : α} (h : x.ends fuel ω t = (.ok a, t₁))
    (st : State) (k : α → T (State × IRes)) : (x.into st k).ends fuel ω t = (k a).ends fuel ω t₁ :=
  tends_bind (α := R α) (a := .ok a) h _

theorem into_err {α : Type} {fuel : Nat} {ω : Live} {x : E α} {t t₁ : Nat} {e : Fail} (h : x.ends fuel ω t = (.error e, t₁))
    (st : State) (k : α → T (State × IRes)) : (x.into st k).ends fuel ω t = ((st, .fail e), t₁) :=
  tends_bind (α := R α) (a := .error e) h _

/-! ### targets -/

theorem lits_int {n : Int} (h : Good (.int n)) : Lits (.int n) := by
  intro i hi
  simp only [Expr.literals, List.mem_singleton] at hi
  subst hi
  exact good_int.1 h

theorem fixes_lits {cfg : Cfg} {ω : Live} {σ : State} (hσ : GoodVars σ.vars) {l : Expr} {t : Nat} {l' : Expr} {t' : Nat}
    (h : LFixes cfg ω σ l t l' t') : Lits l → Lits l' := by
  induction h with
  | index hi _ ih =>
    intro hl
    obtain ⟨h1, h2⟩ := lits_app rfl hl
    intro j hj
    simp only [Expr.literals, List.mem_append] at hj
    rcases hj with hj | hj
    · exact ih h1 j hj
    · exact lits_int (live_good cfg ω hσ hi h2) j hj
  | field _ ih => exact fun hl => ih hl
  | other _ _ => exact id

/-- nothing is left to evaluate in a target whose indices are worked out -/
theorem fixed_any {cfg : Cfg} {ω : Live} {σ : State} {l : Expr} {t : Nat} {l' : Expr} {t' : Nat}
    (h : LFixes cfg ω σ l t l' t') (c c' : Cfg) : ∀ f, modifyLhs c σ l' f = modifyLhs c' σ l' f := by
  induction h with
  | index _ _ ih => intro f; exact ih _
  | field _ ih => intro f; exact ih _
  | other h1 h2 =>
    rename_i e t
    intro f
    cases e with
    | index a i => exact absurd rfl (h1 a i)
    | field a g =>
      cases g with
      | ident g => exact absurd rfl (h2 a g)
      | _ => rfl
    | _ => rfl

theorem modifyT_other (cfg : Cfg) (σ : State) {e : Expr} (h1 : ∀ a i, e ≠ .index a i) (h2 : ∀ a f, e ≠ .field a (.ident f))
    (f : Value → R Value) : modifyLhsT cfg σ e f = .of (modifyLhs cfg σ e f) := by
  cases e with
  | index a i => exact absurd rfl (h1 a i)
  | field a g =>
    cases g with
    | ident g => exact absurd rfl (h2 a g)
    | _ => rfl
  | _ => rfl

theorem asInteger_live {v : Value} : (∃ n, v = .int n) ∨ ((∀ n, v ≠ .int n) ∧
    v.asInteger = .error (.err (.typeMismatch s!' "integer" v.shortDisplay))) := by
  by_cases h : ∃ n, v = .int n
  · exact .inl h
  · have h' : ∀ n, v ≠ .int n := fun n hn => h ⟨n, hn⟩
    exact .inr ⟨h', not_integer h'⟩

theorem target_goes (cfg : Cfg) (ω : Live) {σ : State} (hσ : GoodVars σ.vars) : ∀ (l : Expr), Lits l → ∀ t,
    (∃ l' t', LFixes cfg ω σ l t l' t' ∧
      ∀ f, (modifyLhsT cfg σ l f).ends cfg.fuel ω t = (modifyLhs cfg σ l' f, t')) ∨
    (∃ er t', LFixFails cfg ω σ l t er.text ∧
      ∀ f, (modifyLhsT cfg σ l f).ends cfg.fuel ω t = (.error (.err er), t')) ∨
    (∃ e t', (e = .panic ∨ e = .diverge) ∧ ∀ f, (modifyLhsT cfg σ l f).ends cfg.fuel ω t = (.error e, t'))
  | .index e i, hl, t => by
    obtain ⟨h1, h2⟩ := lits_app rfl hl
    generalize hr : (evalExprT cfg σ i).ends cfg.fuel ω t = r
    obtain ⟨r, t₁⟩ := r
    cases r with
    | error fl =>
      have hx : ∀ f, (modifyLhsT cfg σ (.index e i) f).ends cfg.fuel ω t = (.error fl, t₁) := fun f => by
        rw [modifyLhsT]; exact ends_bind_error hr _
      cases fl with
      | err er => exact .inr (.inl ⟨er, t₁, .index ((sound cfg ω hσ i h2 t t₁).2 er hr), hx⟩)
      | panic => exact .inr (.inr ⟨_, t₁, .inl rfl, hx⟩)
      | diverge => exact .inr (.inr ⟨_, t₁, .inr rfl, hx⟩)
    | ok v =>
      have hv := (sound cfg ω hσ i h2 t t₁).1 v hr
      rcases asInteger_live (v := v) with ⟨n, rfl⟩ | ⟨hn, hx⟩
      · have hx : ∀ f, (modifyLhsT cfg σ (.index e i) f).ends cfg.fuel ω t = (modifyLhsT cfg σ e fun v =>
            match v with
            | .array vec h => do
              let k ← tryUnsigned 64 n
              let vec' ← modifyNth (.indexRange n vec.length) f vec k
              .ok (.array vec' h)
            | _ => R.err (.badLhs s!' "Array index must be used on an array")).ends cfg.fuel ω t₁ := fun f => by
          rw [modifyLhsT]
          exact (ends_bind_ok hr _).trans rfl
        rcases target_goes cfg ω hσ e h1 t₁ with ⟨l', t', hf, h'⟩ | ⟨er, t', hf, h'⟩ | ⟨fl, t', hf, h'⟩
        · exact .inl ⟨_, t', .index hv hf, fun f => by rw [hx, h']; rfl⟩
        · exact .inr (.inl ⟨er, t', .indexOf hv hf, fun f => by rw [hx, h']⟩)
        · exact .inr (.inr ⟨fl, t', hf, fun f => by rw [hx, h']⟩)
      · refine .inr (.inl ⟨.typeMismatch s!' "integer" v.shortDisplay, t₁, ?_, fun f => ?_⟩)
        · rw [text_mismatch]; exact .kind hv hn
        · rw [modifyLhsT]
          refine (ends_bind_ok hr _).trans ?_
          rw [hx]
          rfl
  | .field e (.ident g), hl, t => by
    rcases target_goes cfg ω hσ e hl t with ⟨l', t', hf, h'⟩ | ⟨er, t', hf, h'⟩ | ⟨fl, t', hf, h'⟩
    · exact .inl ⟨_, t', .field hf, fun f => by rw [modifyLhsT, h']; rfl⟩
    · exact .inr (.inl ⟨er, t', .field hf, fun f => by rw [modifyLhsT, h']⟩)
    · exact .inr (.inr ⟨fl, t', hf, fun f => by rw [modifyLhsT, h']⟩)
  | .ident x, _, t => .inl ⟨_, t, .other (by simp) (by simp), fun f => by rw [modifyT_other _ _ (by simp) (by simp)]; rfl⟩
  | .int x, _, t => .inl ⟨_, t, .other (by simp) (by simp), fun f => by rw [modifyT_other _ _ (by simp) (by simp)]; rfl⟩
  | .bool x, _, t => .inl ⟨_, t, .other (by simp) (by simp), fun f => by rw [modifyT_other _ _ (by simp) (by simp)]; rfl⟩
  | .str x, _, t => .inl ⟨_, t, .other (by simp) (by simp), fun f => by rw [modifyT_other _ _ (by simp) (by simp)]; rfl⟩
  | .paren x, _, t => .inl ⟨_, t, .other (by simp) (by simp), fun f => by rw [modifyT_other _ _ (by simp) (by simp)]; rfl⟩
  | .call _ _, _, t => .inl ⟨_, t, .other (by simp) (by simp), fun f => by rw [modifyT_other _ _ (by simp) (by simp)]; rfl⟩
  | .bin _ _ _, _, t => .inl ⟨_, t, .other (by simp) (by simp), fun f => by rw [modifyT_other _ _ (by simp) (by simp)]; rfl⟩
  | .un _ _, _, t => .inl ⟨_, t, .other (by simp) (by simp), fun f => by rw [modifyT_other _ _ (by simp) (by simp)]; rfl⟩
  | .cast _ _, _, t => .inl ⟨_, t, .other (by simp) (by simp), fun f => by rw [modifyT_other _ _ (by simp) (by simp)]; rfl⟩
  | .field e (.int x), _, t => .inl ⟨_, t, .other (by simp) (by simp), fun f => by rw [modifyT_other _ _ (by simp) (by simp)]; rfl⟩
  | .field e (.bool x), _, t => .inl ⟨_, t, .other (by simp) (by simp), fun f => by rw [modifyT_other _ _ (by simp) (by simp)]; rfl⟩
  | .field e (.str x), _, t => .inl ⟨_, t, .other (by simp) (by simp), fun f => by rw [modifyT_other _ _ (by simp) (by simp)]; rfl⟩
  | .field e (.paren x), _, t => .inl ⟨_, t, .other (by simp) (by simp), fun f => by rw [modifyT_other _ _ (by simp) (by simp)]; rfl⟩
  | .field e (.call _ _), _, t => .inl ⟨_, t, .other (by simp) (by simp), fun f => by rw [modifyT_other _ _ (by simp) (by simp)]; rfl⟩
  | .field e (.bin _ _ _), _, t => .inl ⟨_, t, .other (by simp) (by simp), fun f => by rw [modifyT_other _ _ (by simp) (by simp)]; rfl⟩
  | .field e (.un _ _), _, t => .inl ⟨_, t, .other (by simp) (by simp), fun f => by rw [modifyT_other _ _ (by simp) (by simp)]; rfl⟩
  | .field e (.cast _ _), _, t => .inl ⟨_, t, .other (by simp) (by simp), fun f => by rw [modifyT_other _ _ (by simp) (by simp)]; rfl⟩
  | .field e (.field _ _), _, t => .inl ⟨_, t, .other (by simp) (by simp), fun f => by rw [modifyT_other _ _ (by simp) (by simp)]; rfl⟩
  | .field e (.index _ _), _, t => .inl ⟨_, t, .other (by simp) (by simp), fun f => by rw [modifyT_other _ _ (by simp) (by simp)]; rfl⟩

theorem fixes_comes (cfg : Cfg) (ω : Live) {σ : State} (hσ : GoodVars σ.vars) {l : Expr} {t : Nat} {l' : Expr} {t' : Nat}
    (h : LFixes cfg ω σ l t l' t') : Lits l → ∃ n, ∀ m, n ≤ m → ∀ f,
      (modifyLhsT (cfg.steps m) σ l f).ends m ω t = (modifyLhs (cfg.steps m) σ l' f, t') := by
  induction h with
  | index hi _ ih =>
    intro hl
    obtain ⟨h1, h2⟩ := lits_app rfl hl
    obtain ⟨n, hn⟩ := ev_comes cfg ω hσ hi h2
    obtain ⟨n', hn'⟩ := ih h1
    refine ⟨max n n', fun m hm f => ?_⟩
    rw [modifyLhsT]
    refine (ends_bind_ok (hn m (by omega)) _).trans ?_
    exact hn' m (by omega) _
  | field _ ih =>
    intro hl
    obtain ⟨n, hn⟩ := ih hl
    refine ⟨n, fun m hm f => ?_⟩
    rw [modifyLhsT]
    exact hn m hm _
  | other h1 h2 => exact fun _ => ⟨0, fun m _ f => by rw [modifyT_other _ _ h1 h2]; rfl⟩

theorem fixFails_comes (cfg : Cfg) (ω : Live) {σ : State} (hσ : GoodVars σ.vars) {l : Expr} {t : Nat} {m : Option Str}
    (h : LFixFails cfg ω σ l t m) : Lits l → ∃ n, ∀ k, n ≤ k → ∀ f, ∃ er t',
      (modifyLhsT (cfg.steps k) σ l f).ends k ω t = (.error (.err er), t') ∧ er.text = m := by
  induction h with
  | index hi =>
    intro hl
    obtain ⟨h1, h2⟩ := lits_app rfl hl
    obtain ⟨n, hn⟩ := fails_comes cfg ω hσ hi h2
    refine ⟨n, fun k hk f => ?_⟩
    obtain ⟨er, t', h, ht⟩ := hn k hk
    exact ⟨er, t', by rw [modifyLhsT]; exact ends_bind_error h _, ht⟩
  | kind hi hv =>
    intro hl
    obtain ⟨h1, h2⟩ := lits_app rfl hl
    obtain ⟨n, hn⟩ := ev_comes cfg ω hσ hi h2
    rename_i v _ t₁
    refine ⟨n, fun k hk f => ⟨.typeMismatch s!' "integer" v.shortDisplay, t₁, ?_, text_mismatch _ _⟩⟩
    rw [modifyLhsT]
    refine (ends_bind_ok (hn k hk) _).trans ?_
    rw [not_integer hv]
    rfl
  | indexOf hi _ ih =>
    intro hl
    obtain ⟨h1, h2⟩ := lits_app rfl hl
    obtain ⟨n, hn⟩ := ev_comes cfg ω hσ hi h2
    obtain ⟨n', hn'⟩ := ih h1
    refine ⟨max n n', fun k hk f => ?_⟩
    rw [modifyLhsT]
    obtain ⟨er, t', h, ht⟩ := hn' k (by omega) _
    exact ⟨er, t', (ends_bind_ok (hn k (by omega)) _).trans h, ht⟩
  | field _ ih =>
    intro hl
    obtain ⟨n, hn⟩ := ih hl
    refine ⟨n, fun k hk f => ?_⟩
    rw [modifyLhsT]
    exact hn k hk _

/-! ### how statements end -/

/-- this result, at this moment, is that of the rules -/
def Comes (r : (State × IRes) × Nat) (σ : State) : How → Prop
  | .done t => r = ((σ, .ok), t)
  | .brk t => r = ((σ, .brk), t)
  | .cont t => r = ((σ, .cont), t)
  | .quit => r.1 = (σ, .quit)
  | .failed m => ∃ er, r.1 = (σ, .fail (.err er)) ∧ er.text = m

/-- the program crashed, or would need more steps -/
def Lost (r : (State × IRes) × Nat) : Prop := r.1.2 = .fail .panic ∨ r.1.2 = .fail .diverge

theorem comes_unique {r : (State × IRes) × Nat} {σ σ' : State} {h h' : How} (h1 : Comes r σ h) (h2 : Comes r σ' h') :
    σ = σ' ∧ h = h' := by
  obtain ⟨⟨s, x⟩, t⟩ := r
  cases h <;> cases h' <;> simp only [Comes, Prod.mk.injEq] at h1 h2 <;> grind

theorem comes_not_lost {r : (State × IRes) × Nat} {σ : State} {h : How} (h1 : Comes r σ h) : ¬ Lost r := by
  obtain ⟨⟨s, x⟩, t⟩ := r
  cases h <;> simp only [Comes, Prod.mk.injEq] at h1 <;> simp only [Lost] <;> grind

/-- the rules say the same, unless the program is lost -/
def Agrees (r : (State × IRes) × Nat) (P : State → How → Prop) : Prop := Lost r ∨ ∃ h, P r.1.1 h ∧ Comes r r.1.1 h

theorem lost_fail {σ : State} {fl : Fail} {t : Nat} (h : fl = .panic ∨ fl = .diverge) : Lost ((σ, .fail fl), t) := by
  rcases h with rfl | rfl
  · exact .inl rfl
  · exact .inr rfl

theorem fail_cases (fl : Fail) : (∃ er, fl = .err er) ∨ fl = .panic ∨ fl = .diverge := by
  cases fl <;> simp

theorem agrees_fail {σ : State} {fl : Fail} {t : Nat} {P : State → How → Prop} (h : ∀ er, fl = .err er → P σ (.failed er.text)) :
    Agrees ((σ, .fail fl), t) P := by
  rcases fail_cases fl with ⟨er, rfl⟩ | hf
  · exact .inr ⟨_, h er rfl, er, rfl, rfl⟩
  · exact .inl (lost_fail hf)

/-- evaluating an expression first -/
theorem agrees_into (cfg : Cfg) (ω : Live) {σ : State} (hσ : GoodVars σ.vars) {e : Expr} (hl : Lits e) {t : Nat}
    {k : Value → T (State × IRes)} {P : State → How → Prop} (hf : ∀ m, LFails cfg ω σ e t m → P σ (.failed m))
    (hk : ∀ v t', LEv cfg ω σ e t v t' → Agrees ((k v).ends cfg.fuel ω t') P) :
    Agrees (((evalExprT cfg σ e).into σ k).ends cfg.fuel ω t) P := by
  generalize hr : (evalExprT cfg σ e).ends cfg.fuel ω t = r
  obtain ⟨r, t₁⟩ := r
  cases r with
  | ok v =>
    rw [into_ok hr]
    exact hk v t₁ ((sound cfg ω hσ e hl t t₁).1 v hr)
  | error fl =>
    rw [into_err hr]
    refine agrees_fail fun er he => hf _ ?_
    subst he
    exact (sound cfg ω hσ e hl t t₁).2 er hr

theorem agrees_write {σ : State} {text : Str} {t fuel : Nat} {ω : Live} {P : State → How → Prop}
    (h : ∀ σ' h, Writes text σ t σ' h → P σ' h) : Agrees ((T.ret (σ.write text)).ends fuel ω t) P := by
  have hw := write_rule σ text
  have hd := write_not_diverge σ text
  have ht : ∀ m, Told (σ.write text).2 m → _ := fun m => write_told (σ := σ) (t := text) (m := m)
  generalize hq : σ.write text = q at hw hd ht
  obtain ⟨σ', x⟩ := q
  rw [tends_ret]
  cases x with
  | ok => exact .inr ⟨_, h _ _ (.done hw), rfl⟩
  | brk => cases hw
  | cont => cases hw
  | quit => cases hw
  | fail fl =>
    refine agrees_fail fun er he => ?_
    subst he
    obtain ⟨h1, h2⟩ := ht er.text ⟨er, rfl, rfl⟩
    rw [h1]
    exact h _ _ (.full hw)

/-! ### what the evaluator does, the rules do -/

theorem agrees_mono {r : (State × IRes) × Nat} {P Q : State → How → Prop} (h : Agrees r P) (hpq : ∀ σ h, P σ h → Q σ h) :
    Agrees r Q := by
  rcases h with h | ⟨x, h1, h2⟩
  · exact .inl h
  · exact .inr ⟨x, hpq _ _ h1, h2⟩

theorem insert_lost {vs : Vars Value} {x : Str} {v : Value} {fl : Fail} (h : vs.insert x v = .error fl) : fl = .panic := by
  unfold Vars.insert at h
  split at h
  · cases h
  · split at h
    · cases h; rfl
    · cases h

theorem assign_goes (cfg : Cfg) (ω : Live) {σ : State} (hσ : GoodVars σ.vars) {l r : Expr} (hl : Lits l) (hr : Lits r)
    (t : Nat) : Agrees ((evalAssignT cfg σ l r).ends cfg.fuel ω t) (LGoes cfg ω (.assign l r) σ t) := by
  unfold evalAssignT
  refine agrees_into cfg ω hσ hr (fun m h => .assignFrom h) fun v t₁ hv => ?_
  by_cases hi : ∃ x, l = .ident x
  · obtain ⟨x, rfl⟩ := hi
    simp only
    cases hx : σ.vars.insert x v with
    | ok vs =>
      refine .inr ⟨_, .assign hv (.other (by simp) (by simp)) (.var (insert_iff.1 hx)), rfl⟩
    | error fl => exact .inl (.inl (by rw [insert_lost hx]; rfl))
  · have hi' : ∀ x, l ≠ .ident x := fun x hx => hi ⟨x, hx⟩
    suffices h : Agrees (((modifyLhsT cfg σ l (fun _ => .ok v)).into σ fun vs => .ret ({ σ with vars := vs }, .ok)).ends
        cfg.fuel ω t₁) (LGoes cfg ω (.assign l r) σ t) by
      cases l with
      | ident x => exact absurd rfl (hi' x)
      | _ => exact h
    rcases target_goes cfg ω hσ l hl t₁ with ⟨l', t', hf, h'⟩ | ⟨er, t', hf, h'⟩ | ⟨fl, t', hf, h'⟩
    · have hi'' : ∀ x, l' ≠ .ident x := by
        cases hf with
        | index _ _ => simp
        | field _ => simp
        | other _ _ => exact hi'
      have hll := fixes_lits hσ hf hl
      have hm := fixed_any hf cfg (cfg.moment ω t') (fun _ => .ok v)
      cases hx : modifyLhs cfg σ l' (fun _ => .ok v) with
      | ok vs =>
        have h2 := h' (fun _ => .ok v)
        rw [hx] at h2
        rw [into_ok h2]
        refine .inr ⟨_, .assign hv hf ?_, rfl⟩
        rw [hm] at hx
        obtain ⟨x, p, old, new, h1, h2, h3, h4⟩ := lhs_rule _ σ l' _ vs hx
        exact stores_alike (alike (cfg.moment ω t')) hσ hll (.part hi'' h1 h2 (through_const.1 h3) h4)
      | error fl =>
        have h2 := h' (fun _ => .ok v)
        rw [hx] at h2
        rw [into_err h2]
        refine agrees_fail fun er he => ?_
        subst he
        refine .assignTo hv hf ?_
        rw [hm] at hx
        refine storeFails_alike (alike (cfg.moment ω t')) (alikeC (cfg.moment ω t')) hσ hll ?_
        rcases lhs_fails _ σ er.text l' _ ⟨er, hx, rfl⟩ with h | ⟨x, p, old, h1, h2, h3⟩
        · exact .target hi'' h
        · exact .blocked h1 h2 (stuck_const.1 h3)
    · rw [into_err (h' _)]
      refine agrees_fail fun er' he => ?_
      obtain rfl := Fail.err.inj he
      exact .assignAt hv hf
    · rw [into_err (h' _)]
      exact .inl (lost_fail hf)

theorem filesystem_goes (cfg : Cfg) (ω : Live) {σ : State} (hσ : GoodVars σ.vars) {e : Expr} (hl : Lits e) (t : Nat) :
    Agrees ((evalFilesystemT cfg σ e).ends cfg.fuel ω t) (LGoes cfg ω (.filesystem e) σ t) := by
  unfold evalFilesystemT
  refine agrees_into cfg ω hσ hl (fun m h => .filesystemOf h) fun v t₁ hv => ?_
  by_cases hs : ∃ s, v = .str s
  · obtain ⟨s, rfl⟩ := hs
    rw [C41_string_text_bytewise, into_ok (ends_of _ _ _ _)]
    have ho : (E.opens (s.flatMap byteText)).ends cfg.fuel ω t₁ = (Fs.new (ω.host t₁) (s.flatMap byteText), t₁ + 1) := rfl
    cases hf : Fs.new (ω.host t₁) (s.flatMap byteText) with
    | ok fs =>
      rw [hf] at ho
      rw [into_ok ho]
      exact .inr ⟨_, .filesystem hv ((opens_iff _ _ _).1 hf), rfl⟩
    | error fl =>
      rw [hf] at ho
      rw [into_err ho]
      refine agrees_fail fun er he => ?_
      subst he
      exact .filesystemFails hv ((open_fails_iff _ _ _).1 ⟨er, hf, rfl⟩)
  · have hs' : ∀ s, v ≠ .str s := fun s h => hs ⟨s, h⟩
    have : v.asString true = .error (.err (.typeMismatch s!' "string" v.shortDisplay)) := by
      cases v with
      | str s => exact absurd rfl (hs' s)
      | _ => rfl
    rw [this, into_err (ends_of _ _ _ _)]
    refine agrees_fail fun er he => ?_
    obtain rfl := Fail.err.inj he
    rw [text_mismatch]
    exact .filesystemKind hv hs'

theorem print_goes (cfg : Cfg) (ω : Live) {σ : State} (hσ : GoodVars σ.vars) {e : Expr} (hl : Lits e) (t : Nat) :
    Agrees ((evalPrintT cfg σ e).ends cfg.fuel ω t) (LGoes cfg ω (.print e) σ t) := by
  unfold evalPrintT
  refine agrees_into cfg ω hσ hl (fun m h => .printOf h) fun v t₁ hv => ?_
  cases hp : printText cfg v with
  | ok text =>
    rw [into_ok (ends_of _ _ _ _)]
    have hpt : Prints (world (cfg.moment ω t₁)) v text := print_rule (cfg.moment ω t₁) hp
    exact agrees_write fun σ' h hw =>
      .print hv (prints_alike (alike (cfg.moment ω t₁)) (live_good cfg ω hσ hv hl) hpt) hw
  | error fl =>
    rw [into_err (ends_of _ _ _ _)]
    refine agrees_fail fun er he => ?_
    subst he
    unfold printText at hp
    split at hp
    · obtain ⟨b, v, a, rfl, h1, h2, h3⟩ := asHist_tells ⟨er, hp, rfl⟩
      rw [h3]
      exact .printNoDiagram hv h1 h2
    · rw [raw_string] at hp; simp at hp
    · obtain ⟨t, ht⟩ := C42_display_total v
      rw [ht] at hp; simp at hp

theorem expr_goes (cfg : Cfg) (ω : Live) {σ : State} (hσ : GoodVars σ.vars) {e : Expr} (hl : Lits e) (t : Nat) :
    Agrees ((evalExprStmtT cfg σ e).ends cfg.fuel ω t) (LGoes cfg ω (.expr e) σ t) := by
  unfold evalExprStmtT
  refine agrees_into cfg ω hσ hl (fun m h => .exprOf h) fun v t₁ hv => ?_
  by_cases hi : cfg.interactive = true
  · rw [if_pos hi]
    obtain ⟨text, ht⟩ := C42_display_total v
    rw [ht, into_ok (ends_of _ _ _ _)]
    exact agrees_write fun σ' h hw => .shown hi hv ((C78_shows cfg v (live_good cfg ω hσ hv hl).2 text).1 ht) hw
  · rw [if_neg hi]
    exact .inr ⟨_, .silent hi hv, rfl⟩

/-- leaving a scope -/
theorem scope_goes {fuel : Nat} {ω : Live} {σ : State} {body : State → T (State × IRes)} {t : Nat}
    {P Q : State → How → Prop} (hb : Agrees ((body (opened σ)).ends fuel ω t) P)
    (hpq : ∀ σ₁ σ₂ h, P σ₁ h → Closes σ₁ σ₂ → Q σ₂ h) : Agrees ((inScopeT σ body).ends fuel ω t) Q := by
  have hb : Agrees ((body { σ with vars := σ.vars.push }).ends fuel ω t) P := hb
  unfold inScopeT
  generalize hr : (body { σ with vars := σ.vars.push }).ends fuel ω t = r at hb
  obtain ⟨⟨σ₁, x⟩, t₁⟩ := r
  rw [tends_bind hr, tends_ret]
  cases hv : σ₁.vars with
  | nil => exact .inl (.inl rfl)
  | cons s vs =>
    have hc : Closes σ₁ { σ₁ with vars := vs } := ⟨s, hv, rfl, rfl⟩
    rcases hb with (h | h) | ⟨h, h1, h2⟩
    · exact .inl (.inl h)
    · exact .inl (.inr h)
    · refine .inr ⟨h, hpq _ _ _ h1 hc, ?_⟩
      cases h with
      | done t =>
        simp only [Comes, Prod.mk.injEq] at h2
        obtain ⟨⟨-, rfl⟩, rfl⟩ := h2
        rfl
      | brk t =>
        simp only [Comes, Prod.mk.injEq] at h2
        obtain ⟨⟨-, rfl⟩, rfl⟩ := h2
        rfl
      | cont t =>
        simp only [Comes, Prod.mk.injEq] at h2
        obtain ⟨⟨-, rfl⟩, rfl⟩ := h2
        rfl
      | quit =>
        simp only [Comes, Prod.mk.injEq] at h2
        obtain ⟨-, rfl⟩ := h2
        rfl
      | failed m =>
        obtain ⟨er, h2, h3⟩ := h2
        simp only [Prod.mk.injEq] at h2
        exact ⟨er, by simp only [Vars.pop]; rw [h2.2], h3⟩

theorem cond_goes (cfg : Cfg) (ω : Live) {σ : State} (hσ : GoodVars σ.vars) {c : Expr} (hl : Lits c) {t : Nat}
    {k : Bool → T (State × IRes)} {P : State → How → Prop} (hf : ∀ m, LTestFails cfg ω σ c t m → P σ (.failed m))
    (hk : ∀ b t', LEv cfg ω σ c t (.bool b) t' → Agrees ((k b).ends cfg.fuel ω t') P) :
    Agrees (((evalCondT cfg σ c).into σ k).ends cfg.fuel ω t) P := by
  unfold evalCondT
  generalize hr : (evalExprT cfg σ c).ends cfg.fuel ω t = r
  obtain ⟨r, t₁⟩ := r
  cases r with
  | ok v =>
    have hv := (sound cfg ω hσ c hl t t₁).1 v hr
    by_cases hb : ∃ b, v = .bool b
    · obtain ⟨b, rfl⟩ := hb
      rw [into_ok ((ends_bind_ok hr _).trans (ends_of _ _ _ _))]
      exact hk b t₁ hv
    · have hb' : ∀ b, v ≠ .bool b := fun b h => hb ⟨b, h⟩
      have hx : ((evalExprT cfg σ c) >>= fun v => E.of v.asBoolean).ends cfg.fuel ω t = (v.asBoolean, t₁) :=
        ends_bind_ok hr _
      rw [not_boolean hb'] at hx
      rw [into_err hx]
      refine agrees_fail fun er he => hf _ ?_
      obtain rfl := Fail.err.inj he
      rw [text_mismatch]
      exact .kind hv hb'
  | error fl =>
    rw [into_err (ends_bind_error hr _)]
    refine agrees_fail fun er he => hf _ (.fails ?_)
    subst he
    exact (sound cfg ω hσ c hl t t₁).2 er hr

/-! ### values stay in range -/

theorem stores_good (cfg : Cfg) {σ : State} (hσ : GoodVars σ.vars) {l : Expr} (hl : Lits l) {v : Value} (hv : Good v)
    {vs : Vars Value} (h : Stores (manual cfg) σ l v vs) : GoodVars vs := by
  cases stores_alike (alike cfg).symm hσ hl h with
  | var h => exact goodVars_assigns hv h hσ
  | part _ h1 h2 h3 h4 =>
    obtain ⟨n, hn⟩ := rule_lhs h1 h2 (through_const.2 h3) h4
    refine modifyLhs_good _ σ hσ l _ vs (fun w w' _ hw => ?_) (hn n (Nat.le_refl n))
    simp only [Except.ok.injEq] at hw
    subst hw
    exact hv

theorem writes_vars {text : Str} {σ σ' : State} {t : Nat} {h : How} (hw : Writes text σ t σ' h) : σ'.vars = σ.vars := by
  cases hw with
  | done h => exact outputs_vars h
  | full h => exact outputs_vars h

section
variable (cfg : Cfg) (ω : Live)

mutual
theorem goes_good : ∀ {s : Stmt} {σ : State} {t : Nat} {σ' : State} {h : How}, LGoes cfg ω s σ t σ' h →
    GoodVars σ.vars → s.AllE Lits → GoodVars σ'.vars
  | _, _, _, _, _, .assign hv hf hs => fun hg hl => by
    rw [Stmt.AllE] at hl
    exact stores_good (cfg.moment ω _) hg (fixes_lits hg hf hl.1) (live_good cfg ω hg hv hl.2) hs
  | _, _, _, _, _, .assignFrom _ => fun hg _ => hg
  | _, _, _, _, _, .assignAt _ _ => fun hg _ => hg
  | _, _, _, _, _, .assignTo _ _ _ => fun hg _ => hg
  | _, _, _, _, _, .ifTrue _ hr hc => fun hg hl => by
    rw [Stmt.AllE] at hl
    exact goodVars_closes hc (goesAll_good hr (goodVars_opened hg) hl.2.1)
  | _, _, _, _, _, .ifFalse _ hr hc => fun hg hl => by
    rw [Stmt.AllE] at hl
    exact goodVars_closes hc (goesAll_good hr (goodVars_opened hg) hl.2.2)
  | _, _, _, _, _, .ifFails _ => fun hg _ => hg
  | _, _, _, _, _, .while hr hc => fun hg hl => by
    rw [Stmt.AllE] at hl
    exact goodVars_closes hc (goesOn_good hr (goodVars_opened hg) hl.2)
  | _, _, _, _, _, .for he hr hc => fun hg hl => by
    rw [Stmt.AllE] at hl
    exact goodVars_closes hc (goesThrough_good hr (goodVars_opened hg) hl.2.2
      (good_array.1 (live_good cfg ω (goodVars_opened hg) he hl.2.1)))
  | _, _, _, _, _, .forOf _ => fun hg _ => hg
  | _, _, _, _, _, .forKind _ _ => fun hg _ => hg
  | _, _, _, _, _, .forNoName _ => fun hg _ => hg
  | _, _, _, _, _, .brk => fun hg _ => hg
  | _, _, _, _, _, .cont => fun hg _ => hg
  | _, _, _, _, _, .quit => fun hg _ => hg
  | _, _, _, _, _, .help h => fun hg _ => by rw [writes_vars h]; exact hg
  | _, _, _, _, _, .filesystem _ _ => fun hg _ => hg
  | _, _, _, _, _, .filesystemOf _ => fun hg _ => hg
  | _, _, _, _, _, .filesystemKind _ _ => fun hg _ => hg
  | _, _, _, _, _, .filesystemFails _ _ => fun hg _ => hg
  | _, _, _, _, _, .print _ _ h => fun hg _ => by rw [writes_vars h]; exact hg
  | _, _, _, _, _, .printOf _ => fun hg _ => hg
  | _, _, _, _, _, .printNoDiagram _ _ _ => fun hg _ => hg
  | _, _, _, _, _, .shown _ _ _ h => fun hg _ => by rw [writes_vars h]; exact hg
  | _, _, _, _, _, .silent _ _ => fun hg _ => hg
  | _, _, _, _, _, .exprOf _ => fun hg _ => hg
termination_by structural _ _ _ _ _ h => h
theorem goesAll_good : ∀ {p : List Stmt} {σ : State} {t : Nat} {σ' : State} {h : How}, LGoesAll cfg ω p σ t σ' h →
    GoodVars σ.vars → allE Lits p → GoodVars σ'.vars
  | _, _, _, _, _, .nil => fun hg _ => hg
  | _, _, _, _, _, .next h1 h2 => fun hg hl => by
    rw [allE] at hl
    exact goesAll_good h2 (goes_good h1 hg hl.1) hl.2
  | _, _, _, _, _, .stop h _ => fun hg hl => by
    rw [allE] at hl
    exact goes_good h hg hl.1
termination_by structural _ _ _ _ _ h => h
theorem goesOn_good : ∀ {c : Expr} {b : List Stmt} {σ : State} {t : Nat} {σ' : State} {h : How},
    LGoesOn cfg ω c b σ t σ' h → GoodVars σ.vars → allE Lits b → GoodVars σ'.vars
  | _, _, _, _, _, _, .over _ => fun hg _ => hg
  | _, _, _, _, _, _, .again _ h1 _ h2 => fun hg hl => goesOn_good h2 (goesAll_good h1 hg hl) hl
  | _, _, _, _, _, _, .broken _ h1 => fun hg hl => goesAll_good h1 hg hl
  | _, _, _, _, _, _, .ended _ h1 _ => fun hg hl => goesAll_good h1 hg hl
  | _, _, _, _, _, _, .fails _ => fun hg _ => hg
termination_by structural _ _ _ _ _ _ h => h
theorem goesThrough_good : ∀ {x : Str} {b : List Stmt} {xs : List Value} {σ : State} {t : Nat} {σ' : State} {h : How},
    LGoesThrough cfg ω x b xs σ t σ' h → GoodVars σ.vars → allE Lits b → (∀ v ∈ xs, Good v) → GoodVars σ'.vars
  | _, _, _, _, _, _, _, .over => fun hg _ _ => hg
  | _, _, _, _, _, _, _, .again ha h1 _ h2 => fun hg hl hx =>
    goesThrough_good h2 (goesAll_good h1 (goodVars_assigns (hx _ List.mem_cons_self) ha hg) hl) hl
      fun v hv => hx v (List.mem_cons_of_mem _ hv)
  | _, _, _, _, _, _, _, .broken ha h1 => fun hg hl hx =>
    goesAll_good h1 (goodVars_assigns (hx _ List.mem_cons_self) ha hg) hl
  | _, _, _, _, _, _, _, .ended ha h1 _ => fun hg hl hx =>
    goesAll_good h1 (goodVars_assigns (hx _ List.mem_cons_self) ha hg) hl
termination_by structural _ _ _ _ _ _ _ h => h
end

/-! ### the evaluator keeps to the rules -/

theorem loop_goes {c : Expr} {b : List Stmt} (hc : Lits c) (hl : allE Lits b)
    (hb : ∀ σ, GoodVars σ.vars → ∀ t, Agrees ((evalStmtsT cfg b σ).ends cfg.fuel ω t) (LGoesAll cfg ω b σ t)) :
    ∀ (n : Nat) (σ : State), GoodVars σ.vars → ∀ t,
      Agrees ((whileLoopT (fun st => evalCondT cfg st c) (evalStmtsT cfg b) n σ).ends cfg.fuel ω t)
        (LGoesOn cfg ω c b σ t)
  | 0, σ, _, t => .inl (.inr rfl)
  | n + 1, σ, hg, t => by
    rw [whileLoopT]
    refine cond_goes cfg ω hg hc (fun m h => .fails h) fun v t₁ hv => ?_
    cases v with
    | false => exact .inr ⟨_, .over hv, rfl⟩
    | true =>
      simp only [if_true]
      have h1 := hb σ hg t₁
      generalize hr : (evalStmtsT cfg b σ).ends cfg.fuel ω t₁ = r at h1
      obtain ⟨⟨σ₁, x⟩, t₂⟩ := r
      rw [tends_bind hr]
      rcases h1 with (h | h) | ⟨h, h1, h2⟩
      · simp only at h; subst h; exact .inl (.inl rfl)
      · simp only at h; subst h; exact .inl (.inr rfl)
      · have hg₁ := goesAll_good cfg ω h1 hg hl
        cases h with
        | done t₂ =>
          simp only [Comes, Prod.mk.injEq] at h2
          obtain ⟨⟨-, rfl⟩, rfl⟩ := h2
          exact agrees_mono (loop_goes hc hl hb n σ₁ hg₁ _) fun σ' h h' => .again hv h1 (.inl rfl) h'
        | cont t₂ =>
          simp only [Comes, Prod.mk.injEq] at h2
          obtain ⟨⟨-, rfl⟩, rfl⟩ := h2
          exact agrees_mono (loop_goes hc hl hb n σ₁ hg₁ _) fun σ' h h' => .again hv h1 (.inr rfl) h'
        | brk t₂ =>
          simp only [Comes, Prod.mk.injEq] at h2
          obtain ⟨⟨-, rfl⟩, rfl⟩ := h2
          exact .inr ⟨_, .broken hv h1, rfl⟩
        | quit =>
          simp only [Comes, Prod.mk.injEq] at h2
          obtain ⟨-, rfl⟩ := h2
          exact .inr ⟨_, .ended hv h1 (.inl rfl), rfl⟩
        | failed m =>
          obtain ⟨er, h2, rfl⟩ := h2
          simp only [Prod.mk.injEq] at h2
          obtain ⟨-, rfl⟩ := h2
          exact .inr ⟨_, .ended hv h1 (.inr ⟨_, rfl⟩), er, rfl, rfl⟩

theorem through_goes {x : Str} {b : List Stmt} (hl : allE Lits b)
    (hb : ∀ σ, GoodVars σ.vars → ∀ t, Agrees ((evalStmtsT cfg b σ).ends cfg.fuel ω t) (LGoesAll cfg ω b σ t)) :
    ∀ (xs : List Value), (∀ v ∈ xs, Good v) → ∀ (σ : State), GoodVars σ.vars → ∀ t,
      Agrees ((forLoopT x (evalStmtsT cfg b) xs σ).ends cfg.fuel ω t) (LGoesThrough cfg ω x b xs σ t)
  | [], _, σ, _, t => .inr ⟨_, .over, rfl⟩
  | v :: xs, hx, σ, hg, t => by
    rw [forLoopT]
    cases hi : σ.vars.insert x v with
    | error fl => exact .inl (.inl (by rw [insert_lost hi]; rfl))
    | ok vs =>
      rw [into_ok (ends_of _ _ _ _)]
      have ha := insert_iff.1 hi
      have hg' := goodVars_assigns (hx _ List.mem_cons_self) ha hg
      have h1 := hb { σ with vars := vs } hg' t
      generalize hr : (evalStmtsT cfg b { σ with vars := vs }).ends cfg.fuel ω t = r at h1
      obtain ⟨⟨σ₁, x⟩, t₂⟩ := r
      rw [tends_bind hr]
      rcases h1 with (h | h) | ⟨h, h1, h2⟩
      · simp only at h; subst h; exact .inl (.inl rfl)
      · simp only at h; subst h; exact .inl (.inr rfl)
      · have hg₁ := goesAll_good cfg ω h1 hg' hl
        have hx' : ∀ w ∈ xs, Good w := fun w hw => hx w (List.mem_cons_of_mem _ hw)
        cases h with
        | done t₂ =>
          simp only [Comes, Prod.mk.injEq] at h2
          obtain ⟨⟨-, rfl⟩, rfl⟩ := h2
          exact agrees_mono (through_goes hl hb xs hx' σ₁ hg₁ _) fun σ' h h' => .again ha h1 (.inl rfl) h'
        | cont t₂ =>
          simp only [Comes, Prod.mk.injEq] at h2
          obtain ⟨⟨-, rfl⟩, rfl⟩ := h2
          exact agrees_mono (through_goes hl hb xs hx' σ₁ hg₁ _) fun σ' h h' => .again ha h1 (.inr rfl) h'
        | brk t₂ =>
          simp only [Comes, Prod.mk.injEq] at h2
          obtain ⟨⟨-, rfl⟩, rfl⟩ := h2
          exact .inr ⟨_, .broken ha h1, rfl⟩
        | quit =>
          simp only [Comes, Prod.mk.injEq] at h2
          obtain ⟨-, rfl⟩ := h2
          exact .inr ⟨_, .ended ha h1 (.inl rfl), rfl⟩
        | failed m =>
          obtain ⟨er, h2, rfl⟩ := h2
          simp only [Prod.mk.injEq] at h2
          obtain ⟨-, rfl⟩ := h2
          exact .inr ⟨_, .ended ha h1 (.inr ⟨_, rfl⟩), er, rfl, rfl⟩

mutual
theorem stmt_goes : ∀ (s : Stmt), s.AllE Lits → ∀ σ, GoodVars σ.vars → ∀ t,
    Agrees ((evalStmtT cfg s σ).ends cfg.fuel ω t) (LGoes cfg ω s σ t)
  | .assign l r, hl, σ, hg, t => by
    rw [Stmt.AllE] at hl; rw [evalStmtT]; exact assign_goes cfg ω hg hl.1 hl.2 t
  | .ite c a b, hl, σ, hg, t => by
    rw [Stmt.AllE] at hl
    rw [evalStmtT]
    refine scope_goes (P := fun σ₁ h => (∃ t₁, LEv cfg ω (opened σ) c t (.bool true) t₁ ∧ LGoesAll cfg ω a (opened σ) t₁ σ₁ h) ∨
      (∃ t₁, LEv cfg ω (opened σ) c t (.bool false) t₁ ∧ LGoesAll cfg ω b (opened σ) t₁ σ₁ h) ∨
      ∃ m, LTestFails cfg ω (opened σ) c t m ∧ σ₁ = opened σ ∧ h = .failed m) ?_ ?_
    · refine cond_goes cfg ω (goodVars_opened hg) hl.1 (fun m h => .inr (.inr ⟨m, h, rfl, rfl⟩)) fun v t₁ hv => ?_
      cases v with
      | true =>
        exact agrees_mono (stmts_goes a hl.2.1 (opened σ) (goodVars_opened hg) t₁) fun σ' h h' => .inl ⟨t₁, hv, h'⟩
      | false =>
        exact agrees_mono (stmts_goes b hl.2.2 (opened σ) (goodVars_opened hg) t₁) fun σ' h h' => .inr (.inl ⟨t₁, hv, h'⟩)
    · rintro σ₁ σ₂ h (⟨t₁, h1, h2⟩ | ⟨t₁, h1, h2⟩ | ⟨m, h1, rfl, rfl⟩) hc
      · exact .ifTrue h1 h2 hc
      · exact .ifFalse h1 h2 hc
      · rw [← closes_unique (closes_opened σ) hc]
        exact .ifFails h1
  | .while c b, hl, σ, hg, t => by
    rw [Stmt.AllE] at hl
    rw [evalStmtT]
    exact scope_goes (loop_goes cfg ω hl.1 hl.2 (stmts_goes b hl.2) cfg.fuel (opened σ) (goodVars_opened hg) t)
      fun σ₁ σ₂ h h1 h2 => .while h1 h2
  | .for x r b, hl, σ, hg, t => by
    rw [Stmt.AllE] at hl
    rw [evalStmtT]
    refine scope_goes (P := fun σ₁ h => (∃ y xs k t₁, x = .ident y ∧ LEv cfg ω (opened σ) r t (.array xs k) t₁ ∧
        LGoesThrough cfg ω y b xs (opened σ) t₁ σ₁ h) ∨ (σ₁ = opened σ ∧ LGoes cfg ω (.for x r b) σ t σ h)) ?_ ?_
    · unfold evalForT
      by_cases hx : ∃ y, x = .ident y
      · obtain ⟨y, rfl⟩ := hx
        refine agrees_into cfg ω (goodVars_opened hg) hl.2.1 (fun m h => .inr ⟨rfl, .forOf h⟩) fun v t₁ hv => ?_
        by_cases ha : ∃ xs k, v = .array xs k
        · obtain ⟨xs, k, rfl⟩ := ha
          have ho := ends_of cfg.fuel ω (Value.array xs k).asVec t₁
          rw [into_ok (a := xs) ho]
          exact agrees_mono (through_goes cfg ω hl.2.2 (stmts_goes b hl.2.2) xs
            (good_array.1 (live_good cfg ω (goodVars_opened hg) hv hl.2.1)) (opened σ) (goodVars_opened hg) t₁)
            fun σ' h h' => .inl ⟨y, xs, k, t₁, rfl, hv, h'⟩
        · have ha' : ∀ xs k, v ≠ .array xs k := fun xs k h => ha ⟨xs, k, h⟩
          rw [not_array ha', into_err (ends_of _ _ _ _)]
          refine agrees_fail fun er he => ?_
          obtain rfl := Fail.err.inj he
          rw [text_mismatch]
          exact .inr ⟨rfl, .forKind hv ha'⟩
      · have hx' : ∀ y, x ≠ .ident y := fun y h => hx ⟨y, h⟩
        have h : ∀ P : State → How → Prop, P (opened σ) (.failed (some s!' "Variable in for loop must be an identifier")) →
            Agrees ((T.ret (opened σ, IRes.fail (.err (.notIdentifier
              s!' "Variable in for loop must be an identifier")))).ends cfg.fuel ω t) P := by
          intro P hP
          rw [tends_ret]
          refine agrees_fail fun er he => ?_
          obtain rfl := Fail.err.inj he
          exact hP
        cases x with
        | ident y => exact absurd rfl (hx' y)
        | _ => exact h _ (.inr ⟨rfl, .forNoName hx'⟩)
    · rintro σ₁ σ₂ h (⟨y, xs, k, t₁, rfl, h1, h2⟩ | ⟨rfl, h1⟩) hc
      · exact .for h1 h2 hc
      · rw [← closes_unique (closes_opened σ) hc]
        exact h1
  | .brk, _, σ, hg, t => by rw [evalStmtT]; exact .inr ⟨_, .brk, rfl⟩
  | .cont, _, σ, hg, t => by rw [evalStmtT]; exact .inr ⟨_, .cont, rfl⟩
  | .help, _, σ, hg, t => by
    rw [evalStmtT, help_rule]
    exact agrees_write fun σ' h hw => .help hw
  | .quit, _, σ, hg, t => by rw [evalStmtT]; exact .inr ⟨_, .quit, rfl⟩
  | .filesystem e, hl, σ, hg, t => by
    rw [Stmt.AllE] at hl; rw [evalStmtT]; exact filesystem_goes cfg ω hg hl t
  | .print e, hl, σ, hg, t => by rw [Stmt.AllE] at hl; rw [evalStmtT]; exact print_goes cfg ω hg hl t
  | .expr e, hl, σ, hg, t => by rw [Stmt.AllE] at hl; rw [evalStmtT]; exact expr_goes cfg ω hg hl t
theorem stmts_goes : ∀ (p : List Stmt), allE Lits p → ∀ σ, GoodVars σ.vars → ∀ t,
    Agrees ((evalStmtsT cfg p σ).ends cfg.fuel ω t) (LGoesAll cfg ω p σ t)
  | [], _, σ, _, t => by rw [evalStmtsT]; exact .inr ⟨_, .nil, rfl⟩
  | s :: ss, hl, σ, hg, t => by
    rw [allE] at hl
    rw [evalStmtsT]
    have h1 := stmt_goes s hl.1 σ hg t
    generalize hr : (evalStmtT cfg s σ).ends cfg.fuel ω t = r at h1
    obtain ⟨⟨σ₁, x⟩, t₂⟩ := r
    rw [tends_bind hr]
    rcases h1 with (h | h) | ⟨h, h1, h2⟩
    · simp only at h; subst h; exact .inl (.inl rfl)
    · simp only at h; subst h; exact .inl (.inr rfl)
    · cases h with
      | done t₂ =>
        simp only [Comes, Prod.mk.injEq] at h2
        obtain ⟨⟨-, rfl⟩, rfl⟩ := h2
        exact agrees_mono (stmts_goes ss hl.2 σ₁ (goes_good cfg ω h1 hg hl.1) _) fun σ' h h' => .next h1 h'
      | cont t₂ =>
        simp only [Comes, Prod.mk.injEq] at h2
        obtain ⟨⟨-, rfl⟩, rfl⟩ := h2
        exact .inr ⟨_, .stop h1 (by simp), rfl⟩
      | brk t₂ =>
        simp only [Comes, Prod.mk.injEq] at h2
        obtain ⟨⟨-, rfl⟩, rfl⟩ := h2
        exact .inr ⟨_, .stop h1 (by simp), rfl⟩
      | quit =>
        simp only [Comes, Prod.mk.injEq] at h2
        obtain ⟨-, rfl⟩ := h2
        exact .inr ⟨_, .stop h1 (by simp), rfl⟩
      | failed m =>
        obtain ⟨er, h2, rfl⟩ := h2
        simp only [Prod.mk.injEq] at h2
        obtain ⟨-, rfl⟩ := h2
        exact .inr ⟨_, .stop h1 (by simp), er, rfl, rfl⟩
end

end

end Btrd
