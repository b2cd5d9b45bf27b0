/-
What can go on forever (C79): expressions and assignment targets.
-/
import Verif.Spec.Forever
import Verif.Lemmas.RulesStmt

namespace Btrd
open Spec

/-- what the code waits for -/
def waits (cfg : Cfg) : Waits where
  search fs tree k := ∀ n, searchFn (cfg.steps n) fs [.ok (.int tree), .ok k] = .error .diverge
  diagram xs := ∀ n, asHist cfg.build n xs = .error .diverge

/-! ### what always ends -/

theorem errs_ends : Errs fun f => f ≠ .diverge := ⟨by intro e _; simp⟩

theorem only_ends {α : Type} {r : R α} (h : Only (fun f => f ≠ .diverge) r) : r ≠ .error .diverge :=
  fun e => h _ e rfl

theorem bind_diverge {α β : Type} {x : R α} {g : α → R β} (h : (x >>= g) = .error .diverge) :
    x = .error .diverge ∨ ∃ a, x = .ok a ∧ g a = .error .diverge := by
  cases x with
  | error f =>
    have h : (Except.error f : R β) = .error .diverge := h
    rw [Except.error.injEq] at h
    exact .inl (by rw [h])
  | ok a => exact .inr ⟨a, rfl, h⟩

theorem binop_ok_ends (op : BinOp) (v w : Value) : binop op (.ok v) (.ok w) ≠ .error .diverge :=
  only_ends (only_binop errs_ends op (only_ok _) (only_ok _))

/-- an operator hangs on its right side only if it gets there -/
theorem binop_hangs {op : BinOp} {v : Value} {r : R Value} (h : binop op (.ok v) r = .error .diverge) :
    WantsRight op v ∧ r = .error .diverge := by
  cases r with
  | ok w => exact absurd h (binop_ok_ends op v w)
  | error f =>
    cases op with
    | plus => exact ⟨.plus v, h⟩
    | eq => exact ⟨.eq v, h⟩
    | ne => exact ⟨.ne v, h⟩
    | lor =>
      cases v with
      | bool b => cases b with
        | false => exact ⟨.lor, h⟩
        | true => simp [binop, bind, Except.bind, Value.asBoolean] at h
      | _ => simp [binop, bind, Except.bind, Value.asBoolean, R.err] at h
    | land =>
      cases v with
      | bool b => cases b with
        | true => exact ⟨.land, h⟩
        | false => simp [binop, bind, Except.bind, Value.asBoolean] at h
      | _ => simp [binop, bind, Except.bind, Value.asBoolean, R.err] at h
    | _ =>
      cases v with
      | int i => exact ⟨.other i (by simp) (by simp) (by simp) (by simp) (by simp), h⟩
      | _ => simp [binop, intOp, bind, Except.bind, Value.asInteger, R.err] at h

theorem binop_right {op : BinOp} {v : Value} (h : WantsRight op v) :
    binop op (.ok v) (.error .diverge) = .error .diverge := by
  cases h with
  | plus | eq | ne | lor | land => rfl
  | other i h1 h2 h3 h4 h5 => cases op <;> first | rfl | contradiction

theorem binop_left (op : BinOp) (r : R Value) : binop op (.error .diverge) r = .error .diverge := by
  cases op <;> rfl

/-! ### what expressions come to -/

/-- no bound is enough -/
def Hang (cfg : Cfg) (σ : State) (e : Expr) : Prop := ∀ n, evalExpr (cfg.steps n) σ e = .error .diverge

theorem hang_late {cfg : Cfg} {σ : State} {e : Expr} (n : Nat)
    (h : ∀ m, n ≤ m → evalExpr (cfg.steps m) σ e = .error .diverge) : Hang cfg σ e := by
  intro k
  by_cases hd : evalExpr (cfg.steps k) σ e = .error .diverge
  · exact hd
  · have := C67_expression cfg k (max n k) (Nat.le_max_right _ _) e σ hd
    rw [h _ (Nat.le_max_left _ _)] at this
    exact this.symm

/-- an expression hangs, fails or has a value -/
theorem comes_to (cfg : Cfg) (σ : State) (e : Expr) : Hang cfg σ e ∨
    (∃ n f, f ≠ .diverge ∧ ∀ m, n ≤ m → evalExpr (cfg.steps m) σ e = .error f) ∨
    ∃ v, Ev (world cfg) σ e v := by
  by_cases h : Hang cfg σ e
  · exact .inl h
  · obtain ⟨n, hn⟩ := Classical.not_forall.1 h
    right
    cases hv : evalExpr (cfg.steps n) σ e with
    | ok v => exact .inr ⟨v, ev_of_eval (cfg.steps n) σ e v hv⟩
    | error f =>
      refine .inl ⟨n, f, fun hf => hn (by rw [hv, hf]), fun m hm => ?_⟩
      rw [C67_expression cfg n m hm e σ hn, hv]

/-- what hangs has no value -/
theorem hang_no_ev {cfg : Cfg} {σ : State} {e : Expr} {v : Value} (h : Hang cfg σ e) (hv : Ev (world cfg) σ e v) :
    False := by
  obtain ⟨n, hn⟩ := ev_gives hv
  have := hn n (Nat.le_refl n)
  rw [h n] at this
  simp at this

/-- an expression that depends first of all on another hangs because that one does, or because of the rest -/
theorem hang_first {cfg : Cfg} {σ : State} {e e' : Expr} {K : Nat → R Value → R Value}
    (he : ∀ n, evalExpr (cfg.steps n) σ e = K n (evalExpr (cfg.steps n) σ e'))
    (hK : ∀ n f, K n (.error f) = .error f) (h : Hang cfg σ e) :
    Hang cfg σ e' ∨ ∃ v n, Ev (world cfg) σ e' v ∧ ∀ m, n ≤ m → K m (.ok v) = .error .diverge := by
  rcases comes_to cfg σ e' with h' | ⟨n, f, hf, h'⟩ | ⟨v, hv⟩
  · exact .inl h'
  · have h1 := h n
    rw [he, h' n (Nat.le_refl n), hK, Except.error.injEq] at h1
    exact absurd h1 hf
  · obtain ⟨n, hn⟩ := ev_gives hv
    refine .inr ⟨v, n, hv, fun m hm => ?_⟩
    have h1 := h m
    rwa [he, hn m hm] at h1

theorem hang_of_first {cfg : Cfg} {σ : State} {e e' : Expr} {K : Nat → R Value → R Value}
    (he : ∀ n, evalExpr (cfg.steps n) σ e = K n (evalExpr (cfg.steps n) σ e'))
    (hK : ∀ n f, K n (.error f) = .error f) (h : Hang cfg σ e') : Hang cfg σ e := by
  intro n
  rw [he, h n, hK]

theorem hang_of_rest {cfg : Cfg} {σ : State} {e e' : Expr} {K : Nat → R Value → R Value} {v : Value}
    (he : ∀ n, evalExpr (cfg.steps n) σ e = K n (evalExpr (cfg.steps n) σ e'))
    (hK : ∀ n f, K n (.error f) = .error f) (hv : Ev (world cfg) σ e' v)
    (h : ∀ n, K n (.ok v) = .error .diverge) : Hang cfg σ e := by
  intro n
  rw [he]
  rcases ev_eval hv n with h' | h'
  · rw [h', h]
  · rw [h', hK]

/-! ### arguments -/

theorem arg1_hangs {msg : Str} {es : List Expr} {g : Expr → R Value} (h : arg1 msg (es.map g) = .error .diverge) :
    ∃ e, es = [e] ∧ g e = .error .diverge := by
  match es, h with
  | [], h => exact absurd h (by simp [arg1, ensure, R.err, bind, Except.bind])
  | [e], h => exact ⟨e, rfl, h⟩
  | _ :: _ :: _, h => exact absurd h (by simp [arg1, ensure, R.err, bind, Except.bind])

/-- integer arguments are evaluated from left to right; the first that hangs comes after integers -/
theorem intArgs_hangs {cfg : Cfg} {σ : State} : ∀ {es : List Expr} {n : Nat},
    (∀ m, n ≤ m → intArgs (es.map (evalExpr (cfg.steps m) σ)) = .error .diverge) →
    ∃ before e after, es = before ++ e :: after ∧ (∀ a ∈ before, ∃ i, Ev (world cfg) σ a (.int i)) ∧ Hang cfg σ e := by
  intro es
  induction es with
  | nil => intro n h; have := h n (Nat.le_refl n); simp [intArgs] at this
  | cons e es ih =>
    intro n h
    rcases comes_to cfg σ e with h' | ⟨k, f, hf, h'⟩ | ⟨v, hv⟩
    · exact ⟨[], e, es, rfl, by simp, h'⟩
    · have h1 := h (max n k) (Nat.le_max_left _ _)
      simp only [List.map_cons, intArgs, h' _ (Nat.le_max_right _ _), bind, Except.bind, Except.error.injEq] at h1
      exact absurd h1 hf
    · obtain ⟨k, hk⟩ := ev_gives hv
      have hint : ∃ i, v = .int i := by
        have h1 := h (max n k) (Nat.le_max_left _ _)
        simp only [List.map_cons, intArgs, hk _ (Nat.le_max_right _ _), bind, Except.bind] at h1
        cases v with
        | int i => exact ⟨i, rfl⟩
        | _ => simp [Value.asInteger, R.err] at h1
      obtain ⟨i, rfl⟩ := hint
      obtain ⟨before, e', after, rfl, h2, h3⟩ := ih (n := max n k) fun m hm => by
        have h1 := h m (by omega)
        simp only [List.map_cons, intArgs, hk m (by omega), bind, Except.bind, Value.asInteger] at h1
        cases hi : intArgs (es.map (evalExpr (cfg.steps m) σ)) with
        | error f => rw [hi] at h1; exact h1
        | ok vs => rw [hi] at h1; simp at h1
      refine ⟨e :: before, e', after, rfl, ?_, h3⟩
      intro a ha
      rcases List.mem_cons.1 ha with rfl | ha
      · exact ⟨i, hv⟩
      · exact h2 a ha

theorem intArgs_hang {cfg : Cfg} {σ : State} {e : Expr} {after : List Expr} (h : Hang cfg σ e) (n : Nat) :
    ∀ {before : List Expr}, (∀ a ∈ before, ∃ i, Ev (world cfg) σ a (.int i)) →
    intArgs ((before ++ e :: after).map (evalExpr (cfg.steps n) σ)) = .error .diverge := by
  intro before
  induction before with
  | nil => intro _; simp [intArgs, h n, bind, Except.bind]
  | cons a before ih =>
    intro hb
    obtain ⟨i, hi⟩ := hb a (by simp)
    have ih := ih fun x hx => hb x (by simp [hx])
    simp only [List.cons_append, List.map_cons, intArgs]
    rcases ev_eval hi n with h' | h'
    · rw [h']
      simp only [bind, Except.bind, Value.asInteger]
      rw [ih]
    · rw [h']; rfl

/-- `key()` hangs only in one of its arguments -/
theorem keyFn_hangs {b : Build} {args : List (R Value)} (h : keyFn b args = .error .diverge) :
    args.length = 4 ∧ intArgs args = .error .diverge := by
  unfold keyFn at h
  rcases bind_diverge h with h | ⟨u, hu, h⟩
  · exact absurd h (only_ends (only_ensure errs_ends _ _ (by simp)))
  · have hl := ensure_inv hu
    simp only [beq_iff_eq] at hl
    refine ⟨hl, ?_⟩
    rcases bind_diverge h with h | ⟨vals, hv, h⟩
    · exact h
    · exfalso
      have h1 := intArgs_length hv
      rw [hl] at h1
      rcases bind_diverge h with h | ⟨s, -, h⟩
      · rw [searchKey_zero] at h; simp at h
      · split at h
        · exact only_ends (only_bind (only_setFields errs_ends _ _) fun _ _ => only_ok _) h
        · rename_i hne
          match vals, h1 with
          | [a, b, c, d], _ => exact absurd rfl (hne a b c d)

theorem keyFn_hang {b : Build} {args : List (R Value)} (hl : args.length = 4) (h : intArgs args = .error .diverge) :
    keyFn b args = .error .diverge := by
  unfold keyFn
  rw [h, hl]
  rfl

/-! ### expressions -/

theorem castOp_ends (b : Build) (fs : Option Fs) (ty : Expr) (v : Value) : castOp b fs ty (.ok v) ≠ .error .diverge :=
  only_ends (only_castOp errs_ends (.inl (by simp)) fs (.inl (by simp)) (only_ok _))

theorem unop_ends (b : Build) (op : UnOp) (v : Value) : unop b op (.ok v) ≠ .error .diverge :=
  only_ends (only_unop errs_ends (.inl (by simp)) op (only_ok _))

theorem fieldOp_ends (f : Expr) (v : Value) : fieldOp (.ok v) f ≠ .error .diverge :=
  only_ends (only_fieldOp errs_ends (only_ok _) f)

/-- functions of one argument hang only in their argument -/
theorem oneFn_hangs {cfg : Cfg} {fs : Option Fs} {g : Function} (h1 : g ≠ .key) (h2 : g ≠ .search)
    {es : List Expr} {k : Expr → R Value} (h : callFn cfg fs (.ok (.func g)) (es.map k) = .error .diverge) :
    g ≠ .hist ∧ ∃ e, es = [e] ∧ k e = .error .diverge := by
  have end1 : ∀ {msg : Str} {F : Value → R Value}, (∀ v, Only (fun f => f ≠ .diverge) (F v)) →
      (arg1 msg (es.map k) >>= F) = .error .diverge → ∃ e, es = [e] ∧ k e = .error .diverge := by
    intro msg F hF h
    rcases bind_diverge h with h | ⟨v, -, h⟩
    · exact arg1_hangs h
    · exact absurd h (only_ends (hF v))
  cases g with
  | key => exact absurd rfl h1
  | search => exact absurd rfl h2
  | typeOf => exact ⟨by simp, end1 (fun _ => only_ok _) h⟩
  | keyOf =>
    have h : keyofFn cfg.build (es.map k) = .error .diverge := h
    unfold keyofFn at h
    refine ⟨by simp, end1 (fun v => ?_) h⟩
    refine only_bind (only_asStruct errs_ends _) fun _ _ => ?_
    split
    · refine only_bind (by rw [key_zero]; exact only_ok _) fun _ _ =>
        only_bind (only_setFields errs_ends _ _) fun _ _ => only_ok _
    · exact only_err errs_ends _ (by simp)
  | len =>
    have h : lenFn (es.map k) = .error .diverge := h
    unfold lenFn at h
    refine ⟨by simp, end1 (fun v => ?_) h⟩
    refine only_bind (only_asVec errs_ends _) fun _ _ => ?_
    split
    · exact only_ok _
    · exact only_err errs_ends _ (by simp)
  | hist =>
    exfalso
    have h : histFn (es.map k) = .error .diverge := h
    exact only_ends (only_bind (only_ensure errs_ends _ _ (by simp)) fun _ _ => only_ok _) h
  | str =>
    have h : strFn (es.map k) = .error .diverge := h
    unfold strFn at h
    refine ⟨by simp, end1 (fun v => ?_) h⟩
    split
    · exact only_ok _
    · exact only_bind (only_display _) fun _ _ => only_ok _

theorem oneFn_hang {cfg : Cfg} {fs : Option Fs} {g : Function} (h1 : g ≠ .key) (h2 : g ≠ .search) (h3 : g ≠ .hist) :
    callFn cfg fs (.ok (.func g)) [.error .diverge] = .error .diverge := by
  cases g <;> first | rfl | contradiction

/-- `search()` with a tree and a key -/
theorem searchFn_hangs {cfg : Cfg} {fs : Option Fs} {es : List Expr} {k : Expr → R Value}
    (h : searchFn cfg fs (es.map k) = .error .diverge) :
    ∃ e₁ e₂, es = [e₁, e₂] ∧ (k e₁ = .error .diverge ∨ ∃ tree, k e₁ = .ok (.int tree) ∧
      (k e₂ = .error .diverge ∨ ∃ key, k e₂ = .ok key ∧ searchFn cfg fs [.ok (.int tree), .ok key] = .error .diverge)) := by
  have hl : es.length = 2 := by
    rw [show searchFn cfg fs (es.map k) = (ensure ((es.map k).length == 2) (.argCount s!' "'search()' requires 2 arguments") >>= fun _ => _) from rfl] at h
    rcases bind_diverge h with h | ⟨u, hu, h⟩
    · exact absurd h (only_ends (only_ensure errs_ends _ _ (by simp)))
    · have := ensure_inv hu
      simpa using this
  match es, hl with
  | [e₁, e₂], _ =>
    refine ⟨e₁, e₂, rfl, ?_⟩
    simp only [List.map_cons, List.map_nil] at h
    cases h1 : k e₁ with
    | error f => rw [h1] at h; exact .inl h
    | ok v =>
      right
      rw [h1] at h
      cases v with
      | int tree =>
        refine ⟨tree, rfl, ?_⟩
        cases h2 : k e₂ with
        | error f => rw [h2] at h; exact .inl h
        | ok key => rw [h2] at h; exact .inr ⟨key, rfl, h⟩
      | _ => exact absurd h (by simp [searchFn, ensure, bind, Except.bind, Value.asInteger, R.err])

/-- the first of two things one waits for; for the search itself -/
theorem searchFn_late {cfg : Cfg} {fs : Option Fs} {tree : Int} {k : Value} (n : Nat)
    (h : ∀ m, n ≤ m → searchFn (cfg.steps m) fs [.ok (.int tree), .ok k] = .error .diverge) :
    (waits cfg).search fs tree k := by
  intro i
  have hrs : ApxL (· = .diverge) [Except.ok (Value.int tree), Except.ok k] [.ok (.int tree), .ok k] :=
    .cons (.refl _) (.cons (.refl _) .nil)
  rcases apx_searchFn (finer_steps cfg (Nat.le_max_right n i)) fs hrs with h' | ⟨f, rfl, h'⟩
  · rw [h', h _ (Nat.le_max_left n i)]
  · exact h'

mutual
/-- what no bound is enough for, hangs by the rules -/
theorem hangs_ev (cfg : Cfg) (σ : State) : ∀ e : Expr, Hang cfg σ e → EvHangs (world cfg) (waits cfg) σ e
  | .ident x, h => by
    have := h 0
    rw [evalExpr] at this
    exact absurd this (by unfold orErr; split <;> simp [R.err])
  | .int i, h => by have := h 0; rw [evalExpr] at this; simp at this
  | .bool b, h => by have := h 0; rw [evalExpr] at this; simp at this
  | .str s, h => by have := h 0; rw [evalExpr] at this; simp at this
  | .paren e, h => .paren (hangs_ev cfg σ e fun n => by have := h n; rwa [evalExpr] at this)
  | .field e f, h => by
    rcases hang_first (e' := e) (K := fun _ r => fieldOp r f) (fun n => by rw [evalExpr]) (fun _ _ => rfl) h with
      h | ⟨v, n, -, h⟩
    · exact .field (hangs_ev cfg σ e h)
    · exact absurd (h n (Nat.le_refl n)) (fieldOp_ends f v)
  | .index e i, h => by
    rcases hang_first (e' := e) (K := fun n r => indexOp r (evalExpr (cfg.steps n) σ i)) (fun n => by rw [evalExpr])
      (fun _ _ => rfl) h with h | ⟨v, n, hv, h⟩
    · exact .base (hangs_ev cfg σ e h)
    · have key : ∀ m, n ≤ m → (∃ xs k, v = .array xs k) ∧ evalExpr (cfg.steps m) σ i = .error .diverge := by
        intro m hm
        have h := h m hm
        cases v with
        | array xs k =>
          refine ⟨⟨xs, k, rfl⟩, ?_⟩
          cases hi : evalExpr (cfg.steps m) σ i with
          | error f => rw [hi] at h; exact h
          | ok w =>
            rw [hi] at h
            exact absurd h (only_ends (only_indexOp errs_ends (only_ok _) (only_ok _)))
        | _ => exact absurd h (by simp [indexOp, bind, Except.bind, Value.asVec, R.err])
      obtain ⟨⟨xs, k, rfl⟩, -⟩ := key n (Nat.le_refl n)
      exact .index hv (hangs_ev cfg σ i (hang_late n fun m hm => (key m hm).2))
  | .bin op l r, h => by
    rcases hang_first (e' := l) (K := fun n x => binop op x (evalExpr (cfg.steps n) σ r)) (fun n => by rw [evalExpr])
      (fun _ _ => by cases op <;> rfl) h with h | ⟨v, n, hv, h⟩
    · exact .left (hangs_ev cfg σ l h)
    · exact .right hv (binop_hangs (h n (Nat.le_refl n))).1
        (hangs_ev cfg σ r (hang_late n fun m hm => (binop_hangs (h m hm)).2))
  | .un op e, h => by
    rcases hang_first (e' := e) (K := fun _ r => unop cfg.build op r) (fun n => by rw [evalExpr]; rfl)
      (fun _ _ => by cases op <;> rfl) h with h | ⟨v, n, -, h⟩
    · exact .unary (hangs_ev cfg σ e h)
    · exact absurd (h n (Nat.le_refl n)) (unop_ends cfg.build op v)
  | .cast ty e, h => by
    rcases hang_first (e' := e) (K := fun _ r => castOp cfg.build σ.fs ty r) (fun n => by rw [evalExpr]; rfl)
      (fun _ _ => rfl) h with h | ⟨v, n, -, h⟩
    · exact .cast (hangs_ev cfg σ e h)
    · exact absurd (h n (Nat.le_refl n)) (castOp_ends cfg.build σ.fs ty v)
  | .call f args, h => by
    have hargs := hangs_args cfg σ args
    rcases hang_first (e' := f) (K := fun n r => callFn (cfg.steps n) σ.fs r (args.map (evalExpr (cfg.steps n) σ)))
      (fun n => by rw [evalExpr, evalArgs_eq_map]) (fun _ _ => rfl) h with h | ⟨v, n, hv, h⟩
    · exact .callee (hangs_ev cfg σ f h)
    · have hfn : ∃ g, v = .func g := by
        have h := h n (Nat.le_refl n)
        cases v with
        | func g => exact ⟨g, rfl⟩
        | _ => exact absurd h (by simp [callFn, bind, Except.bind, Value.asFunction, R.err])
      obtain ⟨g, rfl⟩ := hfn
      by_cases h1 : g = .key
      · subst h1
        have h2 : ∀ m, n ≤ m → _ := fun m hm => keyFn_hangs (h m hm)
        obtain ⟨before, e, after, rfl, h3, h4⟩ := intArgs_hangs fun m hm => (h2 m hm).2
        exact .keyArg hv (by simpa using (h2 n (Nat.le_refl n)).1) h3 (hargs e (by simp) h4)
      · by_cases h2 : g = .search
        · subst h2
          obtain ⟨e₁, e₂, rfl, -⟩ := searchFn_hangs (h n (Nat.le_refl n))
          rcases comes_to cfg σ e₁ with h3 | ⟨i, f', hf, h3⟩ | ⟨t, h3⟩
          · exact .searchTree hv (hargs e₁ (by simp) h3)
          · have h4 := h (max n i) (Nat.le_max_left _ _)
            rw [List.map_cons, h3 _ (Nat.le_max_right _ _)] at h4
            have h4 : (Except.error f' : R Value) = .error .diverge := h4
            rw [Except.error.injEq] at h4
            exact absurd h4 hf
          · obtain ⟨n₁, h3'⟩ := ev_gives h3
            have hint : ∃ tree, t = .int tree := by
              have h4 := h (max n n₁) (Nat.le_max_left _ _)
              rw [callFn_search] at h4
              obtain ⟨a, b, hab, h5⟩ := searchFn_hangs h4
              simp only [List.cons.injEq, and_true] at hab
              obtain ⟨rfl, rfl⟩ := hab
              rw [h3' _ (Nat.le_max_right _ _)] at h5
              rcases h5 with h5 | ⟨tree, h5, -⟩
              · simp at h5
              · simp only [Except.ok.injEq] at h5; exact ⟨tree, h5⟩
            obtain ⟨tree, rfl⟩ := hint
            rcases comes_to cfg σ e₂ with h6 | ⟨i, f', hf, h6⟩ | ⟨key, h6⟩
            · exact .searchKey hv h3 (hargs e₂ (by simp) h6)
            · have h4 := h (n + n₁ + i) (by omega)
              rw [List.map_cons, h3' _ (by omega), List.map_cons, h6 _ (by omega)] at h4
              have h4 : (Except.error f' : R Value) = .error .diverge := h4
              rw [Except.error.injEq] at h4
              exact absurd h4 hf
            · obtain ⟨n₂, h6'⟩ := ev_gives h6
              refine .search hv h3 h6 (searchFn_late (n + n₁ + n₂) fun m hm => ?_)
              have h4 := h m (by omega)
              rw [List.map_cons, h3' _ (by omega), List.map_cons, h6' _ (by omega)] at h4
              exact h4
        · obtain ⟨h3, e, rfl, -⟩ := oneFn_hangs h1 h2 (h n (Nat.le_refl n))
          refine .oneArg hv h1 h2 h3 (hargs e (by simp) (hang_late n fun m hm => ?_))
          obtain ⟨-, e', he, h4⟩ := oneFn_hangs h1 h2 (h m hm)
          simp only [List.cons.injEq, and_true] at he
          rw [he]
          exact h4
theorem hangs_args (cfg : Cfg) (σ : State) : ∀ es : List Expr, ∀ e ∈ es, Hang cfg σ e →
    EvHangs (world cfg) (waits cfg) σ e
  | [] => by simp
  | a :: es => by
    have h1 := hangs_ev cfg σ a
    have h2 := hangs_args cfg σ es
    intro e he h
    rcases List.mem_cons.1 he with he | he
    · subst he
      exact h1 h
    · exact h2 e he h
end

/-- and the other way round -/
theorem ev_hangs {cfg : Cfg} {σ : State} {e : Expr} (h : EvHangs (world cfg) (waits cfg) σ e) : Hang cfg σ e := by
  have call : ∀ {f : Expr} {args : List Expr} {g : Function}, Ev (world cfg) σ f (.func g) →
      (∀ n, callFn (cfg.steps n) σ.fs (.ok (.func g)) (args.map (evalExpr (cfg.steps n) σ)) = .error .diverge) →
      Hang cfg σ (.call f args) := by
    intro f args g hf h
    exact hang_of_rest (e' := f) (K := fun n r => callFn (cfg.steps n) σ.fs r (args.map (evalExpr (cfg.steps n) σ)))
      (fun n => by rw [evalExpr, evalArgs_eq_map]) (fun _ _ => rfl) hf h
  induction h with
  | search hf h1 h2 h3 =>
    refine call hf fun n => ?_
    rw [callFn_search]
    simp only [List.map_cons, List.map_nil]
    rcases ev_eval h1 n with h1 | h1
    · rcases ev_eval h2 n with h2 | h2
      · rw [h1, h2]; exact h3 n
      · rw [h1, h2]; rfl
    · rw [h1]; rfl
  | paren _ ih => exact fun n => by rw [evalExpr]; exact ih n
  | field _ ih => exact hang_of_first (K := fun _ r => fieldOp r _) (fun n => by rw [evalExpr]) (fun _ _ => rfl) ih
  | base _ ih => exact fun n => by rw [evalExpr, ih n]; rfl
  | index hv _ ih =>
    intro n
    rw [evalExpr, ih n]
    rcases ev_eval hv n with h | h <;> rw [h] <;> rfl
  | left _ ih => exact fun n => by rw [evalExpr, ih n, binop_left]
  | right hv hw _ ih =>
    intro n
    rw [evalExpr, ih n]
    rcases ev_eval hv n with h | h
    · rw [h]; exact binop_right hw
    · rw [h]; exact binop_left _ _
  | unary _ ih => exact fun n => by rw [evalExpr, ih n]; cases ‹UnOp› <;> rfl
  | cast _ ih => exact fun n => by rw [evalExpr, ih n]; rfl
  | callee _ ih => exact fun n => by rw [evalExpr, ih n]; rfl
  | keyArg hf hl hb _ ih =>
    refine call hf fun n => ?_
    rw [callFn_key]
    exact keyFn_hang (by simpa using hl) (intArgs_hang ih n hb)
  | searchTree hf _ ih =>
    refine call hf fun n => ?_
    rw [callFn_search]
    simp only [List.map_cons, List.map_nil, ih n]
    rfl
  | searchKey hf h1 _ ih =>
    refine call hf fun n => ?_
    rw [callFn_search]
    simp only [List.map_cons, List.map_nil, ih n]
    rcases ev_eval h1 n with h1 | h1 <;> rw [h1] <;> rfl
  | oneArg hf h1 h2 h3 _ ih =>
    refine call hf fun n => ?_
    simp only [List.map_cons, List.map_nil, ih n]
    exact oneFn_hang h1 h2 h3

theorem hang_iff {cfg : Cfg} {σ : State} {e : Expr} : Hang cfg σ e ↔ EvHangs (world cfg) (waits cfg) σ e :=
  ⟨hangs_ev cfg σ e, ev_hangs⟩

end Btrd
