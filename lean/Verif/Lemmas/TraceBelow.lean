/-
A run that is given up earlier than another (it took too many steps, or it panicked at an overflow where the other goes
on) has done nothing else before that.
-/
import Verif.Lemmas.Trace
import Verif.Lemmas.Approx
import Verif.Lemmas.Vars

namespace Btrd
open Spec

/-- the first computation does what the second does until it is given up with a failure of `S` -/
inductive Below (S : Fail → Prop) {α : Type} (good : α → Prop) (fails : α → Fail → Prop) : W α → W α → Prop
  | stop {a f y} : S f → fails a f → good a → Below S good fails (.ret a) y
  | ret {a} : good a → Below S good fails (.ret a) (.ret a)
  | wrote (s) {k k'} : Below S good fails k k' → Below S good fails (.wrote s k) (.wrote s k')
  | warn (w) {k k'} : Below S good fails k k' → Below S good fails (.warn w k) (.warn w k')
  | search (fs a) {k k'} : (∀ r, Below S good fails (k r) (k' r)) →
      (∀ f, S f → ∃ a f', S f' ∧ fails a f' ∧ good a ∧ k (.error f) = .ret a) →
      Below S good fails (.search fs a k) (.search fs a k')
  | bytes (fs i j) {k k'} : (∀ r, Below S good fails (k r) (k' r)) → Below S good fails (.bytes fs i j k) (.bytes fs i j k')
  | opens (p) {k k'} : (∀ r, Below S good fails (k r) (k' r)) → Below S good fails (.opens p k) (.opens p k')

section
variable {S : Fail → Prop} {α β : Type}

theorem below_bind {good : α → Prop} {fails : α → Fail → Prop} {good' : β → Prop} {fails' : β → Fail → Prop}
    {f g : α → W β} (hf : ∀ a, good a → Below S good' fails' (f a) (g a))
    (hs : ∀ a e, S e → fails a e → good a → ∃ b e', S e' ∧ fails' b e' ∧ good' b ∧ f a = .ret b) {x y : W α}
    (h : Below S good fails x y) : Below S good' fails' (x.bind f) (y.bind g) := by
  induction h with
  | stop h1 h2 h3 =>
    obtain ⟨b, e', k1, k2, k3, k4⟩ := hs _ _ h1 h2 h3
    show Below S good' fails' (f _) _
    rw [k4]
    exact .stop k1 k2 k3
  | ret h => exact hf _ h
  | wrote s _ ih => exact .wrote s ih
  | warn w _ ih => exact .warn w ih
  | search fs a _ h2 ih =>
    refine .search fs a ih fun e he => ?_
    obtain ⟨a, e', k1, k2, k3, k4⟩ := h2 e he
    obtain ⟨b, e'', l1, l2, l3, l4⟩ := hs _ _ k1 k2 k3
    exact ⟨b, e'', l1, l2, l3, by rw [k4]; exact l4⟩
  | bytes fs i j _ ih => exact .bytes fs i j ih
  | opens p _ ih => exact .opens p ih

/-- what they do in a live world -/
theorem below_live {good : α → Prop} {fails : α → Fail → Prop} {n n' : Nat} (hn : FinerN S n n') (ω : Live) {x y : W α}
    (h : Below S good fails x y) : ∀ t, x.live n ω t = y.live n' ω t ∨
      ∃ f, S f ∧ fails (x.live n ω t).result f ∧ ∃ l, (y.live n' ω t).acts = (x.live n ω t).acts ++ l := by
  induction h with
  | stop h1 h2 _ => exact fun t => .inr ⟨_, h1, h2, _, rfl⟩
  | ret _ => exact fun t => .inl rfl
  | wrote s _ ih =>
    intro t
    rcases ih t with h | ⟨f, h1, h2, l, h3⟩
    · left; simp only [W.live, h]
    · exact .inr ⟨f, h1, h2, l, by simp [W.live, h3]⟩
  | warn s _ ih =>
    intro t
    rcases ih t with h | ⟨f, h1, h2, l, h3⟩
    · left; simp only [W.live, h]
    · exact .inr ⟨f, h1, h2, l, by simp [W.live, h3]⟩
  | @search fs a k k' _ h2 ih =>
    intro t
    have hs : (ω.drift t fs).search n a = (ω.drift t fs).search n' a ∨
        S .diverge ∧ (ω.drift t fs).search n a = .error .diverge := by
      rcases hn with rfl | ⟨hle, hS⟩
      · exact .inl rfl
      · rcases apx_search (S := (· = .diverge)) (.inr ⟨hle, rfl⟩) (ω.drift t fs) a with h | ⟨f, rfl, h⟩
        · exact .inl h
        · exact .inr ⟨hS, h⟩
    rcases hs with hs | ⟨hS, hs⟩
    · rcases ih ((ω.drift t fs).search n a) (t + 1) with h | ⟨f, h1, h2, l, h3⟩
      · left; simp only [W.live, ← hs, h]
      · exact .inr ⟨f, h1, h2, l, by simp [W.live, ← hs, h3]⟩
    · obtain ⟨b, f', k1, k2, _, k4⟩ := h2 _ hS
      right
      refine ⟨f', k1, ?_, ?_⟩
      · simp only [W.live, hs, k4, after_result']; exact k2
      · simp only [W.live, hs, k4, after_acts]
        exact ⟨_, rfl⟩
  | bytes fs i j _ ih =>
    intro t
    rcases ih ((ω.drift t fs).getBytes i j) (t + 1) with h | ⟨f, h1, h2, l, h3⟩
    · left; simp only [W.live, h]
    · exact .inr ⟨f, h1, h2, l, by simp [W.live, h3]⟩
  | opens p _ ih =>
    intro t
    rcases ih (Fs.new (ω.host t) p) (t + 1) with h | ⟨f, h1, h2, l, h3⟩
    · left; simp only [W.live, h]
    · exact .inr ⟨f, h1, h2, l, by simp [W.live, h3]⟩

/-! ### expressions -/

/-- for computations that may fail, with a property of their values -/
def BelowE (S : Fail → Prop) {α : Type} (G : α → Prop) (x y : E α) : Prop :=
  Below (α := R α) S (fun r => ∀ a, r = .ok a → G a) (fun r f => r = .error f) (T.asW (α := R α) x) (T.asW (α := R α) y)

/-- any value -/
def anyV {α : Type} : α → Prop := fun _ => True

theorem belowe_of' {G : α → Prop} {r r' : R α} (h : Apx S r r') (hg : ∀ a, r = .ok a → G a) : BelowE S G (E.of r) (E.of r') := by
  rcases h with rfl | ⟨f, hf, rfl⟩
  · exact .ret hg
  · exact .stop hf rfl hg

theorem belowe_of {r r' : R α} (h : Apx S r r') : BelowE S anyV (E.of r) (E.of r') := belowe_of' h fun _ _ => trivial

theorem belowe_same {r : R α} : BelowE S anyV (E.of r) (E.of r) := belowe_of (.refl _)

theorem belowe_bind {G : α → Prop} {G' : β → Prop} {x y : E α} {f g : α → E β} (h : BelowE S G x y)
    (hf : ∀ a, G a → BelowE S G' (f a) (g a)) : BelowE S G' (x >>= f) (y >>= g) := by
  have e1 : T.asW (α := R β) ((x >>= f : E β)) = W.bind (fun r : R α => T.asW (α := R β) ((match r with
    | .ok a => f a
    | .error e => T.ret (.error e) : E β))) (T.asW (α := R α) x) := asW_bind (α := R α) _ _
  have e2 : T.asW (α := R β) ((y >>= g : E β)) = W.bind (fun r : R α => T.asW (α := R β) ((match r with
    | .ok a => g a
    | .error e => T.ret (.error e) : E β))) (T.asW (α := R α) y) := asW_bind (α := R α) _ _
  unfold BelowE
  rw [e1, e2]
  refine below_bind (α := R α) (fun r hr => ?_) (fun r e hS he hr => ?_) h
  · cases r with
    | ok a => exact hf a (hr a rfl)
    | error e => exact .ret (fun a ha => by cases ha)
  · subst he
    exact ⟨.error e, e, hS, rfl, (fun a ha => by cases ha), rfl⟩

theorem belowe_any {G : α → Prop} {G' : β → Prop} {x y : E α} {f g : α → E β} (h : BelowE S G x y)
    (hf : ∀ a, BelowE S G' (f a) (g a)) : BelowE S G' (x >>= f) (y >>= g) := belowe_bind h fun a _ => hf a

theorem belowe_intOp (f : Int → Int → R Value) {l r l' r' : E Value} (hl : BelowE S anyV l l') (hr : BelowE S anyV r r') :
    BelowE S anyV (intOpT f l r) (intOpT f l' r') :=
  belowe_any hl fun _ => belowe_any belowe_same fun _ => belowe_any hr fun _ => belowe_any belowe_same fun _ => belowe_same

theorem belowe_binop (op : BinOp) {l r l' r' : E Value} (hl : BelowE S anyV l l') (hr : BelowE S anyV r r') :
    BelowE S anyV (binopT op l r) (binopT op l' r') := by
  cases op <;> (try exact belowe_intOp _ hl hr)
  · exact belowe_any hl fun _ => belowe_any hr fun _ => belowe_same
  · exact belowe_any hl fun _ => belowe_any hr fun _ => belowe_same
  · exact belowe_any hl fun _ => belowe_any hr fun _ => belowe_same
  · refine belowe_any hl fun _ => belowe_any belowe_same fun c => ?_
    split
    · exact belowe_same
    · exact belowe_any hr fun _ => belowe_any belowe_same fun _ => belowe_same
  · refine belowe_any hl fun _ => belowe_any belowe_same fun c => ?_
    split
    · exact belowe_same
    · exact belowe_any hr fun _ => belowe_any belowe_same fun _ => belowe_same

theorem belowe_bytes (fs : Fs) (i j : Nat) : BelowE S anyV (E.bytes fs i j) (E.bytes fs i j) :=
  .bytes fs i j fun _ => .ret fun _ _ => trivial

theorem belowe_search (fs : Fs) (a : SearchArgs) : BelowE S anyV (E.search fs a) (E.search fs a) :=
  .search fs a (fun _ => .ret fun _ _ => trivial) fun f hf => ⟨.error f, f, hf, rfl, (fun a ha => by cases ha), rfl⟩

theorem belowe_warn (w : Warned) : BelowE S anyV (E.warn w) (E.warn w) :=
  .warn w (.ret fun _ _ => trivial)

variable {b b' : Build}

theorem belowe_cast (hb : FinerB S b b') (fs : Option Fs) (ty : Expr) {x y : E Value} (h : BelowE S anyV x y) :
    BelowE S anyV (castOpT b fs ty x) (castOpT b' fs ty y) := by
  refine belowe_any h fun _ => belowe_any belowe_same fun p => ?_
  by_cases hp : p < 0
  · simp only [hp, if_true]; exact belowe_same
  · simp only [hp, if_false]
    cases ty with
    | ident name =>
      dsimp only
      cases findStruct name with
      | none => exact belowe_same
      | some s =>
        cases fs with
        | none => exact belowe_same
        | some fs =>
          exact belowe_any (belowe_of (apx_usizeAdd hb _ _)) fun _ => belowe_any (belowe_bytes _ _ _) fun _ =>
            belowe_any (belowe_of (apx_structFromBytes hb _ _ _)) fun _ => belowe_same
    | _ => exact belowe_same

/-- pointwise -/
inductive BelowL (S : Fail → Prop) : List (E Value) → List (E Value) → Prop
  | nil : BelowL S [] []
  | cons {r r' rs rs'} : BelowE S anyV r r' → BelowL S rs rs' → BelowL S (r :: rs) (r' :: rs')

theorem BelowL.length {rs rs' : List (E Value)} (h : BelowL S rs rs') : rs.length = rs'.length := by
  induction h with
  | nil => rfl
  | cons _ _ ih => simp [ih]

theorem belowe_intArgs {rs rs' : List (E Value)} (h : BelowL S rs rs') : BelowE S anyV (intArgsT rs) (intArgsT rs') := by
  induction h with
  | nil => exact belowe_same
  | cons h _ ih => exact belowe_any h fun _ => belowe_any belowe_same fun _ => belowe_any ih fun _ => belowe_same

theorem belowe_arg1 {msg : Str} {rs rs' : List (E Value)} (h : BelowL S rs rs') :
    BelowE S anyV (arg1T msg rs) (arg1T msg rs') := by
  unfold arg1T
  rw [h.length]
  refine belowe_any belowe_same fun _ => ?_
  cases h with
  | nil => exact belowe_same
  | cons h1 h2 => cases h2 with
    | nil => exact h1
    | cons h3 h4 => exact belowe_same

theorem belowe_decode (hb : FinerB S b b') : ∀ its : List Item, BelowE S anyV (decodeItemsT b its) (decodeItemsT b' its)
  | [] => belowe_same
  | (h, bytes) :: its => by
    rw [decodeItemsT, decodeItemsT]
    cases structForKey h.objectid h.ty h.offset with
    | some s =>
      exact belowe_any (belowe_of (apx_structFromBytes hb _ _ _)) fun _ => belowe_any (belowe_decode hb its) fun _ => belowe_same
    | none => exact belowe_any (belowe_warn _) fun _ => belowe_decode hb its

theorem belowe_searchFn (hb : FinerB S b b') (fs : Option Fs) {rs rs' : List (E Value)} (h : BelowL S rs rs') :
    BelowE S anyV (searchFnT b fs rs) (searchFnT b' fs rs') := by
  unfold searchFnT
  rw [h.length]
  refine belowe_any belowe_same fun _ => ?_
  cases h with
  | nil => exact belowe_same
  | cons h1 h2 => cases h2 with
    | nil => exact belowe_same
    | cons h3 h4 => cases h4 with
      | cons _ _ => exact belowe_same
      | nil =>
        refine belowe_any h1 fun _ => belowe_any belowe_same fun _ => belowe_any h3 fun _ => belowe_any belowe_same fun _ =>
          belowe_any belowe_same fun _ => ?_
        cases fs with
        | none => exact belowe_same
        | some fs =>
          exact belowe_any belowe_same fun _ => belowe_any (belowe_search _ _) fun _ =>
            belowe_any (belowe_decode hb _) fun _ => belowe_same

theorem keyofFn_apx (hb : FinerB S b b') (v : Value) : Apx S (keyofFn b [.ok v]) (keyofFn b' [.ok v]) := by
  refine apx_bind (apx_arg1 (.cons (.refl _) .nil)) fun _ => apx_bind' fun s => ?_
  split
  · exact apx_bind (apx_structFromBytes hb _ _ _) fun _ => .refl _
  · exact .refl _

theorem apxL_same : ∀ vs : List Value, ApxL S (vs.map .ok) (vs.map .ok)
  | [] => .nil
  | _ :: vs => .cons (.refl _) (apxL_same vs)

variable {cfg cfg' : Cfg} (hc : Finer S cfg cfg')
include hc

theorem belowe_call (fs : Option Fs) {f f' : E Value} (hf : BelowE S anyV f f') {rs rs' : List (E Value)} (h : BelowL S rs rs') :
    BelowE S anyV (callFnT cfg fs f rs) (callFnT cfg' fs f' rs') := by
  refine belowe_any hf fun _ => belowe_any belowe_same fun fn => ?_
  cases fn
  case key =>
    dsimp only
    unfold keyFnT
    rw [h.length]
    exact belowe_any belowe_same fun _ => belowe_any (belowe_intArgs h) fun vs =>
      belowe_of (apx_keyFn hc.build (apxL_same vs))
  case search => exact belowe_searchFn hc.build fs h
  case typeOf => exact belowe_any (belowe_arg1 h) fun _ => belowe_same
  case keyOf => exact belowe_any (belowe_arg1 h) fun v => belowe_of (keyofFn_apx hc.build v)
  case len => exact belowe_any (belowe_arg1 h) fun _ => belowe_same
  case hist =>
    have : rs.isEmpty = rs'.isEmpty := by
      have := h.length
      cases rs <;> cases rs' <;> simp_all
    simp only [this]
    exact belowe_any belowe_same fun _ => belowe_same
  case str => exact belowe_any (belowe_arg1 h) fun _ => belowe_same

mutual
theorem belowe_expr (st : State) : ∀ e : Expr, BelowE S anyV (evalExprT cfg st e) (evalExprT cfg' st e)
  | .ident _ => by rw [evalExprT, evalExprT]; exact belowe_same
  | .int _ => by rw [evalExprT, evalExprT]; exact belowe_same
  | .bool _ => by rw [evalExprT, evalExprT]; exact belowe_same
  | .str _ => by rw [evalExprT, evalExprT]; exact belowe_same
  | .paren e => by rw [evalExprT, evalExprT]; exact belowe_expr st e
  | .field e f => by rw [evalExprT, evalExprT]; exact belowe_any (belowe_expr st e) fun _ => belowe_same
  | .index e i => by
    rw [evalExprT, evalExprT]
    exact belowe_any (belowe_expr st e) fun _ => belowe_any belowe_same fun _ => belowe_any (belowe_expr st i) fun _ =>
      belowe_any belowe_same fun _ => belowe_any belowe_same fun _ => belowe_same
  | .call f args => by rw [evalExprT, evalExprT]; exact belowe_call hc st.fs (belowe_expr st f) (belowe_args st args)
  | .bin op l r => by rw [evalExprT, evalExprT]; exact belowe_binop op (belowe_expr st l) (belowe_expr st r)
  | .un op e => by
    rw [evalExprT, evalExprT]
    exact belowe_any (belowe_expr st e) fun _ => belowe_of (apx_unop hc.build op (.refl _))
  | .cast ty e => by rw [evalExprT, evalExprT]; exact belowe_cast hc.build st.fs ty (belowe_expr st e)
theorem belowe_args (st : State) : ∀ es : List Expr, BelowL S (evalArgsT cfg st es) (evalArgsT cfg' st es)
  | [] => by rw [evalArgsT, evalArgsT]; exact .nil
  | e :: es => by rw [evalArgsT, evalArgsT]; exact .cons (belowe_expr st e) (belowe_args st es)
end

theorem belowe_cond (st : State) (e : Expr) : BelowE S anyV (evalCondT cfg st e) (evalCondT cfg' st e) :=
  belowe_any (belowe_expr hc st e) fun _ => belowe_same

omit hc in
theorem modify_length {vs vs' : Vars Value} {f : Value → R Value} {x : Str} (h : vs.modify f x = some (.ok vs')) :
    vs'.length = vs.length := by
  induction vs generalizing vs' with
  | nil => simp [Vars.modify] at h
  | cons s vs ih =>
    simp only [Vars.modify] at h
    split at h
    · split at h <;> cases h
      rfl
    · split at h
      · next hm => cases h; simp [ih hm]
      · cases h
      · cases h

theorem belowe_lhs (st : State) : ∀ (e : Expr) (f : Value → R Value),
    BelowE S (fun vs => vs.length = st.vars.length) (modifyLhsT cfg st e f) (modifyLhsT cfg' st e f)
  | .field e fld, f => by
    rw [modifyLhsT.eq_def, modifyLhsT.eq_def]
    cases fld with
    | ident name => exact belowe_lhs st e _
    | _ => exact belowe_of' (.refl _) (fun a h => by cases h)
  | .index e i, f => by
    rw [modifyLhsT.eq_def, modifyLhsT.eq_def]
    exact belowe_any (belowe_expr hc st i) fun _ => belowe_any belowe_same fun _ => belowe_lhs st e _
  | .ident x, f => by
    refine belowe_of' (.refl _) fun a h => ?_
    simp only [modifyLhs] at h
    cases hm : st.vars.modify f x with
    | none => rw [hm] at h; cases h
    | some r => rw [hm] at h; subst h; exact modify_length hm
  | .int _, _ => belowe_of' (.refl _) (fun a h => by cases h)
  | .bool _, _ => belowe_of' (.refl _) (fun a h => by cases h)
  | .str _, _ => belowe_of' (.refl _) (fun a h => by cases h)
  | .paren _, _ => belowe_of' (.refl _) (fun a h => by cases h)
  | .call _ _, _ => belowe_of' (.refl _) (fun a h => by cases h)
  | .bin _ _ _, _ => belowe_of' (.refl _) (fun a h => by cases h)
  | .un _ _, _ => belowe_of' (.refl _) (fun a h => by cases h)
  | .cast _ _, _ => belowe_of' (.refl _) (fun a h => by cases h)

/-! ### statements -/

omit hc

/-- for statements: the scopes are those there were -/
def BelowS (S : Fail → Prop) (d : Nat) (x y : W (State × IRes)) : Prop :=
  Below S (fun r => r.1.vars.length = d) (fun r f => r.2 = .fail f) x y

theorem belows_into {α : Type} {G : α → Prop} {x y : E α} (h : BelowE S G x y) (st : State) {d : Nat} (hd : st.vars.length = d)
    {k k' : α → W (State × IRes)} (hk : ∀ a, G a → BelowS S d (k a) (k' a)) : BelowS S d (x.intoW st k) (y.intoW st k') := by
  refine below_bind (α := R α) (fun r hr => ?_) (fun r e hS he hr => ?_) h
  · cases r with
    | ok a => exact hk a (hr a rfl)
    | error e => exact .ret hd
  · subst he
    exact ⟨(st, .fail e), e, hS, rfl, hd, rfl⟩

theorem belows_ret {st : State} {r : IRes} : BelowS S st.vars.length (.ret (st, r)) (.ret (st, r)) := .ret rfl

theorem write_length' (st : State) (s : Str) : (st.write s).1.vars = st.vars := by
  unfold State.write; split <;> rfl

theorem belows_write (st : State) (s : Str) : BelowS S st.vars.length (st.writeW s) (st.writeW s) :=
  .wrote _ (.ret (by rw [write_length']))

include hc in
theorem belows_assign (st : State) (l r : Expr) :
    BelowS S st.vars.length (evalAssignT cfg st l r).asW (evalAssignT cfg' st l r).asW := by
  unfold evalAssignT
  rw [asW_into, asW_into]
  refine belows_into (belowe_expr hc st r) st rfl fun v _ => ?_
  cases l with
  | ident name =>
    dsimp only
    rw [asW_into]
    exact belows_into (G := fun vs => vs.length = st.vars.length) (belowe_of' (.refl _) fun vs h => insert_length h) st rfl
      fun vs h => .ret h
  | _ =>
    dsimp only
    rw [asW_into, asW_into]
    exact belows_into (belowe_lhs hc st _ _) st rfl fun vs h => .ret h

include hc in
theorem belows_filesystem (st : State) (e : Expr) :
    BelowS S st.vars.length (evalFilesystemT cfg st e).asW (evalFilesystemT cfg' st e).asW := by
  unfold evalFilesystemT
  rw [asW_into, asW_into]
  refine belows_into (belowe_expr hc st e) st rfl fun v _ => ?_
  rw [asW_into]
  refine belows_into belowe_same st rfl fun p _ => ?_
  rw [asW_into]
  have ho : BelowE S anyV (E.opens p) (E.opens p) := .opens p fun _ => .ret fun _ _ => trivial
  exact belows_into ho st rfl fun fs _ => .ret rfl

include hc in
theorem belows_print (st : State) (e : Expr) :
    BelowS S st.vars.length (evalPrintW cfg st e) (evalPrintW cfg' st e) :=
  belows_into (belowe_expr hc st e) st rfl fun v _ => belows_into (belowe_of (apx_printText hc v)) st rfl fun _ _ =>
    belows_write ..

include hc in
theorem belows_exprStmt (st : State) (e : Expr) :
    BelowS S st.vars.length (evalExprStmtW cfg st e) (evalExprStmtW cfg' st e) := by
  refine belows_into (belowe_expr hc st e) st rfl fun v _ => ?_
  rw [hc.interactive]
  cases cfg'.interactive
  · exact belows_ret
  · exact belows_into belowe_same st rfl fun _ _ => belows_write ..

theorem belows_scope (st : State) {body body' : State → W (State × IRes)}
    (h : ∀ st, BelowS S st.vars.length (body st) (body' st)) :
    BelowS S st.vars.length (inScopeW st body) (inScopeW st body') := by
  refine below_bind (fun r hr => .ret ?_) (fun r e hS he hr => ?_) (h { st with vars := st.vars.push })
  · cases hv : r.1.vars with
    | nil => rw [hv] at hr; simp [Vars.push] at hr
    | cons s vs =>
      rw [hv] at hr
      show vs.length = st.vars.length
      simpa [Vars.push] using hr
  · cases hv : r.1.vars with
    | nil => rw [hv] at hr; simp [Vars.push] at hr
    | cons s vs =>
      rw [hv] at hr
      have h1 : vs.length = st.vars.length := by simpa [Vars.push] using hr
      exact ⟨(⟨r.1.sink, vs, r.1.fs⟩, r.2), e, hS, he, h1, rfl⟩

/-- a loop ends when its body fails -/
theorem belows_loop {d : Nat} {k k' : State → W (State × IRes)} (hk : ∀ st, st.vars.length = d → BelowS S d (k st) (k' st))
    {x y : W (State × IRes)} (h : BelowS S d x y) :
    BelowS S d (x.bind fun r => match r with
        | (st', .ok) => k st'
        | (st', .cont) => k st'
        | (st', .brk) => .ret (st', .ok)
        | (st', r) => .ret (st', r))
      (y.bind fun r => match r with
        | (st', .ok) => k' st'
        | (st', .cont) => k' st'
        | (st', .brk) => .ret (st', .ok)
        | (st', r) => .ret (st', r)) := by
  refine below_bind (fun r hr => ?_) (fun r e hS he hr => ?_) h
  · obtain ⟨st', r⟩ := r
    cases r with
    | ok => exact hk st' hr
    | cont => exact hk st' hr
    | _ => exact .ret hr
  · obtain ⟨st', r⟩ := r
    dsimp only at he
    subst he
    exact ⟨_, e, hS, rfl, hr, rfl⟩

theorem belows_while {c c' : State → E Bool} {body body' : State → W (State × IRes)}
    (hcond : ∀ st, BelowE S anyV (c st) (c' st)) (hb : ∀ st, BelowS S st.vars.length (body st) (body' st)) :
    ∀ n n', FinerN S n n' → ∀ st, BelowS S st.vars.length (whileLoopW c body n st) (whileLoopW c' body' n' st)
  | 0, n', hn, st => by
    rcases hn with rfl | ⟨_, hS⟩
    · exact belows_ret
    · exact .stop hS rfl rfl
  | n + 1, 0, hn, st => by
    rcases hn with hn | ⟨hn, _⟩ <;> omega
  | n + 1, n' + 1, hn, st => by
    have hn' : FinerN S n n' := by
      rcases hn with hn | ⟨hn, hS⟩
      · exact .inl (by omega)
      · exact .inr ⟨by omega, hS⟩
    rw [whileLoopW, whileLoopW]
    refine belows_into (hcond st) st rfl fun b _ => ?_
    cases b
    · exact belows_ret
    · refine belows_loop (fun st' h => ?_) (hb st)
      have := belows_while hcond hb n n' hn' st'
      rwa [h] at this

theorem belows_for (name : Str) {body body' : State → W (State × IRes)}
    (hb : ∀ st, BelowS S st.vars.length (body st) (body' st)) :
    ∀ (vs : List Value) (st : State), BelowS S st.vars.length (forLoopW name body vs st) (forLoopW name body' vs st)
  | [], _ => belows_ret
  | v :: vs, st => by
    rw [forLoopW, forLoopW]
    refine belows_into (G := fun vs => vs.length = st.vars.length) (belowe_of' (.refl _) fun vs h => insert_length h) st rfl
      fun w h => ?_
    have h1 := hb { st with vars := w }
    dsimp only at h1
    rw [h] at h1
    refine belows_loop (fun st' h => ?_) h1
    have := belows_for name hb vs st'
    rwa [h] at this

include hc in
theorem belows_evalFor (x range : Expr) {body body' : State → W (State × IRes)}
    (hb : ∀ st, BelowS S st.vars.length (body st) (body' st)) (st : State) :
    BelowS S st.vars.length (evalForW cfg x range body st) (evalForW cfg' x range body' st) := by
  unfold evalForW
  cases x with
  | ident name =>
    exact belows_into (belowe_expr hc st range) st rfl fun _ _ => belows_into belowe_same st rfl fun vs _ =>
      belows_for name hb vs st
  | _ => exact belows_ret

include hc in
mutual
theorem belows_stmt : ∀ (s : Stmt) (st : State), BelowS S st.vars.length (evalStmtW cfg s st) (evalStmtW cfg' s st)
  | .assign l r, st => by rw [evalStmtW, evalStmtW]; exact belows_assign hc st l r
  | .ite c t f, st => by
    rw [evalStmtW, evalStmtW]
    refine belows_scope st fun st => belows_into (belowe_cond hc st c) st rfl fun b _ => ?_
    cases b
    · exact belows_stmts f st
    · exact belows_stmts t st
  | .while c body, st => by
    rw [evalStmtW, evalStmtW]
    exact belows_scope st fun st => belows_while (fun st => belowe_cond hc st c) (fun st => belows_stmts body st) _ _ hc.fuel st
  | .for x r body, st => by
    rw [evalStmtW, evalStmtW]
    exact belows_scope st fun st => belows_evalFor hc x r (fun st => belows_stmts body st) st
  | .brk, st => by rw [evalStmtW, evalStmtW]; exact belows_ret
  | .cont, st => by rw [evalStmtW, evalStmtW]; exact belows_ret
  | .help, st => by rw [evalStmtW, evalStmtW]; exact belows_write ..
  | .quit, st => by rw [evalStmtW, evalStmtW]; exact belows_ret
  | .filesystem e, st => by rw [evalStmtW, evalStmtW]; exact belows_filesystem hc st e
  | .print e, st => by rw [evalStmtW, evalStmtW]; exact belows_print hc st e
  | .expr e, st => by rw [evalStmtW, evalStmtW]; exact belows_exprStmt hc st e
theorem belows_stmts : ∀ (ss : List Stmt) (st : State), BelowS S st.vars.length (evalStmtsW cfg ss st) (evalStmtsW cfg' ss st)
  | [], st => by rw [evalStmtsW, evalStmtsW]; exact belows_ret
  | s :: ss, st => by
    rw [evalStmtsW, evalStmtsW]
    refine below_bind (fun r hr => ?_) (fun r e hS he hr => ?_) (belows_stmt s st)
    · obtain ⟨st', r⟩ := r
      cases r with
      | ok =>
        have := belows_stmts ss st'
        dsimp only at hr
        rwa [hr] at this
      | _ => exact .ret hr
    · obtain ⟨st', r⟩ := r
      dsimp only at he
      subst he
      exact ⟨_, e, hS, rfl, hr, rfl⟩
end

include hc in
theorem below_runtime (rs : RState) (cmd : Str) :
    Below S (fun _ => True) (fun (r : RState × EvalResult) f => r.2 = .fail f) (runtimeEvalW cfg rs cmd) (runtimeEvalW cfg' rs cmd) := by
  unfold runtimeEvalW
  cases parse cmd with
  | none => exact .ret trivial
  | some p =>
    dsimp only
    generalize analyzeStmts p rs.sem = r
    obtain ⟨sem, r⟩ := r
    cases r with
    | error e => exact .ret trivial
    | ok _ =>
      have := below_bind (S := S) (good := fun (r : State × IRes) => r.1.vars.length = rs.ev.vars.length)
        (fails := fun (r : State × IRes) f => r.2 = .fail f) (good' := fun _ : RState × EvalResult => True)
        (fails' := fun (r : RState × EvalResult) f => r.2 = .fail f)
        (f := fun r : State × IRes => .ret ((⟨sem, r.1⟩ : RState), r.2.toEvalResult))
        (g := fun r : State × IRes => .ret ((⟨sem, r.1⟩ : RState), r.2.toEvalResult)) (fun r _ => .ret trivial)
        (fun r e hS he _ => ⟨_, e, hS, by rw [he]; rfl, trivial, rfl⟩) (belows_stmts hc p rs.ev)
      exact this

end

end Btrd
