/-
The rules for a world that changes while a program runs (`Spec/Moments`), and the evaluator that asks (`Model/Live`):
the operands of an expression, one after the other.
-/
import Verif.Spec.Moments
import Verif.Lemmas.Live
import Verif.Lemmas.Honest
import Verif.Lemmas.WorldTransfer

namespace Btrd
open Spec

/-! ### computations -/

/-- a computation that may fail, in a live world -/
abbrev E.lives {α : Type} (fuel : Nat) (ω : Live) (x : E α) (t : Nat) : Lived (R α) := T.live fuel ω x t

theorem tbind_assoc {α β γ : Type} (f : α → T β) (g : β → T γ) : ∀ x : T α,
    (x.bind f).bind g = x.bind fun a => (f a).bind g
  | .ret a => rfl
  | .warn w k => by simp only [T.bind]; rw [tbind_assoc f g k]
  | .search fs a k => by simp only [T.bind]; exact congrArg _ (funext fun r => tbind_assoc f g _)
  | .bytes fs i j k => by simp only [T.bind]; exact congrArg _ (funext fun r => tbind_assoc f g _)
  | .opens p k => by simp only [T.bind]; exact congrArg _ (funext fun r => tbind_assoc f g _)

theorem tbind_ret {α : Type} (f : α → T α) (hf : ∀ a, f a = .ret a) : ∀ x : T α, x.bind f = x
  | .ret a => hf a
  | .warn w k => by simp only [T.bind]; rw [tbind_ret f hf k]
  | .search fs a k => by simp only [T.bind]; exact congrArg _ (funext fun r => tbind_ret f hf _)
  | .bytes fs i j k => by simp only [T.bind]; exact congrArg _ (funext fun r => tbind_ret f hf _)
  | .opens p k => by simp only [T.bind]; exact congrArg _ (funext fun r => tbind_ret f hf _)

theorem ebind_assoc {α β γ : Type} (x : E α) (f : α → E β) (g : β → E γ) :
    (x >>= f) >>= g = x >>= fun a => f a >>= g := by
  refine (tbind_assoc (α := R α) (β := R β) (γ := R γ) _ _ x).trans ?_
  refine congrArg (fun k => T.bind (α := R α) (β := R γ) k x) (funext fun r => ?_)
  cases r <;> rfl

theorem ebind_pure {α : Type} (x : E α) : (x >>= fun a => E.of (.ok a)) = x :=
  tbind_ret (α := R α) _ (fun r => by cases r <;> rfl) x

/-- the result and the moment at which it is there -/
def E.ends {α : Type} (fuel : Nat) (ω : Live) (x : E α) (t : Nat) : R α × Nat :=
  ((E.lives fuel ω x t).result, (E.lives fuel ω x t).clock)

theorem ends_of {α : Type} (fuel : Nat) (ω : Live) (r : R α) (t : Nat) : (E.of r).ends fuel ω t = (r, t) := rfl

theorem ends_bind_ok {α β : Type} {fuel : Nat} {ω : Live} {x : E α} {t t₁ : Nat} {a : α} (h : x.ends fuel ω t = (.ok a, t₁))
    (f : α → E β) : (x >>= f).ends fuel ω t = (f a).ends fuel ω t₁ := by
  have hb : E.lives fuel ω (x >>= f) t = _ := live_bind (α := R α) (β := R β) fuel ω _ x t
  obtain ⟨h1, h2⟩ := Prod.mk.inj h
  simp only [E.ends, hb]
  have h1 : (T.live (α := R α) fuel ω x t).result = .ok a := h1
  have h2 : (T.live (α := R α) fuel ω x t).clock = t₁ := h2
  rw [h1, h2]

theorem ends_bind_error {α β : Type} {fuel : Nat} {ω : Live} {x : E α} {t t₁ : Nat} {e : Fail}
    (h : x.ends fuel ω t = (.error e, t₁)) (f : α → E β) : (x >>= f).ends fuel ω t = (.error e, t₁) := by
  have hb : E.lives fuel ω (x >>= f) t = _ := live_bind (α := R α) (β := R β) fuel ω _ x t
  obtain ⟨h1, h2⟩ := Prod.mk.inj h
  simp only [E.ends, hb]
  have h1 : (T.live (α := R α) fuel ω x t).result = .error e := h1
  have h2 : (T.live (α := R α) fuel ω x t).clock = t₁ := h2
  rw [h1, h2]
  rfl

/-- a computation that asks nothing -/
def Quiet {α : Type} (x : E α) : Prop := ∃ r, x = E.of r

theorem quiet_of {α : Type} (r : R α) : Quiet (E.of r) := ⟨r, rfl⟩

theorem quiet_bind {α β : Type} {x : E α} {f : α → E β} (h : Quiet x) (hf : ∀ a, Quiet (f a)) : Quiet (x >>= f) := by
  obtain ⟨r, rfl⟩ := h
  cases r with
  | ok a => exact hf a
  | error e => exact ⟨.error e, rfl⟩

theorem quiet_ends {α : Type} {x : E α} (h : Quiet x) (fuel : Nat) (ω : Live) (t : Nat) (k : Nat) (hh : Host) :
    x.ends fuel ω t = (x.outcome k hh, t) := by
  obtain ⟨r, rfl⟩ := h
  rfl

/-! ### operations -/

/-- what an expression does, given its operands -/
def opT (cfg : Cfg) (fs : Option Fs) : Expr → List (E Value) → E Value
  | .paren _, [x] => x
  | .field _ f, [x] => fieldOpT x f
  | .index _ _, [x, y] => indexOpT x y
  | .call _ _, f :: args => callFnT cfg fs f args
  | .bin op _ _, [x, y] => binopT op x y
  | .un op _, [x] => unopT cfg.build op x
  | .cast ty _, [x] => castOpT cfg.build fs ty x
  | _, _ => E.of R.panic

theorem evalArgsT_map (cfg : Cfg) (st : State) : ∀ es : List Expr, evalArgsT cfg st es = es.map (evalExprT cfg st)
  | [] => by rw [evalArgsT]; rfl
  | e :: es => by rw [evalArgsT, evalArgsT_map cfg st es]; rfl

theorem evalExprT_op (cfg : Cfg) (st : State) {e : Expr} (h : operands e ≠ []) :
    evalExprT cfg st e = opT cfg st.fs e ((operands e).map (evalExprT cfg st)) := by
  cases e <;> simp only [operands, ne_eq, not_true_eq_false] at h <;> rw [evalExprT] <;>
    simp only [operands, opT, List.map_cons, List.map_nil, evalArgsT_map]

/-- the second operand of this operator is looked at, when this is the first -/
def wantsRight : BinOp → Value → Bool
  | .plus, _ => true
  | .eq, _ => true
  | .ne, _ => true
  | .lor, .bool b => !b
  | .lor, _ => false
  | .land, .bool b => b
  | .land, _ => false
  | _, .int _ => true
  | _, _ => false

def Value.isInt : Value → Bool
  | .int _ => true
  | _ => false

/-- the next of `n` arguments of a function is looked at, after these -/
def wantsArg : Function → Nat → List Value → Bool
  | .key, n, vs => n == 4 && decide (vs.length < 4) && vs.all Value.isInt
  | .search, n, vs => n == 2 && decide (vs.length < 2) && vs.all Value.isInt
  | .hist, _, _ => false
  | _, n, vs => n == 1 && vs.isEmpty

/-- the next operand is looked at, after these -/
def wants : Expr → List Value → Bool
  | .index _ _, [.array _ _] => true
  | .bin op _ _, [v] => wantsRight op v
  | .call _ args, .func g :: vs => wantsArg g args.length vs
  | .paren _, [] => true
  | .field _ _, [] => true
  | .index _ _, [] => true
  | .call _ _, [] => true
  | .bin _ _ _, [] => true
  | .un _ _, [] => true
  | .cast _ _, [] => true
  | _, _ => false

/-- operands that are there -/
abbrev pures (vs : List Value) : List (E Value) := vs.map fun v => E.of (.ok v)

theorem intArgsT_next {α : Type} (q : E Value) (post : List (E Value)) (f : List Value → E α) : ∀ (vs : List Value),
    vs.all Value.isInt = true →
    (intArgsT (pures vs ++ q :: post) >>= f) = q >>= fun v => (intArgsT (pures vs ++ E.of (.ok v) :: post) >>= f)
  | [], _ => by
    simp only [pures, List.map_nil, List.nil_append, intArgsT]
    rw [ebind_assoc]
    rfl
  | v :: vs, h => by
    simp only [List.all_cons, Bool.and_eq_true] at h
    have ih := intArgsT_next q post (fun ws => f (v :: ws)) vs h.2
    cases v <;> simp only [Value.isInt, Bool.false_eq_true, false_and] at h
    rename_i i
    have h1 : ∀ args : List (E Value), (intArgsT (E.of (.ok (.int i)) :: args) >>= f) =
        intArgsT args >>= fun ws => f (.int i :: ws) := by
      intro args
      show ((intArgsT args >>= fun vs => E.of (.ok (.int i :: vs))) >>= f) = _
      rw [ebind_assoc]
      rfl
    simp only [pures, List.map_cons, List.cons_append, h1]
    exact ih

/-- the next operand is evaluated -/
theorem op_next (cfg : Cfg) (fs : Option Fs) {e : Expr} {vs : List Value} {q : E Value} {post : List (E Value)}
    (hw : wants e vs = true) (hn : vs.length + (post.length + 1) = (operands e).length) :
    opT cfg fs e (pures vs ++ q :: post) = q >>= fun v => opT cfg fs e (pures vs ++ E.of (.ok v) :: post) := by
  cases e with
  | paren e =>
    match vs, post, hn, hw with
    | [], [], _, _ => exact (ebind_pure q).symm
  | field e f =>
    match vs, post, hn, hw with
    | [], [], _, _ => rfl
  | index e i =>
    match vs, post, hn, hw with
    | [], [y], _, _ => rfl
    | [.array _ _], [], _, _ => rfl
    | [.array _ _], _ :: _, hn, _ => simp [operands] at hn; omega
  | bin op l r =>
    match vs, post, hn, hw with
    | [], [y], _, _ => cases op <;> rfl
    | [.bool true], [], _, hw => cases op <;> first | rfl | cases hw
    | [.bool false], [], _, hw => cases op <;> first | rfl | cases hw
    | [.int _], [], _, hw => cases op <;> first | rfl | cases hw
    | [.str _], [], _, hw => cases op <;> first | rfl | cases hw
    | [.array _ _], [], _, hw => cases op <;> first | rfl | cases hw
    | [.func _], [], _, hw => cases op <;> first | rfl | cases hw
    | [.struct _ _ _], [], _, hw => cases op <;> first | rfl | cases hw
    | [v], _ :: _, hn, _ => simp [operands] at hn; omega
  | un op e =>
    match vs, post, hn, hw with
    | [], [], _, _ => rfl
  | cast ty e =>
    match vs, post, hn, hw with
    | [], [], _, _ => rfl
  | call f args =>
    match vs, hn, hw with
    | [], _, _ => rfl
    | .func g :: vs, hn, hw =>
      simp only [operands, List.length_cons] at hn
      have hl : ∀ q : E Value, (pures vs ++ q :: post).length = args.length := by
        intro q; simp only [List.length_append, List.length_map, List.length_cons]; omega
      cases g with
      | key =>
        simp only [wants, wantsArg, Bool.and_eq_true, beq_iff_eq, decide_eq_true_eq] at hw
        have h1 : ∀ q : E Value, opT cfg fs (.call f args) (pures (.func .key :: vs) ++ q :: post) =
            intArgsT (pures vs ++ q :: post) >>= fun vals => E.of (keyFn cfg.build (vals.map .ok)) := by
          intro q
          show keyFnT cfg.build (pures vs ++ q :: post) = _
          unfold keyFnT
          rw [hl q, hw.1.1]
          rfl
        rw [h1, intArgsT_next q post _ vs hw.2]
        simp only [h1]
      | search =>
        simp only [wants, wantsArg, Bool.and_eq_true, beq_iff_eq, decide_eq_true_eq] at hw
        match vs, post, hn, hw with
        | [], [y], _, _ => rfl
        | [.int _], [], _, _ => rfl
        | [v], [], _, hw => cases v <;> first | rfl | (simp [Value.isInt] at hw)
        | [], [], hn, hw => simp at hn; omega
        | [], _ :: _ :: _, hn, hw => simp at hn; omega
        | [_], _ :: _, hn, hw => simp at hn; omega
        | _ :: _ :: _, _, hn, hw => simp at hw; omega
      | hist => simp [wants, wantsArg] at hw
      | typeOf =>
        simp only [wants, wantsArg, Bool.and_eq_true, beq_iff_eq] at hw
        match vs, post, hn, hw with
        | [], [], _, _ => rfl
        | [], _ :: _, hn, hw => simp at hn; omega
        | _ :: _, _, hn, hw => simp at hw
      | keyOf =>
        simp only [wants, wantsArg, Bool.and_eq_true, beq_iff_eq] at hw
        match vs, post, hn, hw with
        | [], [], _, _ => rfl
        | [], _ :: _, hn, hw => simp at hn; omega
        | _ :: _, _, hn, hw => simp at hw
      | len =>
        simp only [wants, wantsArg, Bool.and_eq_true, beq_iff_eq] at hw
        match vs, post, hn, hw with
        | [], [], _, _ => rfl
        | [], _ :: _, hn, hw => simp at hn; omega
        | _ :: _, _, hn, hw => simp at hw
      | str =>
        simp only [wants, wantsArg, Bool.and_eq_true, beq_iff_eq] at hw
        match vs, post, hn, hw with
        | [], [], _, _ => rfl
        | [], _ :: _, hn, hw => simp at hn; omega
        | _ :: _, _, hn, hw => simp at hw
  | _ => simp [operands] at hn

theorem intArgsT_stop : ∀ ws : List Value, ws.all Value.isInt = false → ∃ v : Value, ∀ (post : List (E Value)) {α : Type}
    (f : List Value → E α), (intArgsT (pures ws ++ post) >>= f) = E.of (.error (.err (.typeMismatch s!' "integer" v.shortDisplay)))
  | [], h => by simp at h
  | v :: ws, h => by
    by_cases hv : v.isInt = true
    · obtain ⟨w, hw⟩ := intArgsT_stop ws (by simpa [hv] using h)
      refine ⟨w, fun post α f => ?_⟩
      cases v <;> simp only [Value.isInt, Bool.false_eq_true] at hv
      rename_i i
      refine Eq.trans ?_ (hw post fun ws => f (.int i :: ws))
      show ((intArgsT (pures ws ++ post) >>= fun vs => E.of (.ok (.int i :: vs))) >>= f) = _
      rw [ebind_assoc]
      rfl
    · refine ⟨v, fun post α f => ?_⟩
      cases v <;> first | rfl | exact absurd rfl hv

theorem one_wrong {g : Function} {f : Expr} {args : List Expr} {ws : List Value} {n : Nat}
    (hw : wants (.call f args) (.func g :: ws) = false)
    (hg : wants (.call f args) (.func g :: ws) = (args.length == 1 && ws.isEmpty)) (hn : ws.length < args.length)
    (h : n = args.length) : n ≠ 1 := by
  rintro rfl
  rw [hg, ← h] at hw
  cases ws with
  | nil => cases hw
  | cons => simp at hn; omega

theorem arg1T_stop {α : Type} {msg : Str} {args : List (E Value)} (h : args.length ≠ 1) (f : Value → E α) :
    (arg1T msg args >>= f) = E.of (.error (.err (.argCount msg))) := by
  unfold arg1T
  rw [show (args.length == 1) = false from beq_false_of_ne h]
  rfl

/-- the result is there before all operands are -/
theorem op_early {e : Expr} {vs : List Value} (hw : wants e vs = false) (hn : vs.length < (operands e).length) :
    (∃ v, asks e vs = 0 ∧ ∀ cfg fs post, vs.length + post.length = (operands e).length →
      opT cfg fs e (pures vs ++ post) = E.of (.ok v)) ∨
    ∃ er : Err, (∀ i, er.text ≠ missing i) ∧ ∀ cfg fs post, vs.length + post.length = (operands e).length →
      opT cfg fs e (pures vs ++ post) = E.of (.error (.err er)) := by
  have hmis : ∀ (want : Str) (v : Value) (i : Nat), (Err.typeMismatch want v.shortDisplay).text ≠ missing i := by
    intro want v i
    simp [Err.text, missing]
  cases e with
  | index e i =>
    match vs, hw, hn with
    | [v], hw, _ =>
      refine .inr ⟨.typeMismatch s!' "array" v.shortDisplay, hmis _ v, ?_⟩
      intro cfg fs post hp
      obtain ⟨y, rfl⟩ := List.length_eq_one_iff.1 (show post.length = 1 by simpa [operands, Nat.add_comm] using hp)
      cases v <;> first | rfl | cases hw
    | _ :: _ :: _, _, hn => simp [operands] at hn; omega
  | bin op l r =>
    match vs, hw, hn with
    | [v], hw, _ =>
      have hp1 : ∀ post : List (E Value), [v].length + post.length = (operands (.bin op l r)).length → ∃ y, post = [y] :=
        fun post hp => List.length_eq_one_iff.1 (show post.length = 1 by simpa [operands, Nat.add_comm] using hp)
      by_cases hb : ∃ b, v = .bool b ∧ (op = .lor ∨ op = .land)
      · obtain ⟨b, rfl, ho⟩ := hb
        refine .inl ⟨.bool b, rfl, fun cfg fs post hp => ?_⟩
        obtain ⟨y, rfl⟩ := hp1 post hp
        rcases ho with rfl | rfl <;> cases b <;> first | rfl | cases hw
      · by_cases ho : op = .lor ∨ op = .land
        · refine .inr ⟨.typeMismatch s!' "boolean" v.shortDisplay, hmis _ v, fun cfg fs post hp => ?_⟩
          obtain ⟨y, rfl⟩ := hp1 post hp
          have hv : ∀ b, v ≠ .bool b := fun b hv => hb ⟨b, hv, ho⟩
          rcases ho with rfl | rfl <;> cases v <;> first | rfl | exact absurd rfl (hv _)
        · refine .inr ⟨.typeMismatch s!' "integer" v.shortDisplay, hmis _ v, fun cfg fs post hp => ?_⟩
          obtain ⟨y, rfl⟩ := hp1 post hp
          cases op <;> first
            | (exfalso; revert ho; decide)
            | cases hw
            | (cases v <;> first | rfl | cases hw)
    | _ :: _ :: _, _, hn => simp [operands] at hn; omega
  | call f args =>
    match vs, hw, hn with
    | fv :: ws, hw, hn =>
      simp only [operands, List.length_cons, Nat.add_lt_add_iff_right] at hn
      by_cases hf : ∃ g, fv = .func g
      · obtain ⟨g, rfl⟩ := hf
        have hal : ∀ post : List (E Value), (Value.func g :: ws).length + post.length = (operands (.call f args)).length →
            (pures ws ++ post).length = args.length := by
          intro post hp
          simp only [operands, List.length_cons] at hp
          simp only [List.length_append, List.length_map]; omega
        have hcount : ∀ msg : Str, msg.head? ≠ some 'U' → ∀ i, (Err.argCount msg).text ≠ missing i := by
          intro msg hm i h
          simp only [Err.text, missing, Option.some.injEq] at h
          rw [h] at hm
          exact hm rfl
        cases g with
        | key =>
          by_cases h4 : args.length = 4
          · have hall : ws.all Value.isInt = false := by
              simp only [wants, wantsArg, h4] at hw
              have : decide (ws.length < 4) = true := by simp; omega
              rw [this] at hw
              simpa using hw
            obtain ⟨v, hv⟩ := intArgsT_stop ws hall
            refine .inr ⟨_, hmis s!' "integer" v, fun cfg fs post hp => ?_⟩
            show keyFnT cfg.build (pures ws ++ post) = _
            unfold keyFnT
            rw [hal post hp, h4]
            exact hv post _
          · refine .inr ⟨.argCount s!' "'key()' requires 4 arguments", hcount _ (by decide), fun cfg fs post hp => ?_⟩
            show keyFnT cfg.build (pures ws ++ post) = _
            unfold keyFnT
            rw [hal post hp, show (args.length == 4) = false from beq_false_of_ne h4]
            rfl
        | search =>
          by_cases h2 : args.length = 2
          · match ws, hn, hw with
            | [], _, hw => simp [wants, wantsArg, h2] at hw
            | [v], _, hw =>
              have hv : v.isInt = false := by simpa [wants, wantsArg, h2] using hw
              refine .inr ⟨_, hmis s!' "integer" v, fun cfg fs post hp => ?_⟩
              obtain ⟨y, rfl⟩ := List.length_eq_one_iff.1 (show post.length = 1 by
                simp only [operands, List.length_cons, List.length_nil] at hp; omega)
              cases v <;> first | rfl | cases hv
            | _ :: _ :: _, hn, _ => simp at hn; omega
          · refine .inr ⟨.argCount s!' "'search()' requires 2 arguments", hcount _ (by decide), fun cfg fs post hp => ?_⟩
            show searchFnT cfg.build fs (pures ws ++ post) = _
            unfold searchFnT
            rw [hal post hp, show (args.length == 2) = false from beq_false_of_ne h2]
            rfl
        | hist =>
          refine .inr ⟨.argCount s!' "'hist()' takes no arguments", hcount _ (by decide), fun cfg fs post hp => ?_⟩
          have := hal post hp
          match hq : pures ws ++ post with
          | [] => rw [hq] at this; simp only [List.length_nil] at this; omega
          | a :: as =>
            have h1 : opT cfg fs (.call f args) (pures (.func .hist :: ws) ++ post) =
              opT cfg fs (.call f args) (E.of (.ok (.func .hist)) :: (pures ws ++ post)) := rfl
            rw [h1, hq]
            rfl
        | typeOf =>
          refine .inr ⟨_, hcount s!' "'typeof()' requires 1 argument" (by decide), fun cfg fs post hp => ?_⟩
          exact arg1T_stop (one_wrong hw (by simp [wants, wantsArg]) hn (hal post hp)) _
        | keyOf =>
          refine .inr ⟨_, hcount s!' "'keyof()' requires 1 argument" (by decide), fun cfg fs post hp => ?_⟩
          exact arg1T_stop (one_wrong hw (by simp [wants, wantsArg]) hn (hal post hp)) _
        | len =>
          refine .inr ⟨_, hcount s!' "'len()' requires 1 argument" (by decide), fun cfg fs post hp => ?_⟩
          exact arg1T_stop (one_wrong hw (by simp [wants, wantsArg]) hn (hal post hp)) _
        | str =>
          refine .inr ⟨_, hcount s!' "str() requires 1 argument" (by decide), fun cfg fs post hp => ?_⟩
          exact arg1T_stop (one_wrong hw (by simp [wants, wantsArg]) hn (hal post hp)) _
      · refine .inr ⟨.typeMismatch s!' "function" fv.shortDisplay, hmis _ fv, fun cfg fs post _ => ?_⟩
        cases fv <;> first | rfl | exact absurd ⟨_, rfl⟩ hf
  | paren e =>
    match vs, hw, hn with
    | _ :: _, _, hn => simp [operands] at hn
  | field e f =>
    match vs, hw, hn with
    | _ :: _, _, hn => simp [operands] at hn
  | un op e =>
    match vs, hw, hn with
    | _ :: _, _, hn => simp [operands] at hn
  | cast ty e =>
    match vs, hw, hn with
    | _ :: _, _, hn => simp [operands] at hn
  | _ => simp [operands] at hn

theorem length_two {α : Type} : ∀ {l : List α}, l.length = 2 → ∃ a b, l = [a, b]
  | [a, b], _ => ⟨a, b, rfl⟩

theorem quiet_args : ∀ ws : List Value, Quiet (intArgsT (pures ws))
  | [] => quiet_of _
  | _ :: ws => quiet_bind (quiet_of _) fun _ => quiet_bind (quiet_of _) fun _ => quiet_bind (quiet_args ws) fun _ => quiet_of _

/-- a computation that asks nothing, but may warn -/
def Mild {α : Type} (x : E α) : Prop := ∀ fuel ω t k h, x.ends fuel ω t = (x.outcome k h, t)

theorem Quiet.mild {α : Type} {x : E α} (hx : Quiet x) : Mild x := fun fuel ω t k h => quiet_ends hx fuel ω t k h

theorem mild_bind {α β : Type} {x : E α} {f : α → E β} (hx : Mild x) (hf : ∀ a, Mild (f a)) : Mild (x >>= f) := by
  intro fuel ω t k h
  have h1 := hx fuel ω t k h
  rw [eoutcome_bind]
  cases hr : x.outcome k h with
  | ok a =>
    rw [hr] at h1
    rw [ends_bind_ok h1]
    exact hf a fuel ω t k h
  | error e =>
    rw [hr] at h1
    rw [ends_bind_error h1]
    rfl

theorem mild_decode (b : Build) (its : List Item) : Mild (decodeItemsT b its) := by
  intro fuel ω t k h
  rw [decodeItemsT_outcome, decodeItemsT_eq]
  have := warns_live (α := R (List Value)) fuel ω (.ret (decodeItems b its)) t (heard b its)
  simp only [E.ends, E.lives]
  rw [this]
  rfl

/-- the first, from moment `t` on, gives what the second gives in a world that does not change, and asks `n` times
when it gives a value -/
def Acts {α : Type} (fuel : Nat) (ω : Live) (t : Nat) (h : Host) (n : Nat) (x y : E α) : Prop :=
  (x.ends fuel ω t).1 = y.outcome fuel h ∧ ∀ v, (x.ends fuel ω t).1 = .ok v → (x.ends fuel ω t).2 = t + n

section
variable {fuel : Nat} {ω : Live} {t : Nat} {h : Host} {n : Nat}

theorem acts_error {α : Type} (e : Fail) : Acts (α := α) fuel ω t h n (E.of (.error e)) (E.of (.error e)) :=
  ⟨rfl, fun v hv => by cases hv⟩

theorem acts_bind {α β : Type} (r : R α) {f g : α → E β} (hf : ∀ a, r = .ok a → Acts fuel ω t h n (f a) (g a)) :
    Acts fuel ω t h n (E.of r >>= f) (E.of r >>= g) := by
  cases r with
  | ok a => exact hf a rfl
  | error e => exact acts_error e

theorem acts_mild {α : Type} {x : E α} (hx : Mild x) : Acts fuel ω t h 0 x x := by
  unfold Acts
  rw [hx fuel ω t fuel h]
  exact ⟨rfl, fun _ _ => rfl⟩

theorem acts_ask {α β : Type} {x y : E α} {f : α → E β} (hx : x.ends fuel ω t = (y.outcome fuel h, t + 1))
    (hf : ∀ a, Mild (f a)) : Acts fuel ω t h 1 (x >>= f) (y >>= f) := by
  unfold Acts
  rw [eoutcome_bind]
  cases hr : y.outcome fuel h with
  | ok a =>
    rw [hr] at hx
    rw [ends_bind_ok hx, hf a fuel ω (t + 1) fuel h]
    exact ⟨rfl, fun _ _ => rfl⟩
  | error e =>
    rw [hr] at hx
    rw [ends_bind_error hx]
    exact ⟨rfl, fun v hv => by cases hv⟩

theorem ends_bytes (fs : Fs) (i j : Nat) :
    (E.bytes fs i j).ends fuel ω t = ((E.bytes (ω.drift t fs) i j).outcome fuel h, t + 1) := rfl

theorem ends_search (fs : Fs) (a : SearchArgs) :
    (E.search fs a).ends fuel ω t = ((E.search (ω.drift t fs) a).outcome fuel h, t + 1) := rfl

theorem ends_opens (p : Str) : (E.opens p).ends fuel ω t = (Fs.new (ω.host t) p, t + 1) := rfl

end

theorem cast_acts (b : Build) (fs : Option Fs) (ty : Expr) (v : Value) (fuel : Nat) (ω : Live) (t : Nat) (h : Host) :
    Acts fuel ω t h 1 (castOpT b fs ty (E.of (.ok v))) (castOpT b (fs.map (ω.drift t)) ty (E.of (.ok v))) := by
  unfold castOpT
  refine acts_bind _ fun x _ => acts_bind _ fun p _ => ?_
  by_cases hp : p < 0
  · simp only [hp, if_true]
    exact acts_error _
  · simp only [hp, if_false]
    cases ty with
    | ident name =>
      dsimp only
      cases findStruct name with
      | none => exact acts_error _
      | some s =>
        cases fs with
        | none => exact acts_error _
        | some fs =>
          refine acts_bind _ fun stop _ => acts_ask (ends_bytes fs _ _) fun bytes => ?_
          exact mild_bind (quiet_of _).mild fun sv => (quiet_of _).mild
    | _ => exact acts_error _

theorem search_acts (b : Build) (fs : Option Fs) (ws : List Value) (fuel : Nat) (ω : Live) (t : Nat) (h : Host) :
    Acts fuel ω t h 1 (searchFnT b fs (pures ws)) (searchFnT b (fs.map (ω.drift t)) (pures ws)) := by
  unfold searchFnT
  refine acts_bind _ fun x _ => ?_
  match ws with
  | [] => exact acts_error _
  | [_] => exact acts_error _
  | _ :: _ :: _ :: _ => exact acts_error _
  | [v, w] =>
    show Acts fuel ω t h 1 (E.of (.ok v) >>= _) (E.of (.ok v) >>= _)
    refine acts_bind _ fun v0 _ => acts_bind _ fun tree _ => acts_bind _ fun v1 _ => acts_bind _ fun key _ =>
      acts_bind _ fun _ _ => ?_
    cases fs with
    | none => exact acts_error _
    | some fs =>
      refine acts_bind _ fun sa _ => acts_ask (ends_search fs sa) fun its => ?_
      exact mild_bind (mild_decode b its) fun vs => (quiet_of _).mild

/-- with all operands there -/
theorem op_full (cfg : Cfg) (fs : Option Fs) {e : Expr} {vs : List Value} (hn : vs.length = (operands e).length)
    (he : operands e ≠ []) (ω : Live) (t : Nat) (h : Host) :
    Acts cfg.fuel ω t h (asks e vs) (opT cfg fs e (pures vs)) (opT cfg (fs.map (ω.drift t)) e (pures vs)) := by
  have quiet : ∀ fs' : Option Fs, Quiet (opT cfg fs e (pures vs)) →
      opT cfg fs' e (pures vs) = opT cfg fs e (pures vs) → asks e vs = 0 →
      Acts cfg.fuel ω t h (asks e vs) (opT cfg fs e (pures vs)) (opT cfg fs' e (pures vs)) := by
    intro fs' hq hs ha
    rw [hs, ha]
    exact acts_mild hq.mild
  cases e with
  | paren e =>
    obtain ⟨v, rfl⟩ := List.length_eq_one_iff.1 (show vs.length = 1 from hn)
    exact quiet _ (quiet_of _) rfl rfl
  | field e f =>
    obtain ⟨v, rfl⟩ := List.length_eq_one_iff.1 (show vs.length = 1 from hn)
    exact quiet _ (quiet_of _) rfl rfl
  | un op e =>
    obtain ⟨v, rfl⟩ := List.length_eq_one_iff.1 (show vs.length = 1 from hn)
    exact quiet _ (quiet_of _) rfl rfl
  | index e i =>
    obtain ⟨v, w, rfl⟩ := length_two (show vs.length = 2 from hn)
    exact quiet _ (quiet_bind (quiet_of _) fun _ => quiet_bind (quiet_of _) fun _ => quiet_bind (quiet_of _) fun _ =>
      quiet_bind (quiet_of _) fun _ => quiet_bind (quiet_of _) fun _ => quiet_of _) rfl rfl
  | bin op l r =>
    obtain ⟨v, w, rfl⟩ := length_two (show vs.length = 2 from hn)
    refine quiet _ ?_ rfl rfl
    have hi : ∀ f, Quiet (intOpT f (E.of (.ok v)) (E.of (.ok w))) := fun f =>
      quiet_bind (quiet_of _) fun _ => quiet_bind (quiet_of _) fun _ => quiet_bind (quiet_of _) fun _ =>
        quiet_bind (quiet_of _) fun _ => quiet_of _
    cases op <;> first
      | exact hi _
      | exact quiet_bind (quiet_of _) fun _ => quiet_bind (quiet_of _) fun _ => quiet_of _
      | (refine quiet_bind (quiet_of _) fun _ => quiet_bind (quiet_of _) fun b => ?_
         split
         · exact quiet_of _
         · exact quiet_bind (quiet_of _) fun _ => quiet_bind (quiet_of _) fun _ => quiet_of _)
  | cast ty e =>
    obtain ⟨v, rfl⟩ := List.length_eq_one_iff.1 (show vs.length = 1 from hn)
    exact cast_acts cfg.build fs ty v cfg.fuel ω t h
  | call f args =>
    match vs, hn with
    | fv :: ws, hn =>
      by_cases hf : ∃ g, fv = .func g
      · obtain ⟨g, rfl⟩ := hf
        have one : ∀ (msg : Str) (k : Value → R Value), Quiet (arg1T msg (pures ws) >>= fun v => E.of (k v)) := by
          intro msg k
          refine quiet_bind (quiet_bind (quiet_of _) fun _ => ?_) fun _ => quiet_of _
          match ws with
          | [] => exact quiet_of _
          | [_] => exact quiet_of _
          | _ :: _ :: _ => exact quiet_of _
        cases g with
        | search => exact search_acts cfg.build fs ws cfg.fuel ω t h
        | key =>
          have hk : Quiet (keyFnT cfg.build (pures ws)) :=
            quiet_bind (quiet_of _) fun _ => quiet_bind (quiet_args ws) fun _ => quiet_of _
          exact quiet _ hk rfl rfl
        | hist =>
          have hk : Quiet (E.of (ensure (pures ws).isEmpty (.argCount s!' "'hist()' takes no arguments")) >>= fun _ =>
            E.of (histFn [])) := quiet_bind (quiet_of _) fun _ => quiet_of _
          exact quiet _ hk rfl rfl
        | typeOf => exact quiet _ (one _ _) rfl rfl
        | keyOf => exact quiet _ (one _ _) rfl rfl
        | len => exact quiet _ (one _ _) rfl rfl
        | str => exact quiet _ (one _ _) rfl rfl
      · cases fv <;> first | exact quiet _ (quiet_of _) rfl rfl | exact absurd ⟨_, rfl⟩ hf
  | _ => exact absurd rfl he

/-! ### the rules for a fixed moment -/

/-- an operand that is not known -/
abbrev unknownOp (i : Nat) : E Value := E.of (.error (.err (.unknownVar (slot i))))

theorem slot_length (i : Nat) : (slot i).length = i := List.length_replicate ..

theorem during_slot (cfg : Cfg) (ω : Live) (σ : State) (t : Nat) (vs : List Value) (i : Nat) :
    evalExprT cfg (during ω σ t vs) (.ident (slot i)) = match vs[i]? with
      | some v => E.of (.ok v)
      | none => unknownOp i := by
  rw [evalExprT]
  have hg : (during ω σ t vs).vars.get (slot i) = vs[i]? := by
    have hh : holding vs (slot i) = vs[i]? := by simp [holding, slot_length]
    show Vars.get [holding vs] (slot i) = _
    cases hi : vs[i]? with
    | some v => simp [Vars.get, hh, hi]
    | none => simp [Vars.get, hh, hi]
  rw [hg]
  cases vs[i]? <;> rfl

theorem outline_operands {e : Expr} (he : operands e ≠ []) :
    operands (outline e) = (List.range (operands e).length).map fun i => .ident (slot i) := by
  cases e with
  | call f args =>
    simp only [outline, operands, List.length_cons]
    rw [List.range_succ_eq_map]
    simp only [List.map_cons, List.map_map, List.cons.injEq]
    exact ⟨trivial, rfl⟩
  | _ => first | rfl | exact absurd rfl he

theorem slots_map (cfg : Cfg) (ω : Live) (σ : State) (t : Nat) (vs : List Value) (n : Nat) (hn : vs.length ≤ n) :
    ((List.range n).map fun i => Expr.ident (slot i)).map (evalExprT cfg (during ω σ t vs)) =
      pures vs ++ (List.range (n - vs.length)).map fun i => unknownOp (vs.length + i) := by
  apply List.ext_getElem
  · simp; omega
  · intro i h1 h2
    simp only [List.length_map, List.length_range] at h1
    simp only [List.getElem_map, List.getElem_range, during_slot]
    by_cases hi : i < vs.length
    · rw [List.getElem_append_left (by simpa using hi), List.getElem?_eq_getElem hi]
      simp
    · rw [List.getElem_append_right (by simpa using Nat.le_of_not_lt hi), List.getElem?_eq_none (by omega)]
      simp only [List.length_map, List.getElem_map, List.getElem_range]
      congr
      omega

theorem op_outline (cfg : Cfg) (fs : Option Fs) (e : Expr) (ops : List (E Value)) : opT cfg fs (outline e) ops = opT cfg fs e ops := by
  cases e <;> first | rfl | (rcases ops with _ | ⟨a, _ | ⟨b, _ | ⟨c, r⟩⟩⟩ <;> rfl)

/-- the rules of the moment are about the operation -/
theorem outline_eval (cfg : Cfg) (ω : Live) (σ : State) (t : Nat) {e : Expr} {vs : List Value} (he : operands e ≠ [])
    (hn : vs.length ≤ (operands e).length) (h : Host) :
    evalExpr cfg (during ω σ t vs) (outline e) = (opT cfg (σ.fs.map (ω.drift t)) e
      (pures vs ++ (List.range ((operands e).length - vs.length)).map fun i => unknownOp (vs.length + i))).outcome cfg.fuel h := by
  rw [← evalExprT_outcome cfg _ h]
  have ho := outline_operands he
  have he' : operands (outline e) ≠ [] := by
    rw [ho]
    intro hc
    have := congrArg List.length hc
    simp only [List.length_map, List.length_range, List.length_nil] at this
    exact he (List.length_eq_zero_iff.1 this)
  rw [evalExprT_op cfg _ he', ho, slots_map cfg ω σ t vs _ hn]
  rw [op_outline]
  rfl

end Btrd
