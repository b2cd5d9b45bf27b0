/-
Expressions in a world that changes: the evaluator that asks and the rules of `Spec/Moments`.
-/
import Verif.Lemmas.Moments

namespace Btrd
open Spec

/-- the program at a moment -/
abbrev Cfg.moment (cfg : Cfg) (ω : Live) (t : Nat) : Cfg := { cfg with host := ω.host t }

abbrev LEv (cfg : Cfg) (ω : Live) := LiveEv ω cfg.wraps (cfg.interactive = true)
abbrev LFails (cfg : Cfg) (ω : Live) := LiveFails ω cfg.wraps (cfg.interactive = true)
abbrev LGot (cfg : Cfg) (ω : Live) := Spec.Got ω cfg.wraps (cfg.interactive = true)
abbrev LWanted (cfg : Cfg) (ω : Live) := Wanted ω cfg.wraps (cfg.interactive = true)

theorem lits_operand {e q : Expr} (hl : Lits e) (hq : q ∈ operands e) : Lits q := by
  cases e with
  | call f args =>
    obtain ⟨h1, h2⟩ := lits_args hl
    rcases List.mem_cons.1 hq with rfl | hq
    · exact h1
    · exact h2 q hq
  | index e i =>
    obtain ⟨h1, h2⟩ := lits_app rfl hl
    simp only [operands, List.mem_cons, List.not_mem_nil, or_false] at hq
    rcases hq with rfl | rfl
    · exact h1
    · exact h2
  | bin op l r =>
    obtain ⟨h1, h2⟩ := lits_app rfl hl
    simp only [operands, List.mem_cons, List.not_mem_nil, or_false] at hq
    rcases hq with rfl | rfl
    · exact h1
    · exact h2
  | paren e => simp only [operands, List.mem_singleton] at hq; subst hq; exact hl
  | field e f => simp only [operands, List.mem_singleton] at hq; subst hq; exact hl
  | un op e => simp only [operands, List.mem_singleton] at hq; subst hq; exact hl
  | cast op e => simp only [operands, List.mem_singleton] at hq; subst hq; exact hl
  | _ => simp [operands] at hq

theorem outline_lits {e : Expr} (he : operands e ≠ []) : Lits (outline e) := by
  cases e with
  | call f args =>
    have : ∀ n k, literalsL ((List.range' k n).map fun i => Expr.ident (slot (i + 1))) = [] := by
      intro n
      induction n with
      | zero => intro k; rfl
      | succ n ih => intro k; rw [List.range'_succ, List.map_cons, literalsL, ih (k + 1)]; rfl
    intro i hi
    simp only [outline, Expr.literals, List.range_eq_range', this, List.append_nil] at hi
    cases hi
  | _ =>
    first
    | exact absurd rfl he
    | (intro i hi; simp [outline, Expr.literals] at hi)

theorem during_good {ω : Live} {σ : State} {t : Nat} {vs : List Value} (h : ∀ v ∈ vs, Good v) :
    GoodVars (during ω σ t vs).vars := by
  intro s hs y w hy
  simp only [during, List.mem_singleton] at hs
  subst hs
  exact h w (List.mem_of_getElem? hy)

/-- the rules of the moment for the operation -/
theorem op_ev (cfg : Cfg) (ω : Live) {σ : State} {t : Nat} {e : Expr} {vs : List Value} (he : operands e ≠ [])
    (hv : ∀ v ∈ vs, Good v) {v : Value} :
    Ev (worldAt ω cfg.wraps (cfg.interactive = true) t) (during ω σ t vs) (outline e) v ↔
      Ev (world (cfg.moment ω t)) (during ω σ t vs) (outline e) v :=
  (ev_alike_iff (alike (cfg.moment ω t)) (during_good hv) (outline_lits he)).symm

theorem op_complains (cfg : Cfg) (ω : Live) {σ : State} {t : Nat} {e : Expr} {vs : List Value} (he : operands e ≠ [])
    (hv : ∀ v ∈ vs, Good v) {m : Option Str} :
    Complains (worldAt ω cfg.wraps (cfg.interactive = true) t) (messagesAt ω cfg.wraps t) (during ω σ t vs) (outline e) m ↔
      Complains (world (cfg.moment ω t)) (complaints (cfg.moment ω t)) (during ω σ t vs) (outline e) m :=
  ⟨fun h => complains_alike (alike (cfg.moment ω t)).symm (alikeC (cfg.moment ω t)).symm (during_good hv) h (outline_lits he),
   fun h => complains_alike (alike (cfg.moment ω t)) (alikeC (cfg.moment ω t)) (during_good hv) h (outline_lits he)⟩

theorem wants_short {e : Expr} {vs : List Value} (h : wants e vs = true) (hn : vs.length ≤ (operands e).length) :
    vs.length < (operands e).length := by
  refine Nat.lt_of_le_of_ne hn fun hc => ?_
  cases e with
  | call f args =>
    match vs, h, hc with
    | .func g :: ws, h, hc =>
      simp only [operands, List.length_cons, Nat.add_right_cancel_iff] at hc
      cases g <;> simp [wants, wantsArg] at h <;> first | omega | (obtain ⟨h1, rfl⟩ := h; simp at hc; omega)
  | index e i => match vs, h, hc with | [.array _ _], _, hc => simp [operands] at hc
  | bin op l r => match vs, h, hc with | [v], _, hc => simp [operands] at hc
  | paren e => match vs, h, hc with | [], _, hc => simp [operands] at hc
  | field e i => match vs, h, hc with | [], _, hc => simp [operands] at hc
  | un op e => match vs, h, hc with | [], _, hc => simp [operands] at hc
  | cast ty e => match vs, h, hc with | [], _, hc => simp [operands] at hc
  | _ => simp [wants] at h

/-- the next operand is wanted, by the rules of the moment, when the program evaluates it -/
theorem wanted_iff (cfg : Cfg) (ω : Live) {σ : State} {t : Nat} {e q : Expr} {vs : List Value} (he : operands e ≠ [])
    (hn : vs.length ≤ (operands e).length) (hv : ∀ v ∈ vs, Good v) :
    LWanted cfg ω σ e t vs q ↔ wants e vs = true ∧ (operands e)[vs.length]? = some q := by
  unfold LWanted Wanted
  rw [op_complains cfg ω he hv]
  constructor
  · rintro ⟨hq, hc⟩
    refine ⟨?_, hq⟩
    have hlt : vs.length < (operands e).length := by
      rw [List.getElem?_eq_some_iff] at hq
      exact hq.1
    cases hw : wants e vs with
    | true => rfl
    | false =>
      exfalso
      have hx := complains_eval hc 0
      rw [outline_eval _ ω σ t he hn cfg.host] at hx
      rcases op_early hw hlt with ⟨v, -, hr⟩ | ⟨er, ht, hr⟩
      · rw [hr _ _ _ (by simp; omega)] at hx
        rcases hx with ⟨er, h1, -⟩ | h1 <;> cases h1
      · rw [hr _ _ _ (by simp; omega)] at hx
        rcases hx with ⟨er', h1, h2⟩ | h1
        · simp only [eoutcome_of, Except.error.injEq, Fail.err.injEq] at h1
          subst h1
          exact ht _ h2
        · cases h1
  · rintro ⟨hw, hq⟩
    refine ⟨hq, ?_⟩
    have hlt := wants_short hw hn
    refine complains_of_eval (cfg.moment ω t) _ _ (.unknownVar (slot vs.length)) ?_
    rw [outline_eval _ ω σ t he hn cfg.host]
    obtain ⟨k, hk⟩ : ∃ k, (operands e).length - vs.length = k + 1 := ⟨(operands e).length - vs.length - 1, by omega⟩
    rw [hk, List.range_succ_eq_map, List.map_cons, Nat.add_zero]
    rw [op_next _ _ hw (by simp; omega), eoutcome_bind]
    rfl

mutual
theorem got_good (cfg : Cfg) (ω : Live) {σ : State} (hσ : GoodVars σ.vars) : ∀ {e : Expr} {t : Nat} {vs : List Value} {t' : Nat},
    LGot cfg ω σ e t vs t' → Lits e → (∀ v ∈ vs, Good v) ∧ vs.length ≤ (operands e).length
  | _, _, _, _, .start => fun _ => ⟨by simp, by simp⟩
  | _, _, _, _, .next hg hw hq => fun hl => by
    obtain ⟨h1, h2⟩ := got_good cfg ω hσ hg hl
    have hv := live_good cfg ω hσ hq (lits_operand hl (List.mem_of_getElem? hw.1))
    refine ⟨fun w hw => ?_, ?_⟩
    · rcases List.mem_append.1 hw with hw | hw
      · exact h1 w hw
      · rw [List.mem_singleton.1 hw]; exact hv
    · have := hw.1
      rw [List.getElem?_eq_some_iff] at this
      simp only [List.length_append, List.length_singleton]
      exact this.1
/-- values stay in range -/
theorem live_good (cfg : Cfg) (ω : Live) {σ : State} (hσ : GoodVars σ.vars) : ∀ {e : Expr} {t : Nat} {v : Value} {t' : Nat},
    LEv cfg ω σ e t v t' → Lits e → Good v
  | _, _, _, _, .atom _ hv => fun hl => ev_good (alike (cfg.moment ω _)).symm hσ hl hv
  | _, _, _, _, .op he hg hv => fun hl =>
    ev_good (alike (cfg.moment ω _)).symm (during_good (got_good cfg ω hσ hg hl).1) (outline_lits he) hv
end

/-! ### what the program does is by the rules -/

/-- what the program does with an expression is by the rules -/
def Sound (cfg : Cfg) (ω : Live) (σ : State) (e : Expr) : Prop := ∀ t t',
  (∀ v, (evalExprT cfg σ e).ends cfg.fuel ω t = (.ok v, t') → LEv cfg ω σ e t v t') ∧
  (∀ er, (evalExprT cfg σ e).ends cfg.fuel ω t = (.error (.err er), t') → LFails cfg ω σ e t er.text)

theorem sound_op (cfg : Cfg) (ω : Live) {σ : State} (hσ : GoodVars σ.vars) {e : Expr} (hl : Lits e) (he : operands e ≠ [])
    (ih : ∀ q ∈ operands e, Sound cfg ω σ q) (t₀ : Nat) : ∀ (post : List Expr) (vs : List Value) (t₁ : Nat),
    (operands e).drop vs.length = post → LGot cfg ω σ e t₀ vs t₁ → ∀ t₂,
    (∀ v, (opT cfg σ.fs e (pures vs ++ post.map (evalExprT cfg σ))).ends cfg.fuel ω t₁ = (.ok v, t₂) →
      LEv cfg ω σ e t₀ v t₂) ∧
    (∀ er, (opT cfg σ.fs e (pures vs ++ post.map (evalExprT cfg σ))).ends cfg.fuel ω t₁ = (.error (.err er), t₂) →
      LFails cfg ω σ e t₀ er.text)
  | post, vs, t₁, hd, hg, t₂ => by
    obtain ⟨hv, hn⟩ := got_good cfg ω hσ hg hl
    have hlen : vs.length + post.length = (operands e).length := by
      have := congrArg List.length hd
      simp only [List.length_drop] at this
      omega
    by_cases hw : wants e vs = true
    · match post, hd, hlen with
      | [], _, hlen => exact absurd (wants_short hw hn) (by simp at hlen; omega)
      | q :: post, hd, hlen =>
        have hq : (operands e)[vs.length]? = some q := by
          rw [← List.head?_drop, hd]; rfl
        have hwq : LWanted cfg ω σ e t₁ vs q := (wanted_iff cfg ω he hn hv).2 ⟨hw, hq⟩
        have hm := List.mem_of_getElem? hq
        simp only [List.map_cons]
        rw [op_next _ _ hw (by simp; simp at hlen; omega)]
        cases hr : (evalExprT cfg σ q).ends cfg.fuel ω t₁ with
        | mk r t₃ =>
          cases r with
          | error f =>
            rw [ends_bind_error hr]
            refine ⟨fun v h => (by cases h), fun er h => ?_⟩
            simp only [Prod.mk.injEq, Except.error.injEq] at h
            rw [h.1] at hr
            exact .operand hg hwq ((ih q hm t₁ t₃).2 er hr)
          | ok w =>
            rw [ends_bind_ok hr]
            have hg' := Spec.Got.next hg hwq ((ih q hm t₁ t₃).1 w hr)
            have := sound_op cfg ω hσ hl he ih t₀ post (vs ++ [w]) t₃ (by
              rw [List.length_append, ← List.drop_drop, hd]; rfl) hg' t₂
            simpa [pures] using this
    · have hw : wants e vs = false := by simpa using hw
      have hnw : ∀ q, ¬ LWanted cfg ω σ e t₁ vs q := fun q h => by
        rw [wanted_iff cfg ω he hn hv, hw] at h; cases h.1
      by_cases hlt : vs.length < (operands e).length
      · have ho := outline_eval (cfg.moment ω t₁) ω σ t₁ he hn cfg.host
        rcases op_early hw hlt with ⟨v, ha, hr⟩ | ⟨er, ht, hr⟩
        · rw [hr _ _ _ (by simpa using hlen)]
          rw [hr _ _ _ (by simp; omega)] at ho
          refine ⟨fun w h => ?_, fun er h => by cases h⟩
          cases h
          have := LiveEv.op he hg ((op_ev cfg ω he hv).2 (ev_of_eval _ _ _ _ ho))
          rw [ha] at this
          exact this
        · rw [hr _ _ _ (by simpa using hlen)]
          rw [hr _ _ _ (by simp; omega)] at ho
          refine ⟨fun w h => (by cases h), fun er h => ?_⟩
          cases h
          exact .op he hg hnw ((op_complains cfg ω he hv).2 (complains_of_eval _ _ _ _ ho))
      · have hfull : vs.length = (operands e).length := by omega
        obtain rfl : post = [] := List.length_eq_zero_iff.1 (by omega)
        have ho := outline_eval (cfg.moment ω t₁) ω σ t₁ he hn cfg.host
        rw [hfull, Nat.sub_self] at ho
        simp only [List.range_zero, List.map_nil, List.append_nil] at ho ⊢
        have hx : opT (cfg.moment ω t₁) = opT cfg := rfl
        rw [hx, ← (op_full cfg σ.fs hfull he ω t₁ cfg.host).1] at ho
        refine ⟨fun w h => ?_, fun er h => ?_⟩
        · have h2 := (op_full cfg σ.fs hfull he ω t₁ cfg.host).2 w (by rw [h])
          rw [h] at ho h2
          dsimp only at h2
          rw [h2]
          exact LiveEv.op he hg ((op_ev cfg ω he hv).2 (ev_of_eval _ _ _ _ ho))
        · rw [h] at ho
          exact .op he hg hnw ((op_complains cfg ω he hv).2 (complains_of_eval _ _ _ _ ho))

theorem operand_size {e q : Expr} (h : q ∈ operands e) : sizeOf q < sizeOf e := by
  cases e with
  | call f args =>
    rcases List.mem_cons.1 h with rfl | h
    · simp; omega
    · have := List.sizeOf_lt_of_mem h
      simp; omega
  | paren e => simp only [operands, List.mem_singleton] at h; subst h; simp
  | field e f => simp only [operands, List.mem_singleton] at h; subst h; simp; omega
  | un op e => simp only [operands, List.mem_singleton] at h; subst h; simp; omega
  | cast ty e => simp only [operands, List.mem_singleton] at h; subst h; simp; omega
  | index e i => simp only [operands, List.mem_cons, List.not_mem_nil, or_false] at h; rcases h with rfl | rfl <;> simp <;> omega
  | bin op l r => simp only [operands, List.mem_cons, List.not_mem_nil, or_false] at h; rcases h with rfl | rfl <;> simp <;> omega
  | _ => simp [operands] at h

theorem evalExprT_atom (cfg : Cfg) (σ : State) {e : Expr} (he : operands e = []) : Quiet (evalExprT cfg σ e) := by
  cases e <;> simp only [operands, reduceCtorEq] at he <;> rw [evalExprT] <;> exact quiet_of _

theorem sound (cfg : Cfg) (ω : Live) {σ : State} (hσ : GoodVars σ.vars) (e : Expr) (hl : Lits e) : Sound cfg ω σ e := by
  intro t t'
  by_cases he : operands e = []
  · rw [quiet_ends (evalExprT_atom cfg σ he) cfg.fuel ω t cfg.fuel cfg.host]
    have ho := evalExprT_outcome (cfg.moment ω t) σ cfg.host e
    refine ⟨fun v h => ?_, fun er h => ?_⟩
    · obtain ⟨h1, rfl⟩ := Prod.mk.inj h
      have h2 : evalExpr (cfg.moment ω t) σ e = .ok v := by rw [← ho, evalExprT_host]; exact h1
      exact .atom he (ev_alike (alike (cfg.moment ω t)) hσ (ev_of_eval _ _ _ _ h2) hl)
    · obtain ⟨h1, rfl⟩ := Prod.mk.inj h
      have h2 : evalExpr (cfg.moment ω t) σ e = .error (.err er) := by rw [← ho, evalExprT_host]; exact h1
      exact .atom he (complains_alike (alike (cfg.moment ω t)) (alikeC (cfg.moment ω t)) hσ (complains_of_eval _ _ _ _ h2) hl)
  · rw [evalExprT_op cfg σ he]
    exact sound_op cfg ω hσ hl he (fun q hq => sound cfg ω hσ q (lits_operand hl hq)) t (operands e) [] t rfl .start t'
termination_by sizeOf e
decreasing_by exact operand_size hq

/-! ### what the rules say is what the program does, given enough steps -/

/-- the operation at the end -/
theorem op_comes (cfg : Cfg) (ω : Live) {σ : State} {e : Expr} {vs : List Value} (he : operands e ≠ [])
    (hn : vs.length ≤ (operands e).length) (hw : wants e vs = false) (t : Nat) :
    ∃ t', ((opT cfg σ.fs e (pures vs ++ ((operands e).drop vs.length).map (evalExprT cfg σ))).ends cfg.fuel ω t) =
      (evalExpr (cfg.moment ω t) (during ω σ t vs) (outline e), t') ∧
      ∀ v, evalExpr (cfg.moment ω t) (during ω σ t vs) (outline e) = .ok v → t' = t + asks e vs := by
  have ho := outline_eval (cfg.moment ω t) ω σ t he hn cfg.host
  by_cases hlt : vs.length < (operands e).length
  · rcases op_early hw hlt with ⟨v, ha, hr⟩ | ⟨er, ht, hr⟩
    · rw [hr _ _ _ (by simp; omega)] at ho
      rw [hr _ _ _ (by simp; omega), ho]
      exact ⟨t, rfl, fun _ _ => by rw [ha]; rfl⟩
    · rw [hr _ _ _ (by simp; omega)] at ho
      rw [hr _ _ _ (by simp; omega), ho]
      exact ⟨t, rfl, fun v h => by cases h⟩
  · have hfull : vs.length = (operands e).length := by omega
    rw [hfull, Nat.sub_self] at ho
    simp only [List.range_zero, List.map_nil, List.append_nil] at ho
    have hx : opT (cfg.moment ω t) = opT cfg := rfl
    rw [hx, ← (op_full cfg σ.fs hfull he ω t cfg.host).1] at ho
    rw [hfull, List.drop_length, List.map_nil, List.append_nil, ho]
    exact ⟨_, rfl, fun v h => (op_full cfg σ.fs hfull he ω t cfg.host).2 v h⟩

mutual
theorem got_comes (cfg : Cfg) (ω : Live) {σ : State} (hσ : GoodVars σ.vars) : ∀ {e : Expr} {t : Nat} {vs : List Value} {t' : Nat},
    LGot cfg ω σ e t vs t' → Lits e → operands e ≠ [] → ∃ n, ∀ m, n ≤ m →
      (evalExprT (cfg.steps m) σ e).ends m ω t =
        (opT (cfg.steps m) σ.fs e (pures vs ++ ((operands e).drop vs.length).map (evalExprT (cfg.steps m) σ))).ends m ω t'
  | e, _, _, _, .start => fun _ he => ⟨0, fun m _ => by rw [evalExprT_op _ _ he]; rfl⟩
  | e, _, _, _, .next hg hw hq => fun hl he => by
    rename_i q vs t₁ v
    obtain ⟨hv, hn⟩ := got_good cfg ω hσ hg hl
    have hwq := (wanted_iff cfg ω he hn hv).1 hw
    obtain ⟨n₁, h₁⟩ := got_comes cfg ω hσ hg hl he
    obtain ⟨n₂, h₂⟩ := ev_comes cfg ω hσ hq (lits_operand hl (List.mem_of_getElem? hw.1))
    refine ⟨max n₁ n₂, fun m hm => ?_⟩
    rw [h₁ m (by omega)]
    have hlt := wants_short hwq.1 hn
    have hd : (operands e).drop vs.length = q :: (operands e).drop (vs.length + 1) := by
      rw [List.drop_eq_getElem_cons hlt]
      have := hwq.2
      rw [List.getElem?_eq_getElem hlt, Option.some.injEq] at this
      rw [this]
    rw [hd, List.map_cons, op_next _ _ hwq.1 (by simp; omega), ends_bind_ok (h₂ m (by omega))]
    simp [pures]
/-- the value that the rules give is what the program finds, given enough steps -/
theorem ev_comes (cfg : Cfg) (ω : Live) {σ : State} (hσ : GoodVars σ.vars) : ∀ {e : Expr} {t : Nat} {v : Value} {t' : Nat},
    LEv cfg ω σ e t v t' → Lits e → ∃ n, ∀ m, n ≤ m → (evalExprT (cfg.steps m) σ e).ends m ω t = (.ok v, t')
  | e, t, v, _, .atom he hv => fun hl => by
    obtain ⟨n, h⟩ := ev_gives (ev_alike (alike (cfg.moment ω t)).symm hσ hv hl)
    refine ⟨n, fun m hm => ?_⟩
    rw [quiet_ends (evalExprT_atom (cfg.steps m) σ he) m ω t m cfg.host]
    have ho := evalExprT_outcome ((cfg.moment ω t).steps m) σ cfg.host e
    rw [h m hm] at ho
    have h2 : evalExprT ((cfg.moment ω t).steps m) σ e = evalExprT (cfg.steps m) σ e := evalExprT_host (cfg.steps m) (ω.host t) σ e
    rw [h2] at ho
    exact congrArg (·, t) ho
  | e, t, v, _, .op he hg hx => fun hl => by
    rename_i vs t₁
    obtain ⟨hv, hn⟩ := got_good cfg ω hσ hg hl
    obtain ⟨n₁, h₁⟩ := got_comes cfg ω hσ hg hl he
    have hx' := (op_ev cfg ω he hv).1 hx
    obtain ⟨n₂, h₂⟩ := ev_gives hx'
    have hw : wants e vs = false := by
      cases hw : wants e vs with
      | false => rfl
      | true =>
        have hlt := wants_short hw hn
        have := (wanted_iff cfg ω (σ := σ) (t := t₁) he hn hv).2 ⟨hw, List.getElem?_eq_getElem hlt⟩
        exact absurd hx' (complains_no_ev ((op_complains cfg ω he hv).1 this.2))
    refine ⟨max n₁ n₂, fun m hm => ?_⟩
    rw [h₁ m (by omega)]
    obtain ⟨t', hr, ht⟩ := op_comes (cfg.steps m) ω (σ := σ) he hn hw t₁
    have h3 : evalExpr ((cfg.steps m).moment ω t₁) (during ω σ t₁ vs) (outline e) = .ok v := h₂ m (by omega)
    rw [h3] at hr
    rw [ht v h3] at hr
    exact hr
end

/-- the message that the rules give is what the program says, given enough steps -/
theorem fails_comes (cfg : Cfg) (ω : Live) {σ : State} (hσ : GoodVars σ.vars) : ∀ {e : Expr} {t : Nat} {m : Option Str},
    LFails cfg ω σ e t m → Lits e →
      ∃ n, ∀ k, n ≤ k → ∃ er t', (evalExprT (cfg.steps k) σ e).ends k ω t = (.error (.err er), t') ∧ er.text = m
  | e, t, m, .atom he hc => fun hl => by
    obtain ⟨er, n, ht, h⟩ := says_complains (complains_alike (alike (cfg.moment ω t)).symm (alikeC (cfg.moment ω t)).symm hσ hc hl)
    refine ⟨n, fun k hk => ⟨er, t, ?_, ht⟩⟩
    rw [quiet_ends (evalExprT_atom (cfg.steps k) σ he) k ω t k cfg.host]
    have ho := evalExprT_outcome ((cfg.moment ω t).steps k) σ cfg.host e
    rw [h k hk] at ho
    have h2 : evalExprT ((cfg.moment ω t).steps k) σ e = evalExprT (cfg.steps k) σ e := evalExprT_host (cfg.steps k) (ω.host t) σ e
    rw [h2] at ho
    exact congrArg (·, t) ho
  | e, t, m, .operand hg hw hq => fun hl => by
    rename_i vs t₁ q
    have he : operands e ≠ [] := fun h => by have := hw.1; rw [h] at this; simp at this
    obtain ⟨hv, hn⟩ := got_good cfg ω hσ hg hl
    have hwq := (wanted_iff cfg ω he hn hv).1 hw
    obtain ⟨n₁, h₁⟩ := got_comes cfg ω hσ hg hl he
    obtain ⟨n₂, h₂⟩ := fails_comes cfg ω hσ hq (lits_operand hl (List.mem_of_getElem? hw.1))
    refine ⟨max n₁ n₂, fun k hk => ?_⟩
    obtain ⟨er, t', hr, ht⟩ := h₂ k (by omega)
    refine ⟨er, t', ?_, ht⟩
    rw [h₁ k (by omega)]
    have hlt := wants_short hwq.1 hn
    have hd : (operands e).drop vs.length = q :: (operands e).drop (vs.length + 1) := by
      rw [List.drop_eq_getElem_cons hlt]
      have := hwq.2
      rw [List.getElem?_eq_getElem hlt, Option.some.injEq] at this
      rw [this]
    rw [hd, List.map_cons, op_next _ _ hwq.1 (by simp; omega), ends_bind_error hr]
  | e, t, m, .op he hg hnw hc => fun hl => by
    rename_i vs t₁
    obtain ⟨hv, hn⟩ := got_good cfg ω hσ hg hl
    obtain ⟨n₁, h₁⟩ := got_comes cfg ω hσ hg hl he
    obtain ⟨er, n₂, ht, h₂⟩ := says_complains ((op_complains cfg ω he hv).1 hc)
    have hw : wants e vs = false := by
      cases hw : wants e vs with
      | false => rfl
      | true =>
        have hlt := wants_short hw hn
        exact absurd ((wanted_iff cfg ω he hn hv).2 ⟨hw, List.getElem?_eq_getElem hlt⟩) (hnw _)
    refine ⟨max n₁ n₂, fun k hk => ?_⟩
    obtain ⟨t', hr, -⟩ := op_comes (cfg.steps k) ω (σ := σ) he hn hw t₁
    have h3 : evalExpr ((cfg.steps k).moment ω t₁) (during ω σ t₁ vs) (outline e) = .error (.err er) := h₂ k (by omega)
    rw [h3] at hr
    refine ⟨er, t', ?_, ht⟩
    rw [h₁ k (by omega)]
    exact hr

/-- the rules are deterministic -/
theorem live_unique (cfg : Cfg) (ω : Live) {σ : State} (hσ : GoodVars σ.vars) {e : Expr} (hl : Lits e) {t : Nat}
    {v v' : Value} {t₁ t₂ : Nat} (h : LEv cfg ω σ e t v t₁) (h' : LEv cfg ω σ e t v' t₂) : v = v' ∧ t₁ = t₂ := by
  obtain ⟨n, hn⟩ := ev_comes cfg ω hσ h hl
  obtain ⟨n', hn'⟩ := ev_comes cfg ω hσ h' hl
  have := hn (max n n') (by omega)
  rw [hn' _ (by omega)] at this
  simp only [Prod.mk.injEq, Except.ok.injEq] at this
  exact ⟨this.1.symm, this.2.symm⟩

theorem live_fails_unique (cfg : Cfg) (ω : Live) {σ : State} (hσ : GoodVars σ.vars) {e : Expr} (hl : Lits e) {t : Nat}
    {m m' : Option Str} (h : LFails cfg ω σ e t m) (h' : LFails cfg ω σ e t m') : m = m' := by
  obtain ⟨n, hn⟩ := fails_comes cfg ω hσ h hl
  obtain ⟨n', hn'⟩ := fails_comes cfg ω hσ h' hl
  obtain ⟨er, t₁, h1, rfl⟩ := hn (max n n') (by omega)
  obtain ⟨er', t₂, h2, rfl⟩ := hn' (max n n') (by omega)
  rw [h2] at h1
  simp only [Prod.mk.injEq, Except.error.injEq, Fail.err.injEq] at h1
  rw [h1.1]

theorem live_not_both (cfg : Cfg) (ω : Live) {σ : State} (hσ : GoodVars σ.vars) {e : Expr} (hl : Lits e) {t : Nat}
    {v : Value} {t₁ : Nat} {m : Option Str} (h : LEv cfg ω σ e t v t₁) : ¬ LFails cfg ω σ e t m := by
  intro h'
  obtain ⟨n, hn⟩ := ev_comes cfg ω hσ h hl
  obtain ⟨n', hn'⟩ := fails_comes cfg ω hσ h' hl
  obtain ⟨er, t₂, h2, rfl⟩ := hn' (max n n') (by omega)
  have := hn (max n n') (by omega)
  rw [h2] at this
  simp at this

end Btrd
