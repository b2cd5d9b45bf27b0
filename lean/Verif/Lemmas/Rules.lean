/-
The evaluator against the rules of `Spec/Rules`: expressions and assignment targets.
-/
import Verif.Spec.Rules
import Verif.Props.Steps
import Verif.Props.Scopes
import Verif.Props.Arith
import Verif.Props.Builtins
import Verif.Props.Display
import Verif.Props.Reflect
import Verif.Props.Scripts

namespace Btrd
open Spec

/-- the world of the rules, as the code has it -/
def world (cfg : Cfg) : World where
  search fs tree key v := ∃ n, searchFn (cfg.steps n) fs [.ok (.int tree), .ok key] = .ok v
  cast fs name p v := castOp cfg.build fs (.ident name) (.ok (.int p)) = .ok v
  opens path fs := Fs.new cfg.host path = .ok fs
  diagram xs t := ∃ n, asHist cfg.build n xs = .ok t
  shows v t := v.display = .ok t
  wraps := cfg.build.ovfChecks = false
  interactive := cfg.interactive = true

theorem world_steps (cfg : Cfg) (n : Nat) : world (cfg.steps n) = world cfg := rfl

/-! ### operators on values -/

/-- truncated division is the quotient and remainder the rules ask for -/
theorem divides_tdiv {a b : Int} (h0 : b ≠ 0) : Divides a b (a.tdiv b) (a.tmod b) := by
  refine ⟨?_, ?_, ?_, ?_⟩
  · have := Int.mul_tdiv_add_tmod a b; rw [Int.mul_comm] at this; omega
  · rw [Int.natAbs_tmod]; exact Nat.mod_lt _ (by omega)
  · intro h
    rcases Int.lt_or_le 0 a with h' | h'
    · exact h'
    · have := Int.tmod_nonneg (a := -a) b (by omega)
      rw [Int.neg_tmod] at this; omega
  · intro h
    rcases Int.lt_or_le a 0 with h' | h'
    · exact h'
    · have := Int.tmod_nonneg (a := a) b h'
      omega

theorem bin_ints (cfg : Cfg) (st : State) (op : BinOp) (a b : Int) :
    evalExpr cfg st (.bin op (.int a) (.int b)) = binop op (.ok (.int a)) (.ok (.int b)) := by
  simp only [evalExpr]

/-- the rules for integers are what the operators do -/
theorem intOp_rule (cfg : Cfg) (st : State) {op : BinOp} {a b : Int} {v : Value} (h : IntOp op a b v) :
    binop op (.ok (.int a)) (.ok (.int b)) = .ok v := by
  have ha : evalExpr cfg st (.int a) = .ok (.int a) := by rw [evalExpr]
  have hb : evalExpr cfg st (.int b) = .ok (.int b) := by rw [evalExpr]
  rw [← bin_ints cfg st]
  cases h with
  | plus h => rw [C22_add cfg st ha hb, if_pos h]
  | minus h => rw [C22_sub cfg st ha hb, if_pos h]
  | mul h => rw [C22_mul cfg st ha hb, if_pos h]
  | div h0 hd hf => rw [C22_div cfg st ha hb, if_neg h0, ← (C24_unique hd (divides_tdiv h0)).1, if_pos hf]
  | mod h0 hd hf =>
    obtain ⟨h1, h2⟩ := C24_unique hd (divides_tdiv h0)
    rw [C22_rem cfg st ha hb, if_neg h0, ← h1, if_pos hf, h2]
  | band hf hbits =>
    obtain ⟨c, h1, h2, h3⟩ := (C25_bitwise cfg st ha hb).1
    rw [h1, C25_bits_determine h2 hf (fun i hi => by rw [h3 i hi, hbits i hi])]
  | bor hf hbits =>
    obtain ⟨c, h1, h2, h3⟩ := (C25_bitwise cfg st ha hb).2.1
    rw [h1, C25_bits_determine h2 hf (fun i hi => by rw [h3 i hi, hbits i hi])]
  | bxor hf hbits =>
    obtain ⟨c, h1, h2, h3⟩ := (C25_bitwise cfg st ha hb).2.2
    rw [h1, C25_bits_determine h2 hf (fun i hi => by rw [h3 i hi, hbits i hi])]
  | shl hn hf hc =>
    rename_i c k n
    obtain ⟨c', h1, h2, ⟨k', h3⟩, -⟩ := C26_shl_partial cfg st ha hb hn
    rw [h1]
    have : c' = c := by
      unfold Fits at hf h2
      generalize a * 2 ^ n = z at *
      omega
    rw [this]
  | shr hn h1 h2 =>
    rename_i q n
    obtain ⟨q', e, h3, h4⟩ := C26_shr cfg st ha hb hn
    rw [e]
    have hp : (0 : Int) < 2 ^ n := Int.pow_pos (by decide)
    have l1 : q < q' + 1 := by
      rcases Int.lt_or_le q (q' + 1) with h | h
      · exact h
      · have := Int.mul_le_mul_of_nonneg_right h (Int.le_of_lt hp); omega
    have l2 : q' < q + 1 := by
      rcases Int.lt_or_le q' (q + 1) with h | h
      · exact h
      · have := Int.mul_le_mul_of_nonneg_right h (Int.le_of_lt hp); omega
    have : q' = q := by omega
    rw [this]
  | lt => exact (C29_ordering cfg st ha hb).1
  | le => exact (C29_ordering cfg st ha hb).2.1
  | gt => exact (C29_ordering cfg st ha hb).2.2.1
  | ge => exact (C29_ordering cfg st ha hb).2.2.2

/-- operators with a rule of their own -/
def Spec.Special (op : BinOp) : Prop := op = .eq ∨ op = .ne ∨ op = .lor ∨ op = .land

/-- and every result on integers is by a rule -/
theorem rule_intOp (cfg : Cfg) (st : State) {op : BinOp} (hop : ¬ Special op) {a b : Int} {v : Value}
    (h : binop op (.ok (.int a)) (.ok (.int b)) = .ok v) : IntOp op a b v := by
  have ha : evalExpr cfg st (.int a) = .ok (.int a) := by rw [evalExpr]
  have hb : evalExpr cfg st (.int b) = .ok (.int b) := by rw [evalExpr]
  rw [← bin_ints cfg st] at h
  cases op with
  | eq => exact absurd (.inl rfl) hop
  | ne => exact absurd (.inr (.inl rfl)) hop
  | lor => exact absurd (.inr (.inr (.inl rfl))) hop
  | land => exact absurd (.inr (.inr (.inr rfl))) hop
  | plus =>
    rw [C22_add cfg st ha hb] at h
    split at h
    · simp only [Except.ok.injEq] at h; subst h; exact .plus ‹_›
    · simp at h
  | minus =>
    rw [C22_sub cfg st ha hb] at h
    split at h
    · simp only [Except.ok.injEq] at h; subst h; exact .minus ‹_›
    · simp at h
  | mul =>
    rw [C22_mul cfg st ha hb] at h
    split at h
    · simp only [Except.ok.injEq] at h; subst h; exact .mul ‹_›
    · simp at h
  | div =>
    rw [C22_div cfg st ha hb] at h
    by_cases h0 : b = 0
    · rw [if_pos h0] at h; simp at h
    · rw [if_neg h0] at h
      split at h
      · simp only [Except.ok.injEq] at h; subst h; exact .div h0 (divides_tdiv h0) ‹_›
      · simp at h
  | mod =>
    rw [C22_rem cfg st ha hb] at h
    by_cases h0 : b = 0
    · rw [if_pos h0] at h; simp at h
    · rw [if_neg h0] at h
      split at h
      · simp only [Except.ok.injEq] at h; subst h; exact .mod h0 (divides_tdiv h0) ‹_›
      · simp at h
  | band =>
    obtain ⟨c, h1, h2, h3⟩ := (C25_bitwise cfg st ha hb).1
    rw [h1, Except.ok.injEq] at h; subst h; exact .band h2 h3
  | bor =>
    obtain ⟨c, h1, h2, h3⟩ := (C25_bitwise cfg st ha hb).2.1
    rw [h1, Except.ok.injEq] at h; subst h; exact .bor h2 h3
  | bxor =>
    obtain ⟨c, h1, h2, h3⟩ := (C25_bitwise cfg st ha hb).2.2
    rw [h1, Except.ok.injEq] at h; subst h; exact .bxor h2 h3
  | shl =>
    rcases Int.lt_or_le b 0 with hneg | hpos
    · obtain ⟨e, he⟩ := C26_amount cfg st ha hb (.inl hneg) .shl (.inl rfl)
      rw [he] at h; simp at h
    · rcases Int.lt_or_le b 128 with hlt | hge
      · obtain ⟨n, rfl⟩ := Int.eq_ofNat_of_zero_le hpos
        have hn : n < 128 := by omega
        obtain ⟨c, h1, h2, ⟨k, h3⟩, -⟩ := C26_shl_partial cfg st ha hb hn
        rw [h1, Except.ok.injEq] at h; subst h
        exact .shl hn h2 h3
      · obtain ⟨e, he⟩ := C26_amount cfg st ha hb (.inr hge) .shl (.inl rfl)
        rw [he] at h; simp at h
  | shr =>
    rcases Int.lt_or_le b 0 with hneg | hpos
    · obtain ⟨e, he⟩ := C26_amount cfg st ha hb (.inl hneg) .shr (.inr rfl)
      rw [he] at h; simp at h
    · rcases Int.lt_or_le b 128 with hlt | hge
      · obtain ⟨n, rfl⟩ := Int.eq_ofNat_of_zero_le hpos
        have hn : n < 128 := by omega
        obtain ⟨q, h1, h2, h3⟩ := C26_shr cfg st ha hb hn
        rw [h1, Except.ok.injEq] at h; subst h
        exact .shr hn h2 h3
      · obtain ⟨e, he⟩ := C26_amount cfg st ha hb (.inr hge) .shr (.inr rfl)
        rw [he] at h; simp at h
  | lt => rw [(C29_ordering cfg st ha hb).1, Except.ok.injEq] at h; subst h; exact .lt
  | le => rw [(C29_ordering cfg st ha hb).2.1, Except.ok.injEq] at h; subst h; exact .le
  | gt => rw [(C29_ordering cfg st ha hb).2.2.1, Except.ok.injEq] at h; subst h; exact .gt
  | ge => rw [(C29_ordering cfg st ha hb).2.2.2, Except.ok.injEq] at h; subst h; exact .ge

theorem asBoolean_inv {v : Value} {b : Bool} (h : v.asBoolean = .ok b) : v = .bool b := by
  cases v <;> simp only [Value.asBoolean, Except.ok.injEq, reduceCtorEq] at h
  rw [h]

theorem asFunction_inv {v : Value} {f : Function} (h : v.asFunction = .ok f) : v = .func f := by
  cases v <;> simp only [Value.asFunction, Except.ok.injEq, reduceCtorEq] at h
  rw [h]

/-- a binary operation that gives a value does so by one of the rules -/
theorem binop_rule (cfg : Cfg) (σ : State) {W : World} {op : BinOp} {l r : Expr} {lv rv : R Value} {v : Value}
    (hl : ∀ u, lv = .ok u → Ev W σ l u) (hr : ∀ u, rv = .ok u → Ev W σ r u)
    (h : binop op lv rv = .ok v) : Ev W σ (.bin op l r) v := by
  have ints : ¬ Special op → (∃ a b, lv = .ok (.int a) ∧ rv = .ok (.int b)) → Ev W σ (.bin op l r) v := by
    rintro hop ⟨a, b, h1, h2⟩
    subst h1 h2
    exact .ints (hl _ rfl) (hr _ rfl) (rule_intOp cfg σ hop h)
  cases op
  case plus =>
    simp only [binop] at h
    obtain ⟨a, h1, h⟩ := bind_ok h
    obtain ⟨b, h2, h⟩ := bind_ok h
    have hl := hl _ h1
    have hr := hr _ h2
    cases a with
    | int i =>
      cases b with
      | int j => exact ints (by unfold Special; simp) ⟨_, _, h1, h2⟩
      | _ => simp [plusOp] at h
    | array xs k =>
      simp only [plusOp, Except.ok.injEq] at h
      subst h
      exact .append hl hr
    | str s =>
      cases b with
      | str t =>
        simp only [plusOp, Except.ok.injEq] at h
        subst h
        exact .concat hl hr
      | _ => simp [plusOp] at h
    | _ => simp [plusOp] at h
  case eq =>
    simp only [binop] at h
    obtain ⟨a, h1, h⟩ := bind_ok h
    obtain ⟨b, h2, h⟩ := bind_ok h
    have hl := hl _ h1
    have hr := hr _ h2
    simp only [Except.ok.injEq] at h
    subst h
    cases hb : a.beq b with
    | true => rw [Value.beq_iff] at hb; subst hb; exact .same hl hr
    | false => exact .differ hl hr fun e => by rw [(Value.beq_iff a b).2 e] at hb; simp at hb
  case ne =>
    simp only [binop] at h
    obtain ⟨a, h1, h⟩ := bind_ok h
    obtain ⟨b, h2, h⟩ := bind_ok h
    have hl := hl _ h1
    have hr := hr _ h2
    simp only [Except.ok.injEq] at h
    subst h
    cases hb : a.beq b with
    | true => rw [Value.beq_iff] at hb; subst hb; exact .notSame hl hr
    | false => exact .notEq hl hr fun e => by rw [(Value.beq_iff a b).2 e] at hb; simp at hb
  case lor =>
    simp only [binop] at h
    obtain ⟨a, h1, h⟩ := bind_ok h
    obtain ⟨ab, h2, h⟩ := bind_ok h
    rw [asBoolean_inv h2] at h1
    have hl := hl _ h1
    cases ab with
    | true =>
      simp only [if_true, Except.ok.injEq] at h
      subst h
      exact .orTrue hl
    | false =>
      simp only [Bool.false_eq_true, if_false] at h
      obtain ⟨b, h3, h⟩ := bind_ok h
      obtain ⟨bb, h4, h⟩ := bind_ok h
      rw [asBoolean_inv h4] at h3
      simp only [Except.ok.injEq] at h
      subst h
      exact .orFalse hl (hr _ h3)
  case land =>
    simp only [binop] at h
    obtain ⟨a, h1, h⟩ := bind_ok h
    obtain ⟨ab, h2, h⟩ := bind_ok h
    rw [asBoolean_inv h2] at h1
    have hl := hl _ h1
    cases ab with
    | false =>
      simp only [Bool.not_false, if_true, Except.ok.injEq] at h
      subst h
      exact .andFalse hl
    | true =>
      simp only [Bool.not_true, Bool.false_eq_true, if_false] at h
      obtain ⟨b, h3, h⟩ := bind_ok h
      obtain ⟨bb, h4, h⟩ := bind_ok h
      rw [asBoolean_inv h4] at h3
      simp only [Except.ok.injEq] at h
      subst h
      exact .andTrue hl (hr _ h3)
  all_goals
    obtain ⟨a, b, h1, h2, -⟩ := intOp_inv h
    exact ints (by unfold Special; simp) ⟨a, b, h1, h2⟩

/-! ### variables and fields -/

theorem holds_get {vs : Vars Value} {x : Str} {v : Value} : vs.get x = some v ↔ Holds1 x v vs := by
  constructor
  · intro h
    induction vs with
    | nil => simp [Vars.get] at h
    | cons s r ih =>
      rw [Vars.get] at h
      cases hs : s x with
      | some w => rw [hs] at h; simp only [Option.some.injEq] at h; subst h; exact .here hs
      | none => rw [hs] at h; exact .outer hs (ih h)
  · intro h
    induction h with
    | here h => simp [Vars.get, h]
    | outer h _ ih => simp [Vars.get, h, ih]

theorem firstField_iff {fs : List (Str × Value)} {f : Str} {v : Value} :
    fieldLookup fs f = some v ↔ FirstField fs f v := by
  induction fs with
  | nil => simp [fieldLookup, FirstField]
  | cons p fs ih =>
    obtain ⟨n, w⟩ := p
    rw [fieldLookup]
    by_cases h : n = f
    · subst h
      rw [if_pos rfl]
      constructor
      · intro h
        simp only [Option.some.injEq] at h
        subst h
        exact ⟨[], fs, rfl, by simp⟩
      · rintro ⟨b, a, he, hb⟩
        cases b with
        | nil => simp only [List.nil_append, List.cons.injEq, Prod.mk.injEq, true_and] at he; simp [he.1]
        | cons q b =>
          simp only [List.cons_append, List.cons.injEq] at he
          have := hb q (by simp)
          rw [← he.1] at this
          exact absurd rfl this
    · rw [if_neg h, ih]
      constructor
      · rintro ⟨b, a, rfl, hb⟩
        exact ⟨(n, w) :: b, a, rfl, by simpa using ⟨h, fun a b h => hb (a, b) h⟩⟩
      · rintro ⟨b, a, he, hb⟩
        cases b with
        | nil => simp only [List.nil_append, List.cons.injEq, Prod.mk.injEq] at he; exact absurd he.1.1 h
        | cons q b =>
          simp only [List.cons_append, List.cons.injEq] at he
          exact ⟨b, a, he.2, fun p hp => hb p (by simp [hp])⟩

theorem orErr_ok {α : Type} {o : Option α} {e : Err} {a : α} (h : orErr o e = .ok a) : o = some a := by
  cases o with
  | none => simp [orErr] at h
  | some b => simp only [orErr, Except.ok.injEq] at h; rw [h]

/-! ### expressions: what the evaluator gives, the rules give -/

theorem unop_rule (cfg : Cfg) (σ : State) {op : UnOp} {e : Expr} {r : R Value} {v : Value}
    (he : ∀ u, r = .ok u → Ev (world cfg) σ e u) (h : unop cfg.build op r = .ok v) :
    Ev (world cfg) σ (.un op e) v := by
  cases op with
  | bitNot =>
    simp only [unop] at h
    obtain ⟨x, h1, h⟩ := bind_ok h
    obtain ⟨i, h2, h⟩ := bind_ok h
    rw [asInteger_inv h2] at h1
    simp only [Except.ok.injEq] at h
    have hi : evalExpr cfg σ (.int i) = .ok (.int i) := by rw [evalExpr]
    obtain ⟨c, h3, h4, h5⟩ := C25_not cfg σ hi
    have : evalExpr cfg σ (.un .bitNot (.int i)) = .ok v := by
      rw [evalExpr, hi]; simp only [unop, bind, Except.bind, Value.asInteger]; rw [h]
    rw [h3, Except.ok.injEq] at this
    subst this
    exact .bitNot (he _ h1) h4 h5
  | not =>
    simp only [unop] at h
    obtain ⟨x, h1, h⟩ := bind_ok h
    have he := he _ h1
    cases x <;> simp only [Except.ok.injEq, reduceCtorEq] at h <;> subst h
    · exact .notInt he
    · exact .notBool he
  | minus =>
    simp only [unop] at h
    obtain ⟨x, h1, h⟩ := bind_ok h
    obtain ⟨i, h2, h⟩ := bind_ok h
    obtain ⟨n, h3, h⟩ := bind_ok h
    rw [asInteger_inv h2] at h1
    have he := he _ h1
    simp only [Except.ok.injEq] at h
    subst h
    by_cases hm : i = -(2 ^ 127)
    · subst hm
      unfold negI128 at h3
      rw [if_pos (by rfl)] at h3
      split at h3
      · simp at h3
      · rename_i ho
        simp only [Except.ok.injEq] at h3
        subst h3
        exact .negMin (by simpa [world] using ho) he
    · unfold negI128 at h3
      have hm' : ¬ i = i128Min := hm
      rw [if_neg hm', Except.ok.injEq] at h3
      subst h3
      exact .neg he hm

mutual
/-- a value the evaluator gives, at any bound, is a value by the rules -/
theorem ev_of_eval (cfg : Cfg) (σ : State) : ∀ (e : Expr) (v : Value), evalExpr cfg σ e = .ok v →
    Ev (world cfg) σ e v
  | .ident x, v, h => by
    rw [evalExpr] at h
    exact .var (holds_get.1 (orErr_ok h))
  | .int i, v, h => by rw [evalExpr, Except.ok.injEq] at h; subst h; exact .int i
  | .bool b, v, h => by rw [evalExpr, Except.ok.injEq] at h; subst h; exact .bool b
  | .str s, v, h => by rw [evalExpr, Except.ok.injEq] at h; subst h; exact .str s
  | .paren e, v, h => by rw [evalExpr] at h; exact .paren (ev_of_eval cfg σ e v h)
  | .field e f, v, h => by
    rw [evalExpr] at h
    simp only [fieldOp] at h
    obtain ⟨x, h1, h⟩ := bind_ok h
    obtain ⟨s, h2, h⟩ := bind_ok h
    rw [asStruct_inv h2] at h1
    have h1 := ev_of_eval cfg σ e _ h1
    cases f with
    | ident name => exact .field h1 (firstField_iff.1 (orErr_ok h))
    | _ => simp at h
  | .index e i, v, h => by
    rw [evalExpr] at h
    simp only [indexOp] at h
    obtain ⟨x, h1, h⟩ := bind_ok h
    obtain ⟨vec, h2, h⟩ := bind_ok h
    obtain ⟨iv, h3, h⟩ := bind_ok h
    obtain ⟨idx, h4, h⟩ := bind_ok h
    obtain ⟨n, h5, hh⟩ := bind_ok h
    have ho := orErr_ok hh
    obtain ⟨k, hk⟩ := asVec_inv h2
    rw [hk] at h1
    obtain ⟨h6, h7⟩ := tryUnsigned_inv h5
    rw [asInteger_inv h4, h6] at h3
    exact .index (ev_of_eval cfg σ e _ h1) (ev_of_eval cfg σ i _ h3) h7 ho
  | .bin op l r, v, h => by
    rw [evalExpr] at h
    exact binop_rule cfg σ (fun u hu => ev_of_eval cfg σ l u hu) (fun u hu => ev_of_eval cfg σ r u hu) h
  | .un op e, v, h => by
    rw [evalExpr] at h
    exact unop_rule cfg σ (fun u hu => ev_of_eval cfg σ e u hu) h
  | .cast ty e, v, h => by
    rw [evalExpr] at h
    have h0 := h
    simp only [castOp] at h
    obtain ⟨x, h1, h⟩ := bind_ok h
    obtain ⟨p, h2, h⟩ := bind_ok h
    rw [asInteger_inv h2] at h1
    rw [h1] at h0
    have h1 := ev_of_eval cfg σ e _ h1
    cases ty with
    | ident name => exact .cast h1 h0
    | _ =>
      split at h
      · simp at h
      · simp at h
  | .call f args, v, h => by
    have h0 := h
    rw [evalExpr] at h
    simp only [callFn] at h
    obtain ⟨fv, h1, h⟩ := bind_ok h
    obtain ⟨fn, h2, h⟩ := bind_ok h
    rw [asFunction_inv h2] at h1
    have hf := ev_of_eval cfg σ f _ h1
    have hargs := ev_of_args cfg σ args
    rw [evalExpr_call cfg σ f fn args h1] at h0
    clear h
    have h := h0
    cases fn with
    | key =>
      obtain ⟨hl, hi⟩ := (C47_key_iff cfg σ f args h1).1 ⟨v, by rw [evalExpr_call cfg σ f _ args h1]; exact h⟩
      match args, hl with
      | [e₁, e₂, e₃, e₄], _ =>
        obtain ⟨a, ha⟩ := hi e₁ (by simp)
        obtain ⟨b, hb⟩ := hi e₂ (by simp)
        obtain ⟨c, hc⟩ := hi e₃ (by simp)
        obtain ⟨d, hd⟩ := hi e₄ (by simp)
        have := C47_key_fields cfg σ f e₁ e₂ e₃ e₄ a b c d h1 ha hb hc hd
        rw [evalExpr_call cfg σ f _ _ h1, h, Except.ok.injEq] at this
        subst this
        exact .key hf (hargs _ (by simp) _ ha) (hargs _ (by simp) _ hb) (hargs _ (by simp) _ hc)
          (hargs _ (by simp) _ hd)
    | search =>
      obtain ⟨e₀, e₁, tree, k, fs, sa, items, vs, rfl, h3, h4, -⟩ :=
        search_inv cfg σ f args v h1 (by rw [evalExpr_call cfg σ f _ args h1]; exact h)
      refine .search hf (hargs _ (by simp) _ h3) (hargs _ (by simp) _ h4) ⟨cfg.fuel, ?_⟩
      rw [callFn_search] at h
      simp only [List.map_cons, List.map_nil, h3, h4] at h
      exact h
    | typeOf =>
      rw [callFn_typeOf] at h
      simp only [typeofFn] at h
      obtain ⟨w, h3, h⟩ := bind_ok h
      have ha := arg1_ok h3
      obtain ⟨n, hn⟩ := typeName_total w
      rw [typeName_typeStr hn, Except.ok.injEq] at h
      subst h
      match args, ha with
      | [e], ha =>
        simp only [List.map_cons, List.map_nil, List.cons.injEq, and_true] at ha
        exact .typeOf hf (hargs _ (by simp) _ ha) hn
    | keyOf =>
      obtain ⟨e, name, o, t, p, fs, rfl, he⟩ :=
        (C48_keyof_iff cfg σ f args h1).1 ⟨v, by rw [evalExpr_call cfg σ f _ args h1]; exact h⟩
      have := C48_keyof cfg σ f e name o t p fs h1 he
      rw [evalExpr_call cfg σ f _ _ h1, h, Except.ok.injEq] at this
      subst this
      exact .keyOf hf (hargs _ (by simp) _ he)
    | len =>
      rw [callFn_len] at h
      simp only [lenFn] at h
      obtain ⟨w, h3, h⟩ := bind_ok h
      obtain ⟨vec, h4, hh⟩ := bind_ok h
      obtain ⟨k, hk⟩ := asVec_inv h4
      rw [hk] at h3
      have ha := arg1_ok h3
      split at hh
      · rename_i hi
        simp only [Except.ok.injEq] at hh
        subst hh
        match args, ha with
        | [e], ha =>
          simp only [List.map_cons, List.map_nil, List.cons.injEq, and_true] at ha
          exact .len hf (hargs _ (by simp) _ ha) ((inI128_iff _).1 hi)
      · simp at hh
    | hist =>
      have h' : histFn (args.map (evalExpr cfg σ)) = .ok v := h
      simp only [histFn] at h'
      obtain ⟨_, h3, h⟩ := bind_ok h'
      have ha := ensure_inv h3
      simp only [Except.ok.injEq] at h
      subst h
      cases args with
      | nil => exact .hist hf
      | cons => simp at ha
    | str =>
      rw [callFn_str] at h
      simp only [strFn] at h
      obtain ⟨w, h3, hh⟩ := bind_ok h
      have ha := arg1_ok h3
      clear h h0
      match args, ha with
      | [e], ha =>
        simp only [List.map_cons, List.map_nil, List.cons.injEq, and_true] at ha
        have he := hargs _ (by simp) _ ha
        split at hh
        · simp only [Except.ok.injEq] at hh
          subst hh
          exact .strStr hf he
        · rename_i hw
          obtain ⟨t, h4, h5⟩ := bind_ok hh
          simp only [Except.ok.injEq] at h5
          subst h5
          exact .strOther hf he (fun s hs => hw s hs) h4
theorem ev_of_args (cfg : Cfg) (σ : State) : ∀ (es : List Expr), ∀ e ∈ es, ∀ (v : Value),
    evalExpr cfg σ e = .ok v → Ev (world cfg) σ e v
  | [] => by simp
  | a :: es => by
    have h1 := ev_of_eval cfg σ a
    have h2 := ev_of_args cfg σ es
    intro e he v h
    rcases List.mem_cons.1 he with he | he
    · subst he
      exact h1 v h
    · exact h2 e he v h
end

/-! ### expressions: what the rules give, the evaluator gives -/

/-- from some bound on, the evaluator gives this value -/
def Gives (cfg : Cfg) (σ : State) (e : Expr) (v : Value) : Prop :=
  ∃ n, ∀ m, n ≤ m → evalExpr (cfg.steps m) σ e = .ok v

theorem gives_now {cfg : Cfg} {σ : State} {e : Expr} {v : Value} (h : ∀ m, evalExpr (cfg.steps m) σ e = .ok v) :
    Gives cfg σ e v := ⟨0, fun m _ => h m⟩

theorem gives1 {cfg : Cfg} {σ : State} {e e₁ : Expr} {v v₁ : Value} (h₁ : Gives cfg σ e₁ v₁)
    (h : ∀ m, evalExpr (cfg.steps m) σ e₁ = .ok v₁ → evalExpr (cfg.steps m) σ e = .ok v) : Gives cfg σ e v := by
  obtain ⟨n, h₁⟩ := h₁
  exact ⟨n, fun m hm => h m (h₁ m hm)⟩

theorem gives2 {cfg : Cfg} {σ : State} {e e₁ e₂ : Expr} {v v₁ v₂ : Value} (h₁ : Gives cfg σ e₁ v₁)
    (h₂ : Gives cfg σ e₂ v₂)
    (h : ∀ m, evalExpr (cfg.steps m) σ e₁ = .ok v₁ → evalExpr (cfg.steps m) σ e₂ = .ok v₂ →
      evalExpr (cfg.steps m) σ e = .ok v) : Gives cfg σ e v := by
  obtain ⟨n₁, h₁⟩ := h₁
  obtain ⟨n₂, h₂⟩ := h₂
  exact ⟨max n₁ n₂, fun m hm => h m (h₁ m (by omega)) (h₂ m (by omega))⟩

/-- a search that ends gives the same for every larger bound -/
theorem search_more (cfg : Cfg) (fs : Option Fs) {n m : Nat} (hm : n ≤ m) {rs : List (R Value)} {v : Value}
    (h : searchFn (cfg.steps n) fs rs = .ok v) : searchFn (cfg.steps m) fs rs = .ok v := by
  have hrs : ApxL (· = .diverge) rs rs := by
    clear h
    induction rs with
    | nil => exact .nil
    | cons r rs ih => exact .cons (.refl r) ih
  rcases apx_searchFn (finer_steps cfg hm) fs hrs with h' | ⟨f, rfl, h'⟩
  · rw [← h', h]
  · rw [h'] at h; simp at h

theorem ev_gives {cfg : Cfg} {σ : State} {e : Expr} {v : Value} (h : Ev (world cfg) σ e v) : Gives cfg σ e v := by
  induction h with
  | var h => exact gives_now fun m => by rw [evalExpr, holds_get.2 h]; rfl
  | int i => exact gives_now fun m => by rw [evalExpr]
  | bool b => exact gives_now fun m => by rw [evalExpr]
  | str s => exact gives_now fun m => by rw [evalExpr]; rfl
  | paren _ ih => exact gives1 ih fun m h => by rw [evalExpr, h]
  | field _ hf ih =>
    refine gives1 ih fun m h => ?_
    rw [evalExpr, h]
    simp only [fieldOp, bind, Except.bind, Value.asStruct, StructVal.field, firstField_iff.2 hf, orErr]
  | index _ _ hn hv ih₁ ih₂ => exact gives2 ih₁ ih₂ fun m h₁ h₂ => by rw [evalExpr, h₁, h₂]; exact indexOp_nat hv hn
  | ints _ _ h ih₁ ih₂ =>
    exact gives2 ih₁ ih₂ fun m h₁ h₂ => by rw [evalExpr, h₁, h₂]; exact intOp_rule cfg σ h
  | append _ _ ih₁ ih₂ => exact gives2 ih₁ ih₂ fun m h₁ h₂ => by rw [evalExpr, h₁, h₂]; rfl
  | concat _ _ ih₁ ih₂ => exact gives2 ih₁ ih₂ fun m h₁ h₂ => by rw [evalExpr, h₁, h₂]; rfl
  | same _ _ ih₁ ih₂ =>
    refine gives2 ih₁ ih₂ fun m h₁ h₂ => ?_
    rw [evalExpr, h₁, h₂]
    simp only [binop, bind, Except.bind]
    rw [(Value.beq_iff _ _).2 rfl]
  | differ _ _ hn ih₁ ih₂ =>
    refine gives2 ih₁ ih₂ fun m h₁ h₂ => ?_
    rw [evalExpr, h₁, h₂]
    simp only [binop, bind, Except.bind]
    rw [Bool.eq_false_iff.2 fun hb => hn ((Value.beq_iff _ _).1 hb)]
  | notSame _ _ ih₁ ih₂ =>
    refine gives2 ih₁ ih₂ fun m h₁ h₂ => ?_
    rw [evalExpr, h₁, h₂]
    simp only [binop, bind, Except.bind]
    rw [(Value.beq_iff _ _).2 rfl]
    rfl
  | notEq _ _ hn ih₁ ih₂ =>
    refine gives2 ih₁ ih₂ fun m h₁ h₂ => ?_
    rw [evalExpr, h₁, h₂]
    simp only [binop, bind, Except.bind]
    rw [Bool.eq_false_iff.2 fun hb => hn ((Value.beq_iff _ _).1 hb)]
    rfl
  | orTrue _ ih => exact gives1 ih fun m h => by rw [evalExpr, h]; rfl
  | orFalse _ _ ih₁ ih₂ => exact gives2 ih₁ ih₂ fun m h₁ h₂ => by rw [evalExpr, h₁, h₂]; rfl
  | andFalse _ ih => exact gives1 ih fun m h => by rw [evalExpr, h]; rfl
  | andTrue _ _ ih₁ ih₂ => exact gives2 ih₁ ih₂ fun m h₁ h₂ => by rw [evalExpr, h₁, h₂]; rfl
  | bitNot _ hf hb ih =>
    refine gives1 ih fun m h => ?_
    obtain ⟨c, h1, h2, h3⟩ := C25_not (cfg.steps m) σ h
    rw [h1, C25_bits_determine h2 hf (fun i hi => by rw [h3 i hi, hb i hi])]
  | notInt _ ih => exact gives1 ih fun m h => by rw [evalExpr, h]; rfl
  | notBool _ ih => exact gives1 ih fun m h => by rw [evalExpr, h]; rfl
  | neg _ ha ih =>
    rename_i a _
    refine gives1 ih fun m h => ?_
    rw [evalExpr, h]
    have ha' : ¬ a = i128Min := ha
    simp only [unop, bind, Except.bind, Value.asInteger, negI128]
    rw [if_neg ha']
  | negMin hw _ ih =>
    refine gives1 ih fun m h => ?_
    rw [evalExpr, h]
    have hw' : ¬ (cfg.steps m).build.ovfChecks = true := by
      have : cfg.build.ovfChecks = false := hw
      simp [Cfg.steps, this]
    simp only [unop, bind, Except.bind, Value.asInteger, negI128]
    rw [if_pos (by rfl), if_neg hw']
  | cast _ hc ih => exact gives1 ih fun m h => by rw [evalExpr, h]; exact hc
  | key _ _ _ _ _ ihf ih₁ ih₂ ih₃ ih₄ =>
    obtain ⟨n, hf⟩ := ihf
    obtain ⟨n₁, h₁⟩ := ih₁
    obtain ⟨n₂, h₂⟩ := ih₂
    obtain ⟨n₃, h₃⟩ := ih₃
    obtain ⟨n₄, h₄⟩ := ih₄
    exact ⟨n + n₁ + n₂ + n₃ + n₄, fun m hm => C47_key_fields (cfg.steps m) σ _ _ _ _ _ _ _ _ _ (hf m (by omega))
      (h₁ m (by omega)) (h₂ m (by omega)) (h₃ m (by omega)) (h₄ m (by omega))⟩
  | search _ _ _ hs ihf ih₁ ih₂ =>
    obtain ⟨n, hf⟩ := ihf
    obtain ⟨n₁, h₁⟩ := ih₁
    obtain ⟨n₂, h₂⟩ := ih₂
    obtain ⟨k, hk⟩ := hs
    refine ⟨n + n₁ + n₂ + k, fun m hm => ?_⟩
    rw [evalExpr_call (cfg.steps m) σ _ _ _ (hf m (by omega)), callFn_search]
    simp only [List.map_cons, List.map_nil]
    rw [h₁ m (by omega), h₂ m (by omega)]
    exact search_more cfg _ (by omega) hk
  | typeOf _ _ hn ihf ih =>
    refine gives2 ihf ih fun m hf h => ?_
    rw [evalExpr_call (cfg.steps m) σ _ _ _ hf, callFn_typeOf]
    simp only [List.map_cons, List.map_nil, typeofFn, arg1_one, h, bind, Except.bind]
    rw [typeName_typeStr hn]
    rfl
  | keyOf _ _ ihf ih => exact gives2 ihf ih fun m hf h => C48_keyof (cfg.steps m) σ _ _ _ _ _ _ _ hf h
  | len _ _ hx ihf ih =>
    refine gives2 ihf ih fun m hf h => ?_
    rw [evalExpr_call (cfg.steps m) σ _ _ _ hf, callFn_len]
    simp only [List.map_cons, List.map_nil, lenFn, arg1_one, h, bind, Except.bind, Value.asVec]
    rw [if_pos ((inI128_iff _).2 hx)]
  | hist _ ihf =>
    refine gives1 ihf fun m hf => ?_
    rw [evalExpr_call (cfg.steps m) σ _ _ _ hf]
    rfl
  | strStr _ _ ihf ih =>
    refine gives2 ihf ih fun m hf h => ?_
    rw [evalExpr_call (cfg.steps m) σ _ _ _ hf, callFn_str]
    simp only [List.map_cons, List.map_nil, strFn, arg1_one, h, bind, Except.bind]
  | strOther _ _ hv ht ihf ih =>
    rename_i v t _ _
    refine gives2 ihf ih fun m hf h => ?_
    rw [evalExpr_call (cfg.steps m) σ _ _ _ hf, callFn_str]
    simp only [List.map_cons, List.map_nil, strFn, arg1_one, h, bind, Except.bind]
    have ht : v.display = .ok t := ht
    cases v with
    | str s => exact absurd rfl (hv s)
    | _ => simp only [ht]; rfl

/-- at every bound the evaluator gives the value of the rules, or needs more steps -/
theorem ev_eval {cfg : Cfg} {σ : State} {e : Expr} {v : Value} (h : Ev (world cfg) σ e v) (m : Nat) :
    evalExpr (cfg.steps m) σ e = .ok v ∨ evalExpr (cfg.steps m) σ e = .error .diverge := by
  obtain ⟨n, hn⟩ := ev_gives h
  by_cases hd : evalExpr (cfg.steps m) σ e = .error .diverge
  · exact .inr hd
  · have := C67_expression cfg m (max n m) (by omega) e σ hd
    rw [hn _ (by omega)] at this
    exact .inl this.symm

theorem ev_unique {cfg : Cfg} {σ : State} {e : Expr} {v w : Value} (h : Ev (world cfg) σ e v)
    (h' : Ev (world cfg) σ e w) : v = w := by
  obtain ⟨n, hn⟩ := ev_gives h
  obtain ⟨n', hn'⟩ := ev_gives h'
  have := hn (max n n') (by omega)
  rw [hn' _ (by omega), Except.ok.injEq] at this
  exact this.symm

/-- an expression that fails has no value -/
theorem no_ev {cfg : Cfg} {σ : State} {e : Expr} {f : Fail} (h : evalExpr cfg σ e = .error f) (hf : f ≠ .diverge)
    (v : Value) : ¬ Ev (world cfg) σ e v := by
  intro hv
  rcases ev_eval hv cfg.fuel with h' | h'
  · have : evalExpr cfg σ e = .ok v := h'
    rw [h] at this; simp at this
  · have : evalExpr cfg σ e = .error .diverge := h'
    rw [h, Except.error.injEq] at this
    exact hf this

/-! ### assignment -/

theorem insert_iff {vs vs' : Vars Value} {x : Str} {v : Value} : vs.insert x v = .ok vs' ↔ Assigns x v vs vs' := by
  have ow : ∀ {vs : Vars Value}, (∀ vs', vs.overwrite x v = some vs' ↔ Rebinds x v vs vs') ∧
      (vs.overwrite x v = none ↔ ∀ t ∈ vs, t x = none) := by
    intro vs
    induction vs with
    | nil =>
      refine ⟨fun vs' => ⟨fun h => by simp [Vars.overwrite] at h, fun h => by cases h⟩, by simp [Vars.overwrite]⟩
    | cons s r ih =>
      rw [Vars.overwrite]
      cases hs : s x with
      | some w =>
        refine ⟨fun vs' => ⟨fun h => ?_, fun h => ?_⟩, by simp [hs]⟩
        · simp only [Option.some.injEq] at h
          subst h
          exact .here hs
        · cases h with
          | here _ => rfl
          | outer hn _ => rw [hs] at hn; simp at hn
      | none =>
        cases ho : Vars.overwrite r x v with
        | some r' =>
          refine ⟨fun vs' => ⟨fun h => ?_, fun h => ?_⟩, ?_⟩
          · simp only [Option.some.injEq] at h
            subst h
            exact .outer hs ((ih.1 _).1 ho)
          · cases h with
            | here h => rw [hs] at h; simp at h
            | outer _ h => have := (ih.1 _).2 h; rw [ho, Option.some.injEq] at this; subst this; rfl
          · refine ⟨fun h => by simp at h, fun h => ?_⟩
            have := ih.2.2 (fun t ht => h t (by simp [ht]))
            rw [ho] at this; simp at this
        | none =>
          refine ⟨fun vs' => ⟨fun h => by simp at h, fun h => ?_⟩, ⟨fun _ t ht => ?_, fun _ => rfl⟩⟩
          · cases h with
            | here h => rw [hs] at h; simp at h
            | outer _ h => have := (ih.1 _).2 h; rw [ho] at this; simp at this
          · rcases List.mem_cons.1 ht with rfl | ht
            · exact hs
            · exact ih.2.1 ho t ht
  unfold Vars.insert
  constructor
  · intro h
    cases ho : vs.overwrite x v with
    | some w =>
      rw [ho] at h
      simp only [Except.ok.injEq] at h
      subst h
      exact .old ((ow.1 _).1 ho)
    | none =>
      rw [ho] at h
      cases vs with
      | nil => simp [R.panic] at h
      | cons s r =>
        simp only [Except.ok.injEq] at h
        subst h
        exact .new (ow.2.1 ho)
  · intro h
    cases h with
    | old h => rw [(ow.1 _).2 h]
    | new h => rw [ow.2.2 h]; rfl

theorem modify_iff {f : Value → R Value} {vs vs' : Vars Value} {x : Str} :
    vs.modify f x = some (.ok vs') ↔ ∃ old new, Holds1 x old vs ∧ f old = .ok new ∧ Rebinds x new vs vs' := by
  constructor
  · intro h
    induction vs generalizing vs' with
    | nil => simp [Vars.modify] at h
    | cons s r ih =>
      rw [Vars.modify] at h
      cases hs : s x with
      | some w =>
        rw [hs] at h
        cases hf : f w with
        | error e => simp [hf] at h
        | ok w' =>
          simp only [hf, Option.some.injEq, Except.ok.injEq] at h
          subst h
          exact ⟨w, w', .here hs, hf, .here hs⟩
      | none =>
        rw [hs] at h
        cases hm : Vars.modify f r x with
        | none => simp [hm] at h
        | some q =>
          cases q with
          | error e => simp [hm] at h
          | ok r' =>
            simp only [hm, Option.some.injEq, Except.ok.injEq] at h
            subst h
            obtain ⟨old, new, h1, h2, h3⟩ := ih hm
            exact ⟨old, new, .outer hs h1, h2, .outer hs h3⟩
  · rintro ⟨old, new, h1, h2, h3⟩
    induction h1 generalizing vs' with
    | here hs =>
      cases h3 with
      | here _ => simp only [Vars.modify, hs, h2]; rfl
      | outer hn _ => rw [hs] at hn; simp at hn
    | outer hs _ ih =>
      cases h3 with
      | here h => rw [hs] at h; simp at h
      | outer _ h => simp only [Vars.modify, hs, ih h]

/-- `f` applied to the component of a value at a path -/
inductive Through (f : Value → R Value) : List Step → Value → Value → Prop where
  | whole {old new} : f old = .ok new → Through f [] old new
  | field {n k name p before old old' after} : (∀ q ∈ before, q.1 ≠ name) → Through f p old old' →
      Through f (.field name :: p) (.struct n k (before ++ (name, old) :: after))
        (.struct n k (before ++ (name, old') :: after))
  | index {h i p before old old' after} : before.length = i → Through f p old old' →
      Through f (.index i :: p) (.array (before ++ old :: after) h) (.array (before ++ old' :: after) h)

theorem through_const {v : Value} {p : List Step} {old new : Value} :
    Through (fun _ => .ok v) p old new ↔ Replaces v p old new := by
  constructor
  · intro h
    induction h with
    | whole h => simp only [Except.ok.injEq] at h; subst h; exact .whole
    | field h _ ih => exact .field h ih
    | index h _ ih => exact .index h ih
  · intro h
    induction h with
    | whole => exact .whole rfl
    | field h _ ih => exact .field h ih
    | index h _ ih => exact .index h ih

/-- one more step at the end of the path -/
theorem through_snoc {f g : Value → R Value} {s : Step} (hg : ∀ a b, g a = .ok b ↔ Through f [s] a b)
    {p : List Step} {old new : Value} : Through g p old new ↔ Through f (p ++ [s]) old new := by
  constructor
  · intro h
    induction h with
    | whole h => exact (hg _ _).1 h
    | field h _ ih => exact .field h ih
    | index h _ ih => exact .index h ih
  · intro h
    induction p generalizing old new with
    | nil => exact .whole ((hg _ _).2 h)
    | cons t p ih =>
      cases h with
      | field h h' => exact .field h (ih h')
      | index h h' => exact .index h (ih h')

theorem modifyField_iff {what : Str} {f : Value → R Value} {name : Str} {fs fs' : List (Str × Value)} :
    modifyField what f fs name = .ok fs' ↔ ∃ before old old' after, fs = before ++ (name, old) :: after ∧
      fs' = before ++ (name, old') :: after ∧ (∀ q ∈ before, q.1 ≠ name) ∧ f old = .ok old' := by
  induction fs generalizing fs' with
  | nil => simp [modifyField]
  | cons q fs ih =>
    obtain ⟨n, v⟩ := q
    rw [modifyField]
    by_cases hn : n = name
    · subst hn
      rw [if_pos rfl]
      constructor
      · intro h
        obtain ⟨v', h1, h2⟩ := bind_ok h
        simp only [Except.ok.injEq] at h2
        subst h2
        exact ⟨[], v, v', fs, rfl, rfl, by simp, h1⟩
      · rintro ⟨b, o, o', a, h1, h2, h3, h4⟩
        cases b with
        | nil =>
          simp only [List.nil_append, List.cons.injEq, Prod.mk.injEq, true_and] at h1
          obtain ⟨rfl, rfl⟩ := h1
          simp only [h4, h2, bind, Except.bind, List.nil_append]
        | cons q b =>
          simp only [List.cons_append, List.cons.injEq] at h1
          have := h3 q (by simp)
          rw [← h1.1] at this
          exact absurd rfl this
    · rw [if_neg hn]
      constructor
      · intro h
        obtain ⟨r, h1, h2⟩ := bind_ok h
        simp only [Except.ok.injEq] at h2
        subst h2
        obtain ⟨b, o, o', a, rfl, rfl, h3, h4⟩ := ih.1 h1
        exact ⟨(n, v) :: b, o, o', a, rfl, rfl, by simpa using ⟨hn, fun a b h => h3 (a, b) h⟩, h4⟩
      · rintro ⟨b, o, o', a, h1, h2, h3, h4⟩
        cases b with
        | nil => simp only [List.nil_append, List.cons.injEq, Prod.mk.injEq] at h1; exact absurd h1.1.1 hn
        | cons q b =>
          simp only [List.cons_append, List.cons.injEq] at h1
          obtain ⟨rfl, rfl⟩ := h1
          rw [ih.2 ⟨b, o, o', a, rfl, rfl, fun q hq => h3 q (by simp [hq]), h4⟩]
          simp [bind, Except.bind, h2]

theorem modifyNth_iff {er : Err} {f : Value → R Value} {i : Nat} {xs xs' : List Value} :
    modifyNth er f xs i = .ok xs' ↔ ∃ before old old' after, xs = before ++ old :: after ∧
      xs' = before ++ old' :: after ∧ before.length = i ∧ f old = .ok old' := by
  induction xs generalizing i xs' with
  | nil => simp [modifyNth]
  | cons x xs ih =>
    cases i with
    | zero =>
      rw [modifyNth]
      constructor
      · intro h
        obtain ⟨v', h1, h2⟩ := bind_ok h
        simp only [Except.ok.injEq] at h2
        subst h2
        exact ⟨[], x, v', xs, rfl, rfl, rfl, h1⟩
      · rintro ⟨b, o, o', a, h1, h2, h3, h4⟩
        rw [List.length_eq_zero_iff] at h3
        subst h3
        simp only [List.nil_append, List.cons.injEq] at h1
        obtain ⟨rfl, rfl⟩ := h1
        simp only [h4, h2, bind, Except.bind, List.nil_append]
    | succ i =>
      rw [modifyNth]
      constructor
      · intro h
        obtain ⟨r, h1, h2⟩ := bind_ok h
        simp only [Except.ok.injEq] at h2
        subst h2
        obtain ⟨b, o, o', a, rfl, rfl, h3, h4⟩ := ih.1 h1
        exact ⟨x :: b, o, o', a, rfl, rfl, by simp [h3], h4⟩
      · rintro ⟨b, o, o', a, h1, h2, h3, h4⟩
        cases b with
        | nil => simp at h3
        | cons y b =>
          simp only [List.cons_append, List.cons.injEq] at h1
          obtain ⟨rfl, rfl⟩ := h1
          rw [ih.2 ⟨b, o, o', a, rfl, rfl, by simpa using h3, h4⟩]
          simp [bind, Except.bind, h2]

/-- the write of `modifyLhs` for a field step -/
def fieldWrite (f : Value → R Value) (name : Str) (v : Value) : R Value :=
  match v with
  | .struct n k fs => do
    let fs' ← modifyField n f fs name
    .ok (.struct n k fs')
  | _ => R.err (.badLhs s!' "Field access must be used on a struct")

/-- the write of `modifyLhs` for an index step -/
def indexWrite (f : Value → R Value) (idx : Int) (v : Value) : R Value :=
  match v with
  | .array vec h => do
    let n ← tryUnsigned 64 idx
    let vec' ← modifyNth (.indexRange idx vec.length) f vec n
    .ok (.array vec' h)
  | _ => R.err (.badLhs s!' "Array index must be used on an array")

theorem fieldWrite_iff {f : Value → R Value} {name : Str} {a b : Value} :
    fieldWrite f name a = .ok b ↔ Through f [.field name] a b := by
  constructor
  · intro h
    cases a with
    | struct n k fs =>
      obtain ⟨fs', h1, h2⟩ := bind_ok h
      simp only [Except.ok.injEq] at h2
      subst h2
      obtain ⟨b, o, o', a, rfl, rfl, h3, h4⟩ := modifyField_iff.1 h1
      exact .field h3 (.whole h4)
    | _ => simp [fieldWrite, R.err] at h
  · intro h
    cases h with
    | field h1 h2 =>
      cases h2 with
      | whole h2 =>
        simp only [fieldWrite]
        rw [modifyField_iff.2 ⟨_, _, _, _, rfl, rfl, h1, h2⟩]
        rfl

theorem indexWrite_iff {f : Value → R Value} {n : Nat} (hn : n < 2 ^ 64) {a b : Value} :
    indexWrite f n a = .ok b ↔ Through f [.index n] a b := by
  constructor
  · intro h
    cases a with
    | array vec k =>
      obtain ⟨n', h0, h⟩ := bind_ok h
      rw [tryUnsigned_nat hn, Except.ok.injEq] at h0
      subst h0
      obtain ⟨vec', h1, h2⟩ := bind_ok h
      simp only [Except.ok.injEq] at h2
      subst h2
      obtain ⟨b, o, o', a, rfl, rfl, h3, h4⟩ := modifyNth_iff.1 h1
      exact .index h3 (.whole h4)
    | _ => simp [indexWrite, R.err] at h
  · intro h
    cases h with
    | index h1 h2 =>
      cases h2 with
      | whole h2 =>
        simp only [indexWrite]
        rw [tryUnsigned_nat hn]
        simp only [bind, Except.bind]
        rw [modifyNth_iff.2 ⟨_, _, _, _, rfl, rfl, h1, h2⟩]

theorem modifyLhs_field (cfg : Cfg) (σ : State) (e : Expr) (name : Str) (f : Value → R Value) :
    modifyLhs cfg σ (.field e (.ident name)) f = modifyLhs cfg σ e (fieldWrite f name) := by
  rw [modifyLhs]; rfl

theorem modifyLhs_index (cfg : Cfg) (σ : State) (e i : Expr) (f : Value → R Value) :
    modifyLhs cfg σ (.index e i) f = (do
      let iv ← evalExpr cfg σ i
      let idx ← iv.asInteger
      modifyLhs cfg σ e (indexWrite f idx)) := by
  rw [modifyLhs]; rfl

/-- a write of the evaluator is one of the rules -/
theorem lhs_rule (cfg : Cfg) (σ : State) : ∀ (e : Expr) (f : Value → R Value) (vs : Vars Value),
    modifyLhs cfg σ e f = .ok vs → ∃ x p old new, Target (world cfg) σ e x p ∧ Holds1 x old σ.vars ∧
      Through f p old new ∧ Rebinds x new σ.vars vs
  | .ident x, f, vs, h => by
    rw [modifyLhs] at h
    split at h
    · rename_i r hr
      rw [h] at hr
      obtain ⟨old, new, h1, h2, h3⟩ := modify_iff.1 hr
      exact ⟨x, [], old, new, .var x, h1, .whole h2, h3⟩
    · simp [R.err] at h
  | .field e fld, f, vs, h => by
    cases fld with
    | ident name =>
      rw [modifyLhs_field] at h
      obtain ⟨x, p, old, new, h1, h2, h3, h4⟩ := lhs_rule cfg σ e _ vs h
      exact ⟨x, _, old, new, .field name h1, h2, (through_snoc fun _ _ => fieldWrite_iff).1 h3, h4⟩
    | _ => simp [modifyLhs, R.err] at h
  | .index e i, f, vs, h => by
    rw [modifyLhs_index] at h
    obtain ⟨iv, h1, h⟩ := bind_ok h
    obtain ⟨idx, h2, h⟩ := bind_ok h
    rw [asInteger_inv h2] at h1
    obtain ⟨x, p, old, new, h3, h4, h5, h6⟩ := lhs_rule cfg σ e _ vs h
    have hidx : ∃ n : Nat, idx = n ∧ n < 2 ^ 64 := by
      clear h3 h4 h6
      induction h5 with
      | whole h =>
        rename_i a b
        cases a with
        | array vec k =>
          obtain ⟨n', h0, -⟩ := bind_ok h
          exact ⟨n', tryUnsigned_inv h0⟩
        | _ => simp [indexWrite, R.err] at h
      | field _ _ ih => exact ih
      | index _ _ ih => exact ih
    obtain ⟨n, rfl, hn⟩ := hidx
    exact ⟨x, _, old, new, .index h3 (ev_of_eval cfg σ i _ h1) hn, h4,
      (through_snoc fun _ _ => indexWrite_iff hn).1 h5, h6⟩
  | .int _, f, vs, h => by simp [modifyLhs, R.err] at h
  | .bool _, f, vs, h => by simp [modifyLhs, R.err] at h
  | .str _, f, vs, h => by simp [modifyLhs, R.err] at h
  | .paren _, f, vs, h => by simp [modifyLhs, R.err] at h
  | .call _ _, f, vs, h => by simp [modifyLhs, R.err] at h
  | .bin _ _ _, f, vs, h => by simp [modifyLhs, R.err] at h
  | .un _ _, f, vs, h => by simp [modifyLhs, R.err] at h
  | .cast _ _, f, vs, h => by simp [modifyLhs, R.err] at h

/-- a write of the rules is one of the evaluator, from some bound on -/
theorem rule_lhs {cfg : Cfg} {σ : State} {e : Expr} {x : Str} {p : List Step} (ht : Target (world cfg) σ e x p) :
    ∀ {f : Value → R Value} {old new : Value} {vs : Vars Value}, Holds1 x old σ.vars → Through f p old new →
      Rebinds x new σ.vars vs → ∃ n, ∀ m, n ≤ m → modifyLhs (cfg.steps m) σ e f = .ok vs := by
  induction ht with
  | var x =>
    intro f old new vs h1 h2 h3
    cases h2 with
    | whole h2 =>
      refine ⟨0, fun m _ => ?_⟩
      rw [modifyLhs, modify_iff.2 ⟨old, new, h1, h2, h3⟩]
  | field fl _ ih =>
    intro f old new vs h1 h2 h3
    obtain ⟨n, hn⟩ := ih h1 ((through_snoc fun _ _ => fieldWrite_iff).2 h2) h3
    exact ⟨n, fun m hm => by rw [modifyLhs_field]; exact hn m hm⟩
  | index _ hi hlt ih =>
    intro f old new vs h1 h2 h3
    obtain ⟨n, hn⟩ := ih h1 ((through_snoc fun _ _ => indexWrite_iff hlt).2 h2) h3
    obtain ⟨k, hk⟩ := ev_gives hi
    refine ⟨n + k, fun m hm => ?_⟩
    rw [modifyLhs_index, hk m (by omega)]
    exact hn m (by omega)

end Btrd
