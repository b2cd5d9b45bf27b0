/-
The messages of failing expressions are those of `Spec.Complains`.
-/
import Verif.Lemmas.Messages
import Verif.Lemmas.Rules

namespace Btrd
open Spec

/-- what the rules for messages leave open, as the code has it -/
def complaints (cfg : Cfg) : Complaints where
  search x a key m := ∃ n er, searchFn (cfg.steps n) (some x) [.ok (.int a), .ok key] = .error (.err er) ∧ er.text = m
  cast x name p m := ∃ er, castOp cfg.build (some x) (.ident name) (.ok (.int p)) = .error (.err er) ∧ er.text = m
  opens path m := ∃ er, Fs.new cfg.host path = .error (.err er) ∧ er.text = m

theorem complaints_steps (cfg : Cfg) (n : Nat) : complaints (cfg.steps n) = complaints cfg := rfl

theorem bind_err {α β : Type} {x : R α} {f : α → R β} {e : Fail} (h : (x >>= f) = .error e) :
    x = .error e ∨ ∃ a, x = .ok a ∧ f a = .error e := by
  cases x with
  | ok a => exact .inr ⟨a, rfl, h⟩
  | error y => exact .inl (by simpa [bind, Except.bind] using h)

theorem numeral_eq (i : Int) : numeral i = intDisplay i := rfl

theorem numeral_nat (n : Nat) : numeral n = natDisplay n := by
  have : ¬ (n : Int) < 0 := by omega
  rw [numeral, if_neg this]; rfl

theorem brief_eq (v : Value) : v.shortDisplay = brief v := by
  cases v with
  | str s => exact escapeBytes_byteText s
  | array xs h => simp only [Value.shortDisplay, brief, numeral_nat]; rfl
  | _ => rfl

theorem text_mismatch (want : Str) (v : Value) : (Err.typeMismatch want v.shortDisplay).text = expected want v := by
  rw [brief_eq]; rfl

theorem asInteger_err {v : Value} {er : Err} (h : v.asInteger = .error (.err er)) :
    (∀ n, v ≠ .int n) ∧ er.text = expected s!' "integer" v := by
  cases v <;> simp only [Value.asInteger, Value.mismatch, R.err, Except.error.injEq, Fail.err.injEq, reduceCtorEq] at h <;>
    (subst h; exact ⟨by simp, text_mismatch _ _⟩)

theorem asBoolean_err {v : Value} {er : Err} (h : v.asBoolean = .error (.err er)) :
    (∀ n, v ≠ .bool n) ∧ er.text = expected s!' "boolean" v := by
  cases v <;> simp only [Value.asBoolean, Value.mismatch, R.err, Except.error.injEq, Fail.err.injEq, reduceCtorEq] at h <;>
    (subst h; exact ⟨by simp, text_mismatch _ _⟩)

theorem asVec_err {v : Value} {er : Err} (h : v.asVec = .error (.err er)) :
    (∀ xs k, v ≠ .array xs k) ∧ er.text = expected s!' "array" v := by
  cases v <;> simp only [Value.asVec, Value.mismatch, R.err, Except.error.injEq, Fail.err.injEq, reduceCtorEq] at h <;>
    (subst h; exact ⟨by simp, text_mismatch _ _⟩)

theorem asFunction_err {v : Value} {er : Err} (h : v.asFunction = .error (.err er)) :
    (∀ f, v ≠ .func f) ∧ er.text = expected s!' "function" v := by
  cases v <;> simp only [Value.asFunction, Value.mismatch, R.err, Except.error.injEq, Fail.err.injEq, reduceCtorEq] at h <;>
    (subst h; exact ⟨by simp, text_mismatch _ _⟩)

theorem asStruct_err {v : Value} {er : Err} (h : v.asStruct = .error (.err er)) :
    (∀ n k fs, v ≠ .struct n k fs) ∧ er.text = expected s!' "struct" v := by
  cases v <;> simp only [Value.asStruct, Value.mismatch, R.err, Except.error.injEq, Fail.err.injEq, reduceCtorEq] at h <;>
    (subst h; exact ⟨by simp, text_mismatch _ _⟩)

theorem not_integer {v : Value} (h : ∀ n, v ≠ .int n) : v.asInteger = .error (.err (.typeMismatch s!' "integer" v.shortDisplay)) := by
  cases v <;> first | rfl | exact absurd rfl (h _)
theorem not_boolean {v : Value} (h : ∀ n, v ≠ .bool n) : v.asBoolean = .error (.err (.typeMismatch s!' "boolean" v.shortDisplay)) := by
  cases v <;> first | rfl | exact absurd rfl (h _)
theorem not_array {v : Value} (h : ∀ xs k, v ≠ .array xs k) : v.asVec = .error (.err (.typeMismatch s!' "array" v.shortDisplay)) := by
  cases v <;> first | rfl | exact absurd rfl (h _ _)
theorem not_function {v : Value} (h : ∀ f, v ≠ .func f) : v.asFunction = .error (.err (.typeMismatch s!' "function" v.shortDisplay)) := by
  cases v <;> first | rfl | exact absurd rfl (h _)
theorem not_struct {v : Value} (h : ∀ n k fs, v ≠ .struct n k fs) : v.asStruct = .error (.err (.typeMismatch s!' "struct" v.shortDisplay)) := by
  cases v <;> first | rfl | exact absurd rfl (h _ _ _)

theorem orErr_err {α : Type} {o : Option α} {e er : Err} (h : orErr o e = .error (.err er)) : o = none ∧ er = e := by
  cases o with
  | none => simp only [orErr, R.err, Except.error.injEq, Fail.err.injEq] at h; exact ⟨rfl, h.symm⟩
  | some b => simp [orErr] at h

theorem ensure_err {c : Bool} {e er : Err} (h : ensure c e = .error (.err er)) : c = false ∧ er = e := by
  cases c with
  | false => simp only [ensure, Bool.false_eq_true, if_false, R.err, Except.error.injEq, Fail.err.injEq] at h; exact ⟨rfl, h.symm⟩
  | true => simp [ensure] at h

theorem tryUnsigned_fails {bits : Nat} {x : Int} {er : Err} (h : tryUnsigned bits x = .error (.err er)) :
    (x < 0 ∨ ((2 ^ bits : Nat) : Int) ≤ x) ∧ er = .conversion := by
  unfold tryUnsigned at h
  cases x with
  | ofNat n =>
    simp only at h
    split at h
    · simp at h
    · rename_i hn
      simp only [R.err, Except.error.injEq, Fail.err.injEq] at h
      refine ⟨.inr ?_, h.symm⟩
      have : 2 ^ bits ≤ n := Nat.le_of_not_lt hn
      exact Int.ofNat_le.mpr this
  | negSucc n =>
    simp only [R.err, Except.error.injEq, Fail.err.injEq] at h
    exact ⟨.inl (Int.negSucc_lt_zero n), h.symm⟩

/-- operators on two integers that fail do so by the rules -/
theorem intFails_rule (cfg : Cfg) (st : State) {op : BinOp} {a b : Int} {er : Err}
    (h : binop op (.ok (.int a)) (.ok (.int b)) = .error (.err er)) (hop : ¬ BoolOp op) : IntFails op a b er.text := by
  have ha : evalExpr cfg st (.int a) = .ok (.int a) := by rw [evalExpr]
  have hb : evalExpr cfg st (.int b) = .ok (.int b) := by rw [evalExpr]
  rw [← bin_ints cfg st] at h
  cases op with
  | lor => exact absurd (.inl rfl) hop
  | land => exact absurd (.inr rfl) hop
  | eq => rw [bin_ints] at h; simp [binop, bind, Except.bind] at h
  | ne => rw [bin_ints] at h; simp [binop, bind, Except.bind] at h
  | plus =>
    rw [C22_add cfg st ha hb] at h
    split at h
    · simp at h
    · simp only [Except.error.injEq, Fail.err.injEq] at h; subst h; exact .plus ‹_›
  | minus =>
    rw [C22_sub cfg st ha hb] at h
    split at h
    · simp at h
    · simp only [Except.error.injEq, Fail.err.injEq] at h; subst h; exact .minus ‹_›
  | mul =>
    rw [C22_mul cfg st ha hb] at h
    split at h
    · simp at h
    · simp only [Except.error.injEq, Fail.err.injEq] at h; subst h; exact .mul ‹_›
  | div =>
    rw [C22_div cfg st ha hb] at h
    by_cases h0 : b = 0
    · rw [if_pos h0] at h
      simp only [Except.error.injEq, Fail.err.injEq] at h; subst h; subst h0; exact .divZero
    · rw [if_neg h0] at h
      split at h
      · simp at h
      · simp only [Except.error.injEq, Fail.err.injEq] at h; subst h; exact .div h0 (divides_tdiv h0) ‹_›
  | mod =>
    rw [C22_rem cfg st ha hb] at h
    by_cases h0 : b = 0
    · rw [if_pos h0] at h
      simp only [Except.error.injEq, Fail.err.injEq] at h; subst h; subst h0; exact .modZero
    · rw [if_neg h0] at h
      split at h
      · simp at h
      · simp only [Except.error.injEq, Fail.err.injEq] at h; subst h; exact .mod h0 (divides_tdiv h0) ‹_›
  | band => obtain ⟨c, h1, -⟩ := (C25_bitwise cfg st ha hb).1; rw [h1] at h; simp at h
  | bor => obtain ⟨c, h1, -⟩ := (C25_bitwise cfg st ha hb).2.1; rw [h1] at h; simp at h
  | bxor => obtain ⟨c, h1, -⟩ := (C25_bitwise cfg st ha hb).2.2; rw [h1] at h; simp at h
  | lt => rw [(C29_ordering cfg st ha hb).1] at h; simp at h
  | le => rw [(C29_ordering cfg st ha hb).2.1] at h; simp at h
  | gt => rw [(C29_ordering cfg st ha hb).2.2.1] at h; simp at h
  | ge => rw [(C29_ordering cfg st ha hb).2.2.2] at h; simp at h
  | shl =>
    obtain ⟨k1, k2⟩ := C26_amount_error cfg st ha hb
    by_cases hn : b < 0 ∨ 2 ^ 32 ≤ b
    · rw [(k2 hn).1] at h
      simp only [Except.error.injEq, Fail.err.injEq] at h; subst h; exact .shlFar hn
    · by_cases hm : 128 ≤ b
      · rw [(k1 hm (by omega)).1] at h
        simp only [Except.error.injEq, Fail.err.injEq] at h; subst h; exact .shl hm (by omega)
      · obtain ⟨n, rfl⟩ := Int.eq_ofNat_of_zero_le (a := b) (by omega)
        obtain ⟨c, h1, -⟩ := C26_shl_partial cfg st ha hb (by omega)
        rw [h1] at h; simp at h
  | shr =>
    obtain ⟨k1, k2⟩ := C26_amount_error cfg st ha hb
    by_cases hn : b < 0 ∨ 2 ^ 32 ≤ b
    · rw [(k2 hn).2] at h
      simp only [Except.error.injEq, Fail.err.injEq] at h; subst h; exact .shrFar hn
    · by_cases hm : 128 ≤ b
      · rw [(k1 hm (by omega)).2] at h
        simp only [Except.error.injEq, Fail.err.injEq] at h; subst h; exact .shr hm (by omega)
      · obtain ⟨n, rfl⟩ := Int.eq_ofNat_of_zero_le (a := b) (by omega)
        obtain ⟨c, h1, -⟩ := C26_shr cfg st ha hb (by omega)
        rw [h1] at h; simp at h

/-- and the other way round -/
theorem rule_intFails (cfg : Cfg) (st : State) {op : BinOp} {a b : Int} {m : Option Str} (h : IntFails op a b m) :
    ∃ er, binop op (.ok (.int a)) (.ok (.int b)) = .error (.err er) ∧ er.text = m := by
  have ha : evalExpr cfg st (.int a) = .ok (.int a) := by rw [evalExpr]
  have hb : evalExpr cfg st (.int b) = .ok (.int b) := by rw [evalExpr]
  rw [← bin_ints cfg st]
  cases h with
  | plus h => rw [C22_add cfg st ha hb, if_neg h]; exact ⟨_, rfl, rfl⟩
  | minus h => rw [C22_sub cfg st ha hb, if_neg h]; exact ⟨_, rfl, rfl⟩
  | mul h => rw [C22_mul cfg st ha hb, if_neg h]; exact ⟨_, rfl, rfl⟩
  | divZero => rw [C22_div cfg st ha hb, if_pos rfl]; exact ⟨_, rfl, rfl⟩
  | modZero => rw [C22_rem cfg st ha hb, if_pos rfl]; exact ⟨_, rfl, rfl⟩
  | div h0 hd hf =>
    rw [C22_div cfg st ha hb, if_neg h0, ← (C24_unique hd (divides_tdiv h0)).1, if_neg hf]; exact ⟨_, rfl, rfl⟩
  | mod h0 hd hf =>
    rw [C22_rem cfg st ha hb, if_neg h0, ← (C24_unique hd (divides_tdiv h0)).1, if_neg hf]; exact ⟨_, rfl, rfl⟩
  | shl h1 h2 => exact ⟨_, ((C26_amount_error cfg st ha hb).1 h1 h2).1, rfl⟩
  | shr h1 h2 => exact ⟨_, ((C26_amount_error cfg st ha hb).1 h1 h2).2, rfl⟩
  | shlFar h => exact ⟨_, ((C26_amount_error cfg st ha hb).2 h).1, rfl⟩
  | shrFar h => exact ⟨_, ((C26_amount_error cfg st ha hb).2 h).2, rfl⟩

/-- an integer operation that fails -/
theorem intOp_err {f : Int → Int → R Value} {l r : R Value} {er : Err} (h : intOp f l r = .error (.err er)) :
    l = .error (.err er) ∨ (∃ v, l = .ok v ∧ (∀ n, v ≠ .int n) ∧ er.text = expected s!' "integer" v) ∨
    ∃ a, l = .ok (.int a) ∧ (r = .error (.err er) ∨
      (∃ v, r = .ok v ∧ (∀ n, v ≠ .int n) ∧ er.text = expected s!' "integer" v) ∨
      ∃ b, r = .ok (.int b) ∧ f a b = .error (.err er)) := by
  unfold intOp at h
  rcases bind_err h with h | ⟨lv, h1, h⟩
  · exact .inl h
  rcases bind_err h with h | ⟨a, h2, h⟩
  · exact .inr (.inl ⟨lv, h1, asInteger_err h⟩)
  rw [asInteger_inv h2] at h1
  refine .inr (.inr ⟨a, h1, ?_⟩)
  rcases bind_err h with h | ⟨rv, h3, h⟩
  · exact .inl h
  rcases bind_err h with h | ⟨b, h4, h⟩
  · exact .inr (.inl ⟨rv, h3, asInteger_err h⟩)
  rw [asInteger_inv h4] at h3
  exact .inr (.inr ⟨b, h3, h⟩)

theorem plusOp_err {v w : Value} {er : Err} (h : plusOp v w = .error (.err er)) :
    (∃ a b, v = .int a ∧ w = .int b) ∨ (¬ Addable v w ∧ er = .cannotAdd v.typeStr w.typeStr) := by
  unfold plusOp at h
  split at h
  · exact .inl ⟨_, _, rfl, rfl⟩
  · simp at h
  · simp at h
  · rename_i l r h1 h2 h3
    simp only [R.err, Except.error.injEq, Fail.err.injEq] at h
    refine .inr ⟨fun ha => ?_, h.symm⟩
    cases ha with
    | ints a b => exact h2 a b rfl rfl
    | append xs k v => exact h1 xs k rfl
    | concat s t => exact h3 s t rfl rfl

/-- a binary operation that fails does so by one of the rules -/
theorem binop_fails (cfg : Cfg) (σ : State) {W : World} {C : Complaints} {op : BinOp} {l r : Expr} {lv rv : R Value}
    {er : Err} (hl : ∀ u, lv = .ok u → Ev W σ l u) (hr : ∀ u, rv = .ok u → Ev W σ r u)
    (kl : lv = .error (.err er) → Complains W C σ l er.text) (kr : rv = .error (.err er) → Complains W C σ r er.text)
    (h : binop op lv rv = .error (.err er)) : Complains W C σ (.bin op l r) er.text := by
  have ints : ∀ f, binop op = intOp f → OnlyInts op → Complains W C σ (.bin op l r) er.text := by
    intro f hf hop
    have h' := h
    rw [hf] at h'
    rcases intOp_err h' with h1 | ⟨v, h1, h2, h3⟩ | ⟨a, h1, h2 | ⟨v, h2, h3, h4⟩ | ⟨b, h2, h3⟩⟩
    · exact .left (kl h1)
    · rw [h3]; exact .leftInt hop (hl _ h1) h2
    · exact .rightOfInt hop (hl _ h1) (kr h2)
    · rw [h4]; exact .rightInt hop (hl _ h1) (hr _ h2) h3
    · rw [h1, h2] at h; exact .ints (hl _ h1) (hr _ h2) (intFails_rule cfg σ h hop.2)
  have any : ∀ f : Value → Value → R Value, binop op = (fun l r => do let a ← l; let b ← r; f a b) → AnyOp op →
      (∃ v w, lv = .ok v ∧ rv = .ok w ∧ f v w = .error (.err er)) ∨ Complains W C σ (.bin op l r) er.text := by
    intro f hf hop
    rw [hf] at h
    rcases bind_err h with h1 | ⟨a, h1, h⟩
    · exact .inr (.left (kl h1))
    rcases bind_err h with h2 | ⟨b, h2, h⟩
    · exact .inr (.rightOfAny hop (hl _ h1) (kr h2))
    · exact .inl ⟨a, b, h1, h2, h⟩
  cases op
  case plus =>
    rcases any _ rfl (.inl rfl) with ⟨v, w, h1, h2, h3⟩ | h
    · rcases plusOp_err h3 with ⟨a, b, rfl, rfl⟩ | ⟨h4, rfl⟩
      · rw [h1, h2] at h; exact .ints (hl _ h1) (hr _ h2) (intFails_rule cfg σ h (by simp [BoolOp]))
      · obtain ⟨n, hn⟩ := typeName_total v
        obtain ⟨n', hn'⟩ := typeName_total w
        rw [typeName_typeStr hn, typeName_typeStr hn']
        exact .add (hl _ h1) (hr _ h2) h4 hn hn'
    · exact h
  case eq =>
    rcases any _ rfl (.inr (.inl rfl)) with ⟨v, w, h1, h2, h3⟩ | h
    · simp at h3
    · exact h
  case ne =>
    rcases any _ rfl (.inr (.inr rfl)) with ⟨v, w, h1, h2, h3⟩ | h
    · simp at h3
    · exact h
  case lor =>
    simp only [binop] at h
    rcases bind_err h with h1 | ⟨a, h1, h⟩
    · exact .left (kl h1)
    rcases bind_err h with h2 | ⟨b, h2, h⟩
    · obtain ⟨h3, h4⟩ := asBoolean_err h2
      rw [h4]; exact .leftBool (.inl rfl) (hl _ h1) h3
    rw [asBoolean_inv h2] at h1
    cases b with
    | true => simp at h
    | false =>
      simp only [Bool.false_eq_true, if_false] at h
      rcases bind_err h with h3 | ⟨b, h3, h⟩
      · exact .rightOfOr (hl _ h1) (kr h3)
      rcases bind_err h with h4 | ⟨c, h4, h⟩
      · obtain ⟨h5, h6⟩ := asBoolean_err h4
        rw [h6]; exact .orBool (hl _ h1) (hr _ h3) h5
      · simp at h
  case land =>
    simp only [binop] at h
    rcases bind_err h with h1 | ⟨a, h1, h⟩
    · exact .left (kl h1)
    rcases bind_err h with h2 | ⟨b, h2, h⟩
    · obtain ⟨h3, h4⟩ := asBoolean_err h2
      rw [h4]; exact .leftBool (.inr rfl) (hl _ h1) h3
    rw [asBoolean_inv h2] at h1
    cases b with
    | false => simp at h
    | true =>
      simp only [Bool.not_true, Bool.false_eq_true, if_false] at h
      rcases bind_err h with h3 | ⟨b, h3, h⟩
      · exact .rightOfAnd (hl _ h1) (kr h3)
      rcases bind_err h with h4 | ⟨c, h4, h⟩
      · obtain ⟨h5, h6⟩ := asBoolean_err h4
        rw [h6]; exact .andBool (hl _ h1) (hr _ h3) h5
      · simp at h
  all_goals exact ints _ rfl (by simp [OnlyInts, AnyOp, BoolOp])

theorem negI128_err {b : Build} {i : Int} {er : Err} : negI128 b i ≠ .error (.err er) := by
  unfold negI128
  split
  · split <;> simp
  · simp

theorem unop_fails {σ : State} {W : World} {C : Complaints} {b : Build} {op : UnOp} {e : Expr} {r : R Value} {er : Err}
    (he : ∀ u, r = .ok u → Ev W σ e u) (ke : r = .error (.err er) → Complains W C σ e er.text)
    (h : unop b op r = .error (.err er)) : Complains W C σ (.un op e) er.text := by
  cases op with
  | bitNot =>
    simp only [unop] at h
    rcases bind_err h with h1 | ⟨a, h1, h⟩
    · exact .operand (ke h1)
    rcases bind_err h with h2 | ⟨b, h2, h⟩
    · obtain ⟨h3, h4⟩ := asInteger_err h2
      rw [h4]; exact .bitNot (he _ h1) h3
    · simp at h
  | minus =>
    simp only [unop] at h
    rcases bind_err h with h1 | ⟨a, h1, h⟩
    · exact .operand (ke h1)
    rcases bind_err h with h2 | ⟨b, h2, h⟩
    · obtain ⟨h3, h4⟩ := asInteger_err h2
      rw [h4]; exact .minus (he _ h1) h3
    rcases bind_err h with h2 | ⟨b, h2, h⟩
    · exact absurd h2 negI128_err
    · simp at h
  | not =>
    simp only [unop] at h
    rcases bind_err h with h1 | ⟨a, h1, h⟩
    · exact .operand (ke h1)
    have := he _ h1
    cases a <;> simp only [Value.mismatch, R.err, Except.error.injEq, Fail.err.injEq, reduceCtorEq] at h <;>
      (subst h; rw [text_mismatch]; exact .not this (by simp) (by simp))

/-- the integer arguments of `key()`: the first that fails or is no integer -/
theorem intArgs_err {σ : State} {cfg : Cfg} {er : Err} : ∀ {es : List Expr},
    intArgs (es.map (evalExpr cfg σ)) = .error (.err er) →
    ∃ before e after, es = before ++ e :: after ∧ (∀ x ∈ before, ∃ a, evalExpr cfg σ x = .ok (.int a)) ∧
      (evalExpr cfg σ e = .error (.err er) ∨
        ∃ v, evalExpr cfg σ e = .ok v ∧ (∀ n, v ≠ .int n) ∧ er.text = expected s!' "integer" v)
  | [], h => by simp [intArgs] at h
  | e :: es, h => by
    simp only [List.map_cons, intArgs] at h
    rcases bind_err h with h1 | ⟨v, h1, h⟩
    · exact ⟨[], e, es, rfl, by simp, .inl h1⟩
    rcases bind_err h with h2 | ⟨a, h2, h⟩
    · exact ⟨[], e, es, rfl, by simp, .inr ⟨v, h1, asInteger_err h2⟩⟩
    rw [asInteger_inv h2] at h1
    rcases bind_err h with h3 | ⟨vs, h3, h⟩
    · obtain ⟨b, x, as, rfl, hb, hx⟩ := intArgs_err h3
      refine ⟨e :: b, x, as, rfl, fun y hy => ?_, hx⟩
      rcases List.mem_cons.1 hy with rfl | hy
      · exact ⟨a, h1⟩
      · exact hb y hy
    · simp at h

theorem arg1_err {msg : Str} {args : List (R Value)} {er : Err} (h : arg1 msg args = .error (.err er)) :
    (args.length ≠ 1 ∧ er = .argCount msg) ∨ args = [.error (.err er)] := by
  unfold arg1 at h
  rcases bind_err h with h | ⟨_, h1, h⟩
  · obtain ⟨h1, rfl⟩ := ensure_err h
    exact .inl ⟨by simpa using h1, rfl⟩
  · have := ensure_inv h1
    match args, this with
    | [a], _ => have h : a = .error (.err er) := h; exact .inr (by rw [h])

theorem findStruct_some {name : Str} {s : StructDef} (h : findStruct name = some s) : s ∈ structs ∧ s.name = name := by
  unfold findStruct at h
  exact ⟨List.mem_of_find?_eq_some h, by simpa using List.find?_some h⟩

/-- a cast that fails does so by one of the rules -/
theorem cast_fails (cfg : Cfg) (σ : State) {W : World} {ty e : Expr} {r : R Value} {er : Err}
    (he : ∀ u, r = .ok u → Ev W σ e u)
    (ke : r = .error (.err er) → Complains W (complaints cfg) σ e er.text)
    (h : castOp cfg.build σ.fs ty r = .error (.err er)) : Complains W (complaints cfg) σ (.cast ty e) er.text := by
  have h0 := h
  simp only [castOp] at h
  rcases bind_err h with h1 | ⟨a, h1, h⟩
  · exact .castOf (ke h1)
  rcases bind_err h with h2 | ⟨p, h2, h⟩
  · obtain ⟨h3, h4⟩ := asInteger_err h2
    rw [h4]; exact .castInt (he _ h1) h3
  rw [asInteger_inv h2] at h1
  by_cases hp : p < 0
  · rw [if_pos hp] at h
    simp only [R.err, Except.error.injEq, Fail.err.injEq] at h
    subst h
    exact .castNegative (he _ h1) hp
  · rw [if_neg hp] at h
    cases ty with
    | ident name =>
      simp only at h
      cases hs : findStruct name with
      | none => rw [hs] at h; simp at h
      | some s =>
        rw [hs] at h
        obtain ⟨h3, hname⟩ := findStruct_some hs
        cases hf : σ.fs with
        | none =>
          simp only [hf, R.err, Except.error.injEq, Fail.err.injEq] at h
          subst h
          rw [← hname]
          exact .castNoFs h3 (he _ h1) (by omega) hf
        | some fs =>
          obtain ⟨n, rfl⟩ := Int.eq_ofNat_of_zero_le (a := p) (by omega)
          refine .cast (he _ h1) hf ⟨er, ?_, rfl⟩
          rw [h1, hf] at h0
          exact h0
    | _ => simp at h

/-- `search()` that fails does so by one of the rules -/
theorem search_fails (cfg : Cfg) (σ : State) {W : World} {f : Expr} {args : List Expr} {er : Err}
    (hf : Ev W σ f (.func .search)) (he : ∀ e ∈ args, ∀ v, evalExpr cfg σ e = .ok v → Ev W σ e v)
    (ke : ∀ e ∈ args, evalExpr cfg σ e = .error (.err er) → Complains W (complaints cfg) σ e er.text)
    (h : searchFn cfg σ.fs (args.map (evalExpr cfg σ)) = .error (.err er)) :
    Complains W (complaints cfg) σ (.call f args) er.text := by
  have h0 := h
  simp only [searchFn] at h
  rcases bind_err h with h1 | ⟨_, h1, h⟩
  · obtain ⟨h2, rfl⟩ := ensure_err h1
    exact .searchCount hf (by simpa using h2)
  have hl := ensure_inv h1
  match args, hl, he, ke, h0, h with
  | [e₁, e₂], _, he, ke, h0, h =>
    simp only [List.map_cons, List.map_nil] at h h0
    rcases bind_err h with h2 | ⟨v, h2, h⟩
    · exact .searchTree hf (ke _ (by simp) h2)
    rcases bind_err h with h3 | ⟨tree, h3, h⟩
    · obtain ⟨h4, h5⟩ := asInteger_err h3
      rw [h5]; exact .searchInt hf (he _ (by simp) _ h2) h4
    rw [asInteger_inv h3] at h2
    rcases bind_err h with h4 | ⟨w, h4, h⟩
    · exact .searchKey hf (he _ (by simp) _ h2) (ke _ (by simp) h4)
    rcases bind_err h with h5 | ⟨k, h5, h⟩
    · obtain ⟨h6, h7⟩ := asStruct_err h5
      rw [h7]; exact .searchStruct hf (he _ (by simp) _ h2) (he _ (by simp) _ h4) h6
    obtain ⟨kn, kk, kf⟩ := k
    have hw := asStruct_inv h5
    simp only at hw
    rw [hw] at h4
    rcases bind_err h with h6 | ⟨_, h6, h⟩
    · obtain ⟨h7, rfl⟩ := ensure_err h6
      refine .searchKind hf (he _ (by simp) _ h2) (he _ (by simp) _ h4) ?_
      intro hn
      simp only at h7
      rw [hn] at h7
      exact absurd h7 (by decide)
    have hn := ensure_inv h6
    have hn : kn = s!' "_btrfs_ioctl_search_key" := (by simpa using hn : kn = BTRFS_SEARCH_KEY.name)
    subst hn
    cases hfs : σ.fs with
    | none =>
      rw [hfs] at h
      simp only [R.err, Except.error.injEq, Fail.err.injEq] at h
      subst h
      exact .searchNoFs hf (he _ (by simp) _ h2) (he _ (by simp) _ h4) hfs
    | some x =>
      refine .search hf (he _ (by simp) _ h2) (he _ (by simp) _ h4) hfs ⟨cfg.fuel, er, ?_, rfl⟩
      rw [h2, h4, hfs] at h0
      exact h0

theorem intArgs_ints {cfg : Cfg} {σ : State} : ∀ {es : List Expr} {vs : List Value},
    intArgs (es.map (evalExpr cfg σ)) = .ok vs → ∀ e ∈ es, ∃ a, evalExpr cfg σ e = .ok (.int a)
  | [], _, _ => by simp
  | e :: es, vs, h => by
    simp only [List.map_cons, intArgs] at h
    obtain ⟨v, h1, h⟩ := bind_ok h
    obtain ⟨a, h2, h⟩ := bind_ok h
    obtain ⟨ws, h3, h⟩ := bind_ok h
    rw [asInteger_inv h2] at h1
    intro x hx
    rcases List.mem_cons.1 hx with rfl | hx
    · exact ⟨a, h1⟩
    · exact intArgs_ints h3 x hx

mutual
/-- **an error of the evaluator**, at any bound, has the message of the rules -/
theorem complains_of_eval (cfg : Cfg) (σ : State) : ∀ (e : Expr) (er : Err), evalExpr cfg σ e = .error (.err er) →
    Complains (world cfg) (complaints cfg) σ e er.text
  | .ident x, er, h => by
    rw [evalExpr] at h
    obtain ⟨h1, rfl⟩ := orErr_err h
    refine .var fun v hv => ?_
    rw [holds_get.2 hv] at h1
    simp at h1
  | .int i, er, h => by rw [evalExpr] at h; simp at h
  | .bool b, er, h => by rw [evalExpr] at h; simp at h
  | .str s, er, h => by rw [evalExpr] at h; simp at h
  | .paren e, er, h => by rw [evalExpr] at h; exact .paren (complains_of_eval cfg σ e er h)
  | .field e f, er, h => by
    rw [evalExpr] at h
    simp only [fieldOp] at h
    rcases bind_err h with h1 | ⟨v, h1, h⟩
    · exact .fieldOf (complains_of_eval cfg σ e er h1)
    rcases bind_err h with h2 | ⟨s, h2, h⟩
    · obtain ⟨h3, h4⟩ := asStruct_err h2
      rw [h4]; exact .fieldKind (ev_of_eval cfg σ e _ h1) h3
    rw [asStruct_inv h2] at h1
    have h1 := ev_of_eval cfg σ e _ h1
    by_cases hn : ∃ n, f = .ident n
    · obtain ⟨n, rfl⟩ := hn
      obtain ⟨h3, rfl⟩ := orErr_err h
      refine .fieldNone h1 fun v hv => ?_
      rw [firstField_iff.2 hv] at h3
      simp at h3
    · have hn : ∀ n, f ≠ .ident n := fun n h => hn ⟨n, h⟩
      have : er = .notIdentifier s!' "Field in a field access must be an identifier" := by
        cases f <;> first | exact absurd rfl (hn _) | (simp only [R.err, Except.error.injEq, Fail.err.injEq] at h; exact h.symm)
      subst this
      exact .fieldName h1 hn
  | .index e i, er, h => by
    rw [evalExpr] at h
    simp only [indexOp] at h
    rcases bind_err h with h1 | ⟨v, h1, h⟩
    · exact .indexOf (complains_of_eval cfg σ e er h1)
    rcases bind_err h with h2 | ⟨xs, h2, h⟩
    · obtain ⟨h3, h4⟩ := asVec_err h2
      rw [h4]; exact .indexKind (ev_of_eval cfg σ e _ h1) h3
    obtain ⟨k, hk⟩ := asVec_inv h2
    rw [hk] at h1
    have h1 := ev_of_eval cfg σ e _ h1
    rcases bind_err h with h3 | ⟨iv, h3, h⟩
    · exact .index h1 (complains_of_eval cfg σ i er h3)
    rcases bind_err h with h4 | ⟨idx, h4, h⟩
    · obtain ⟨h5, h6⟩ := asInteger_err h4
      rw [h6]; exact .indexInt h1 (ev_of_eval cfg σ i _ h3) h5
    rw [asInteger_inv h4] at h3
    have h3 := ev_of_eval cfg σ i _ h3
    rcases bind_err h with h5 | ⟨n, h5, hh⟩
    · obtain ⟨h6, rfl⟩ := tryUnsigned_fails h5
      exact .indexFar h1 h3 h6
    · obtain ⟨rfl, h7⟩ := tryUnsigned_inv h5
      obtain ⟨h8, rfl⟩ := orErr_err hh
      have hlen : xs.length ≤ n := by simpa using h8
      have : (Err.indexRange n xs.length).text = noSuchIndex n xs.length := by
        rw [noSuchIndex, numeral_nat xs.length]; rfl
      rw [this]
      exact .indexNone h1 h3 h7 hlen
  | .bin op l r, er, h => by
    rw [evalExpr] at h
    exact binop_fails cfg σ (fun u hu => ev_of_eval cfg σ l u hu) (fun u hu => ev_of_eval cfg σ r u hu)
      (complains_of_eval cfg σ l er) (complains_of_eval cfg σ r er) h
  | .un op e, er, h => by
    rw [evalExpr] at h
    exact unop_fails (fun u hu => ev_of_eval cfg σ e u hu) (complains_of_eval cfg σ e er) h
  | .cast ty e, er, h => by
    rw [evalExpr] at h
    exact cast_fails cfg σ (fun u hu => ev_of_eval cfg σ e u hu) (complains_of_eval cfg σ e er) h
  | .call f args, er, h => by
    have h0 := h
    have hargs := ev_of_args cfg σ args
    have kargs := complains_of_args cfg σ args er
    rw [evalExpr] at h
    simp only [callFn] at h
    rcases bind_err h with h1 | ⟨fv, h1, h⟩
    · exact .callee (complains_of_eval cfg σ f er h1)
    rcases bind_err h with h2 | ⟨fn, h2, h⟩
    · obtain ⟨h3, h4⟩ := asFunction_err h2
      rw [h4]; exact .calleeKind (ev_of_eval cfg σ f _ h1) h3
    rw [asFunction_inv h2] at h1
    have hf := ev_of_eval cfg σ f _ h1
    rw [evalExpr_call cfg σ f fn args h1] at h0
    clear h h2
    have one : ∀ {msg} {k : Value → R Value}, OneArg fn msg →
        (arg1 msg (args.map (evalExpr cfg σ)) >>= k) = .error (.err er) →
        Complains (world cfg) (complaints cfg) σ (.call f args) er.text ∨
        ∃ e v, args = [e] ∧ evalExpr cfg σ e = .ok v ∧ Ev (world cfg) σ e v ∧ k v = .error (.err er) := by
      intro msg k ho hk
      rcases bind_err hk with h2 | ⟨v, h2, h3⟩
      · rcases arg1_err h2 with ⟨h3, rfl⟩ | h3
        · exact .inl (.oneCount hf ho (by simpa using h3))
        · obtain ⟨e, rfl⟩ : ∃ e, args = [e] := List.length_eq_one_iff.1 (by simpa using congrArg List.length h3)
          simp only [List.map_cons, List.map_nil, List.cons.injEq, and_true] at h3
          exact .inl (.oneArg hf ho (kargs e (by simp) h3))
      · have ha := arg1_ok h2
        match args, ha with
        | [e], ha =>
          simp only [List.map_cons, List.map_nil, List.cons.injEq, and_true] at ha
          exact .inr ⟨e, v, rfl, ha, hargs e (by simp) _ ha, h3⟩
    cases fn with
    | key =>
      rw [callFn_key] at h0
      simp only [keyFn] at h0
      rcases bind_err h0 with h2 | ⟨_, h2, h⟩
      · obtain ⟨h3, rfl⟩ := ensure_err h2
        exact .keyCount hf (by simpa using h3)
      have hl := ensure_inv h2
      have hl : args.length = 4 := by simpa using hl
      rcases bind_err h with h3 | ⟨vs, h3, h⟩
      · obtain ⟨b, x, as, rfl, hb, hx⟩ := intArgs_err h3
        have hb' : ∀ y ∈ b, ∃ a, Ev (world cfg) σ y (.int a) := fun y hy => by
          obtain ⟨a, ha⟩ := hb y hy
          exact ⟨a, hargs y (by simp [hy]) _ ha⟩
        rcases hx with hx | ⟨v, hx, h4, h5⟩
        · exact .keyArg hf hl hb' (kargs x (by simp) hx)
        · rw [h5]; exact .keyInt hf hl hb' (hargs x (by simp) _ hx) h4
      · exfalso
        have hok : ∃ v, evalExpr cfg σ (.call f args) = .ok v := by
          refine (C47_key_iff cfg σ f args h1).2 ⟨hl, fun e he => ?_⟩
          exact intArgs_ints h3 e he
        obtain ⟨v, hv⟩ := hok
        rw [evalExpr_call cfg σ f _ args h1, callFn_key] at hv
        simp only [keyFn] at hv
        rw [hv] at h0
        simp at h0
    | search =>
      rw [callFn_search] at h0
      exact search_fails cfg σ hf hargs kargs h0
    | typeOf =>
      rw [callFn_typeOf] at h0
      rcases one .typeOf h0 with h | ⟨e, v, rfl, hv, h2, h3⟩
      · exact h
      · simp at h3
    | keyOf =>
      rw [callFn_keyOf] at h0
      rcases one .keyOf h0 with h | ⟨e, v, rfl, hv, h2, h3⟩
      · exact h
      · rcases bind_err h3 with h4 | ⟨s, h4, h5⟩
        · obtain ⟨h6, h7⟩ := asStruct_err h4
          rw [h7]; exact .keyOfStruct hf h2 h6
        · rw [asStruct_inv h4] at h2
          obtain ⟨sn, sk, sf⟩ := s
          cases sk with
          | none =>
            simp only [R.err, Except.error.injEq, Fail.err.injEq] at h5
            subst h5
            exact .keyOfNone hf h2
          | some k =>
            exfalso
            obtain ⟨o, t, p⟩ := k
            rw [asStruct_inv h4] at hv
            have := C48_keyof cfg σ f e _ o t p _ h1 hv
            rw [evalExpr_call cfg σ f _ _ h1, callFn_keyOf, h0] at this
            simp at this
    | len =>
      rw [callFn_len] at h0
      rcases one .len h0 with h | ⟨e, v, rfl, hv, h2, h3⟩
      · exact h
      · rcases bind_err h3 with h4 | ⟨xs, h4, hh⟩
        · obtain ⟨h6, h7⟩ := asVec_err h4
          rw [h7]; exact .lenArray hf h2 h6
        · obtain ⟨k, hk⟩ := asVec_inv h4
          rw [hk] at h2
          split at hh
          · simp at hh
          · rename_i hi
            simp only [R.err, Except.error.injEq, Fail.err.injEq] at hh
            subst hh
            exact .lenHuge hf h2 fun hfit => hi ((inI128_iff _).2 hfit)
    | hist =>
      have h' : histFn (args.map (evalExpr cfg σ)) = .error (.err er) := h0
      simp only [histFn] at h'
      rcases bind_err h' with h2 | ⟨_, h2, h⟩
      · obtain ⟨h3, rfl⟩ := ensure_err h2
        exact .histCount hf (by simpa using h3)
      · simp at h
    | str =>
      rw [callFn_str] at h0
      rcases one .str h0 with h | ⟨e, v, rfl, hv, h2, h3⟩
      · exact h
      · exfalso
        obtain ⟨t, ht⟩ := display_total v
        split at h3
        · simp at h3
        · rw [ht] at h3; simp [bind, Except.bind] at h3
theorem complains_of_args (cfg : Cfg) (σ : State) : ∀ (es : List Expr) (er : Err), ∀ e ∈ es,
    evalExpr cfg σ e = .error (.err er) → Complains (world cfg) (complaints cfg) σ e er.text
  | [], er => by simp
  | a :: es, er => by
    have h1 := complains_of_eval cfg σ a er
    have h2 := complains_of_args cfg σ es er
    intro e he h
    rcases List.mem_cons.1 he with he | he
    · subst he
      exact h1 h
    · exact h2 e he h
end

/-! ### what the rules say, the evaluator says -/

/-- from some bound on, the evaluator fails with an error of this text -/
def Says (cfg : Cfg) (σ : State) (e : Expr) (m : Option Str) : Prop :=
  ∃ er n, er.text = m ∧ ∀ k, n ≤ k → evalExpr (cfg.steps k) σ e = .error (.err er)

theorem says_now {cfg : Cfg} {σ : State} {e : Expr} {m : Option Str} (er : Err) (ht : er.text = m)
    (h : ∀ k, evalExpr (cfg.steps k) σ e = .error (.err er)) : Says cfg σ e m := ⟨er, 0, ht, fun k _ => h k⟩

/-- a failing part makes the whole fail -/
theorem says_of {cfg : Cfg} {σ : State} {e e₁ : Expr} {m : Option Str} (h₁ : Says cfg σ e₁ m)
    (h : ∀ k er, evalExpr (cfg.steps k) σ e₁ = .error (.err er) → evalExpr (cfg.steps k) σ e = .error (.err er)) :
    Says cfg σ e m := by
  obtain ⟨er, n, ht, hn⟩ := h₁
  exact ⟨er, n, ht, fun k hk => h k er (hn k hk)⟩

/-- a failing part, after one with a value -/
theorem says_after {cfg : Cfg} {σ : State} {e e₁ e₂ : Expr} {m : Option Str} {v : Value} (h₁ : Gives cfg σ e₁ v)
    (h₂ : Says cfg σ e₂ m)
    (h : ∀ k er, evalExpr (cfg.steps k) σ e₁ = .ok v → evalExpr (cfg.steps k) σ e₂ = .error (.err er) →
      evalExpr (cfg.steps k) σ e = .error (.err er)) : Says cfg σ e m := by
  obtain ⟨n₁, h₁⟩ := h₁
  obtain ⟨er, n, ht, hn⟩ := h₂
  exact ⟨er, max n₁ n, ht, fun k hk => h k er (h₁ k (by omega)) (hn k (by omega))⟩

theorem says1 {cfg : Cfg} {σ : State} {e e₁ : Expr} {m : Option Str} {v : Value} (h₁ : Gives cfg σ e₁ v)
    (er : Err) (ht : er.text = m)
    (h : ∀ k, evalExpr (cfg.steps k) σ e₁ = .ok v → evalExpr (cfg.steps k) σ e = .error (.err er)) : Says cfg σ e m := by
  obtain ⟨n, hn⟩ := h₁
  exact ⟨er, n, ht, fun k hk => h k (hn k hk)⟩

theorem says2 {cfg : Cfg} {σ : State} {e e₁ e₂ : Expr} {m : Option Str} {v v₂ : Value} (h₁ : Gives cfg σ e₁ v)
    (h₂ : Gives cfg σ e₂ v₂) (er : Err) (ht : er.text = m)
    (h : ∀ k, evalExpr (cfg.steps k) σ e₁ = .ok v → evalExpr (cfg.steps k) σ e₂ = .ok v₂ →
      evalExpr (cfg.steps k) σ e = .error (.err er)) : Says cfg σ e m := by
  obtain ⟨n, hn⟩ := h₁
  obtain ⟨n', hn'⟩ := h₂
  exact ⟨er, max n n', ht, fun k hk => h k (hn k (by omega)) (hn' k (by omega))⟩

theorem says3 {cfg : Cfg} {σ : State} {e e₁ e₂ e₃ : Expr} {m : Option Str} {v v₂ v₃ : Value} (h₁ : Gives cfg σ e₁ v)
    (h₂ : Gives cfg σ e₂ v₂) (h₃ : Gives cfg σ e₃ v₃) (er : Err) (ht : er.text = m)
    (h : ∀ k, evalExpr (cfg.steps k) σ e₁ = .ok v → evalExpr (cfg.steps k) σ e₂ = .ok v₂ →
      evalExpr (cfg.steps k) σ e₃ = .ok v₃ → evalExpr (cfg.steps k) σ e = .error (.err er)) : Says cfg σ e m := by
  obtain ⟨n, hn⟩ := h₁
  obtain ⟨n', hn'⟩ := h₂
  obtain ⟨n'', hn''⟩ := h₃
  exact ⟨er, n + n' + n'', ht, fun k hk => h k (hn k (by omega)) (hn' k (by omega)) (hn'' k (by omega))⟩

theorem binop_left_err {op : BinOp} {er : Err} {r : R Value} : binop op (.error (.err er)) r = .error (.err er) := by
  cases op <;> rfl

theorem binop_leftInt {op : BinOp} {v : Value} {r : R Value} (hop : OnlyInts op) (hv : ∀ n, v ≠ .int n) :
    binop op (.ok v) r = .error (.err (.typeMismatch s!' "integer" v.shortDisplay)) := by
  cases op <;> simp only [OnlyInts, AnyOp, BoolOp, reduceCtorEq, or_false, false_or, or_true, not_true_eq_false,
    and_false, false_and] at hop <;>
  simp only [binop, intOp, bind, Except.bind, not_integer hv]

theorem binop_rightOfInt {op : BinOp} {a : Int} {er : Err} (hop : OnlyInts op) :
    binop op (.ok (.int a)) (.error (.err er)) = .error (.err er) := by
  cases op <;> simp only [OnlyInts, AnyOp, BoolOp, reduceCtorEq, or_false, false_or, or_true, not_true_eq_false,
    and_false, false_and] at hop <;> rfl

theorem binop_rightInt {op : BinOp} {a : Int} {v : Value} (hop : OnlyInts op) (hv : ∀ n, v ≠ .int n) :
    binop op (.ok (.int a)) (.ok v) = .error (.err (.typeMismatch s!' "integer" v.shortDisplay)) := by
  cases op <;> simp only [OnlyInts, AnyOp, BoolOp, reduceCtorEq, or_false, false_or, or_true, not_true_eq_false,
    and_false, false_and] at hop <;>
  simp only [binop, intOp, bind, Except.bind, Value.asInteger, not_integer hv]

theorem binop_rightOfAny {op : BinOp} {v : Value} {er : Err} (hop : AnyOp op) :
    binop op (.ok v) (.error (.err er)) = .error (.err er) := by
  rcases hop with rfl | rfl | rfl <;> rfl

theorem binop_leftBool {op : BinOp} {v : Value} {r : R Value} (hop : BoolOp op) (hv : ∀ n, v ≠ .bool n) :
    binop op (.ok v) r = .error (.err (.typeMismatch s!' "boolean" v.shortDisplay)) := by
  rcases hop with rfl | rfl <;> simp only [binop, bind, Except.bind, not_boolean hv]

theorem plusOp_cannot {v w : Value} (h : ¬ Addable v w) :
    plusOp v w = .error (.err (.cannotAdd v.typeStr w.typeStr)) := by
  unfold plusOp
  split
  · exact absurd (.ints _ _) h
  · exact absurd (.append _ _ _) h
  · exact absurd (.concat _ _) h
  · rfl

/-- a search that fails gives the same error for every larger bound -/
theorem search_more_err (cfg : Cfg) (fs : Option Fs) {n m : Nat} (hm : n ≤ m) {rs : List (R Value)} {er : Err}
    (h : searchFn (cfg.steps n) fs rs = .error (.err er)) : searchFn (cfg.steps m) fs rs = .error (.err er) := by
  have hrs : ApxL (· = .diverge) rs rs := by
    clear h
    induction rs with
    | nil => exact .nil
    | cons r rs ih => exact .cons (.refl r) ih
  rcases apx_searchFn (finer_steps cfg hm) fs hrs with h' | ⟨f, hf, h'⟩
  · rw [← h', h]
  · rw [h', Except.error.injEq] at h; subst hf; simp at h

theorem gives_all {cfg : Cfg} {σ : State} {es : List Expr} (h : ∀ x ∈ es, ∃ a, Ev (world cfg) σ x (.int a)) :
    ∃ n, ∀ k, n ≤ k → ∀ x ∈ es, ∃ a, evalExpr (cfg.steps k) σ x = .ok (.int a) := by
  induction es with
  | nil => exact ⟨0, fun _ _ => by simp⟩
  | cons e es ih =>
    obtain ⟨a, ha⟩ := h e (by simp)
    obtain ⟨n, hn⟩ := ev_gives ha
    obtain ⟨n', hn'⟩ := ih fun x hx => h x (by simp [hx])
    refine ⟨max n n', fun k hk x hx => ?_⟩
    rcases List.mem_cons.1 hx with rfl | hx
    · exact ⟨a, hn k (by omega)⟩
    · exact hn' k (by omega) x hx

theorem intArgs_stop {cfg : Cfg} {σ : State} {e : Expr} {after : List Expr} {er : Err}
    (h : (do let v ← evalExpr cfg σ e; v.asInteger) = .error (.err er)) : ∀ {before : List Expr},
    (∀ x ∈ before, ∃ a, evalExpr cfg σ x = .ok (.int a)) →
    intArgs ((before ++ e :: after).map (evalExpr cfg σ)) = .error (.err er)
  | [], _ => by
    simp only [List.nil_append, List.map_cons, intArgs]
    cases he : evalExpr cfg σ e with
    | error x => rw [he] at h; simp only [bind, Except.bind, Except.error.injEq] at h ⊢; exact h
    | ok v =>
      rw [he] at h
      have h : v.asInteger = .error (.err er) := h
      simp only [bind, Except.bind, h]
  | b :: bs, hb => by
    obtain ⟨a, ha⟩ := hb b (by simp)
    have := intArgs_stop (after := after) h (before := bs) fun x hx => hb x (by simp [hx])
    simp only [List.cons_append, List.map_cons, intArgs, ha]
    simp only [bind, Except.bind, Value.asInteger, this]

theorem keyFn_stop {b : Build} {args : List (R Value)} {er : Err} (hl : args.length = 4)
    (h : intArgs args = .error (.err er)) : keyFn b args = .error (.err er) := by
  have : ensure (args.length == 4) (.argCount s!' "'key()' requires 4 arguments") = .ok () := by simp [ensure, hl]
  simp only [keyFn, this, h, bind, Except.bind]

theorem arg1_count {msg : Str} {args : List (R Value)} (h : args.length ≠ 1) :
    arg1 msg args = .error (.err (.argCount msg)) := by
  have : ensure (args.length == 1) (.argCount msg) = .error (.err (.argCount msg)) := by simp [ensure, h]
  simp only [arg1, this, bind, Except.bind]

/-- a function of one argument begins with it -/
theorem call_one (cfg : Cfg) (fs : Option Fs) {g : Function} {msg : Str} (h : OneArg g msg) (args : List (R Value))
    {er : Err} (ha : arg1 msg args = .error (.err er)) : callFn cfg fs (.ok (.func g)) args = .error (.err er) := by
  cases h with
  | typeOf => rw [callFn_typeOf]; simp only [typeofFn, ha, bind, Except.bind]
  | keyOf => rw [callFn_keyOf]; simp only [keyofFn, ha, bind, Except.bind]
  | len => rw [callFn_len]; simp only [lenFn, ha, bind, Except.bind]
  | str => rw [callFn_str]; simp only [strFn, ha, bind, Except.bind]

theorem call_bad {cfg : Cfg} {σ : State} {f : Expr} {args : List Expr} {er : Err}
    (h : (do let v ← evalExpr cfg σ f; v.asFunction) = .error (.err er)) :
    evalExpr cfg σ (.call f args) = .error (.err er) := by
  rw [evalExpr]
  simp only [callFn]
  cases he : evalExpr cfg σ f with
  | error x => rw [he] at h; simp only [bind, Except.bind, Except.error.injEq] at h ⊢; exact h
  | ok v =>
    rw [he] at h
    have h : v.asFunction = .error (.err er) := h
    simp only [bind, Except.bind, h]

theorem says_complains {cfg : Cfg} {σ : State} {e : Expr} {m : Option Str}
    (h : Complains (world cfg) (complaints cfg) σ e m) : Says cfg σ e m := by
  induction h with
  | var h =>
    rename_i x
    refine says_now (.unknownVar x) rfl fun k => ?_
    rw [evalExpr]
    cases hg : σ.vars.get x with
    | none => rfl
    | some v => exact absurd (holds_get.1 hg) (h v)
  | paren _ ih => exact says_of ih fun k er h => by rw [evalExpr, h]
  | fieldOf _ ih => exact says_of ih fun k er h => by rw [evalExpr, h]; rfl
  | fieldKind hv hn =>
    refine says1 (ev_gives hv) _ (text_mismatch _ _) fun k h => ?_
    rw [evalExpr, h]; simp only [fieldOp, bind, Except.bind, not_struct hn]
  | fieldNone hv hn =>
    rename_i e n kk fs f
    refine says1 (ev_gives hv) (.noField f n) rfl fun k h => ?_
    rw [evalExpr, h]
    simp only [fieldOp, bind, Except.bind, Value.asStruct, StructVal.field]
    cases hg : fieldLookup fs f with
    | none => rfl
    | some v => exact absurd (firstField_iff.1 hg) (hn v)
  | fieldName hv hn =>
    refine says1 (ev_gives hv) (.notIdentifier s!' "Field in a field access must be an identifier") rfl fun k h => ?_
    rw [evalExpr, h]
    rename_i f
    cases f <;> first | exact absurd rfl (hn _) | rfl
  | indexOf _ ih => exact says_of ih fun k er h => by rw [evalExpr, h]; rfl
  | indexKind hv hn =>
    refine says1 (ev_gives hv) _ (text_mismatch _ _) fun k h => ?_
    rw [evalExpr, h]; simp only [indexOp, bind, Except.bind, not_array hn]
  | index hv _ ih => exact says_after (ev_gives hv) ih fun k er h h' => by rw [evalExpr, h, h']; rfl
  | indexInt hv hi hn =>
    refine says2 (ev_gives hv) (ev_gives hi) _ (text_mismatch _ _) fun k h h' => ?_
    rw [evalExpr, h, h']; simp only [indexOp, bind, Except.bind, Value.asVec, not_integer hn]
  | indexFar hv hi hn =>
    refine says2 (ev_gives hv) (ev_gives hi) .conversion rfl fun k h h' => ?_
    rw [evalExpr, h, h']; simp only [indexOp, bind, Except.bind, Value.asVec, Value.asInteger]
    rw [tryUnsigned_err (by omega)]
  | indexNone hv hi hn hl =>
    rename_i e i xs hh n
    refine says2 (ev_gives hv) (ev_gives hi) (.indexRange n xs.length) ?_ fun k h h' => ?_
    · rw [noSuchIndex, numeral_nat xs.length]; rfl
    rw [evalExpr, h, h']; simp only [indexOp, bind, Except.bind, Value.asVec, Value.asInteger]
    rw [tryUnsigned_nat hn]
    simp only
    have : xs[n]? = none := by simpa using hl
    rw [this]; rfl
  | left _ ih => exact says_of ih fun k er h => by rw [evalExpr, h, binop_left_err]
  | leftInt hop hv hn =>
    exact says1 (ev_gives hv) _ (text_mismatch _ _) fun k h => by rw [evalExpr, h, binop_leftInt hop hn]
  | rightOfInt hop hv _ ih =>
    exact says_after (ev_gives hv) ih fun k er h h' => by rw [evalExpr, h, h', binop_rightOfInt hop]
  | rightInt hop hv hw hn =>
    exact says2 (ev_gives hv) (ev_gives hw) _ (text_mismatch _ _) fun k h h' => by rw [evalExpr, h, h', binop_rightInt hop hn]
  | ints hv hw hf =>
    obtain ⟨er, h1, h2⟩ := rule_intFails cfg σ hf
    exact says2 (ev_gives hv) (ev_gives hw) er h2 fun k h h' => by rw [evalExpr, h, h', h1]
  | rightOfAny hop hv _ ih =>
    exact says_after (ev_gives hv) ih fun k er h h' => by rw [evalExpr, h, h', binop_rightOfAny hop]
  | add hv hw hn t1 t2 =>
    rename_i l r v w n n'
    refine says2 (ev_gives hv) (ev_gives hw) (.cannotAdd v.typeStr w.typeStr) ?_ fun k h h' => ?_
    · rw [typeName_typeStr t1, typeName_typeStr t2]; rfl
    · rw [evalExpr, h, h']; simp only [binop, bind, Except.bind, plusOp_cannot hn]
  | leftBool hop hv hn =>
    exact says1 (ev_gives hv) _ (text_mismatch _ _) fun k h => by rw [evalExpr, h, binop_leftBool hop hn]
  | rightOfOr hv _ ih => exact says_after (ev_gives hv) ih fun k er h h' => by rw [evalExpr, h, h']; rfl
  | rightOfAnd hv _ ih => exact says_after (ev_gives hv) ih fun k er h h' => by rw [evalExpr, h, h']; rfl
  | orBool hv hw hn =>
    refine says2 (ev_gives hv) (ev_gives hw) _ (text_mismatch _ _) fun k h h' => ?_
    rw [evalExpr, h, h']
    simp only [binop, bind, Except.bind, Value.asBoolean, Bool.false_eq_true, if_false, not_boolean hn]
  | andBool hv hw hn =>
    refine says2 (ev_gives hv) (ev_gives hw) _ (text_mismatch _ _) fun k h h' => ?_
    rw [evalExpr, h, h']
    simp only [binop, bind, Except.bind, Value.asBoolean, Bool.not_true, Bool.false_eq_true, if_false, not_boolean hn]
  | operand _ ih => rename_i op _ _ _; exact says_of ih fun k er h => by rw [evalExpr, h]; cases op <;> rfl
  | bitNot hv hn =>
    refine says1 (ev_gives hv) _ (text_mismatch _ _) fun k h => ?_
    rw [evalExpr, h]; simp only [unop, bind, Except.bind, not_integer hn]
  | minus hv hn =>
    refine says1 (ev_gives hv) _ (text_mismatch _ _) fun k h => ?_
    rw [evalExpr, h]; simp only [unop, bind, Except.bind, not_integer hn]
  | not hv hn hn' =>
    rename_i v
    refine says1 (ev_gives hv) (.typeMismatch s!' "integer or boolean" v.shortDisplay) (text_mismatch _ _) fun k h => ?_
    rw [evalExpr, h]
    cases v <;> first | exact absurd rfl (hn _) | exact absurd rfl (hn' _) | rfl
  | castOf _ ih => exact says_of ih fun k er h => by rw [evalExpr, h]; rfl
  | castInt hv hn =>
    refine says1 (ev_gives hv) _ (text_mismatch _ _) fun k h => ?_
    rw [evalExpr, h]; simp only [castOp, bind, Except.bind, not_integer hn]
  | castNegative hv hn =>
    rename_i p
    refine says1 (ev_gives hv) (.negativeBytenr p) rfl fun k h => ?_
    rw [evalExpr, h]; simp only [castOp, bind, Except.bind, Value.asInteger]
    rw [if_pos hn]
  | castNoFs hs hv hp hf =>
    rename_i s e p
    refine says1 (ev_gives hv) .noFilesystem rfl fun k h => ?_
    rw [evalExpr, h, hf]; simp only [castOp, bind, Except.bind, Value.asInteger]
    rw [if_neg (by omega)]
    cases hg : findStruct s.name with
    | some t => rfl
    | none =>
      unfold findStruct at hg
      rw [List.find?_eq_none] at hg
      exact absurd (by simp) (hg s hs)
  | cast hv hf hc =>
    obtain ⟨er, h1, h2⟩ := hc
    refine says1 (ev_gives hv) er h2 fun k h => ?_
    rw [evalExpr, h, hf]; exact h1
  | callee _ ih => exact says_of ih fun k er h => call_bad (by rw [h]; rfl)
  | calleeKind hv hn =>
    refine says1 (ev_gives hv) _ (text_mismatch _ _) fun k h => call_bad ?_
    rw [h]; exact not_function hn
  | keyCount hf hl =>
    refine says1 (ev_gives hf) (.argCount s!' "'key()' requires 4 arguments") rfl fun k h => ?_
    rw [evalExpr_call _ σ _ _ _ h, callFn_key]
    rename_i args
    have : ∀ e, ensure ((List.map (evalExpr (cfg.steps k) σ) args).length == 4) e = .error (.err e) := fun e => by
      simp only [ensure, List.length_map, beq_iff_eq, if_neg hl, R.err]
    simp only [keyFn, this, bind, Except.bind]
  | keyArg hf hl hb _ ih =>
    obtain ⟨n, hn⟩ := ev_gives hf
    obtain ⟨n', hn'⟩ := gives_all hb
    obtain ⟨er, n'', ht, hn''⟩ := ih
    refine ⟨er, n + n' + n'', ht, fun k hk => ?_⟩
    rw [evalExpr_call _ σ _ _ _ (hn k (by omega)), callFn_key]
    refine keyFn_stop (by simpa using hl) (intArgs_stop ?_ (hn' k (by omega)))
    rw [hn'' k (by omega)]; rfl
  | keyInt hf hl hb hv hnv =>
    obtain ⟨n, hn⟩ := ev_gives hf
    obtain ⟨n', hn'⟩ := gives_all hb
    obtain ⟨n'', hn''⟩ := ev_gives hv
    refine ⟨_, n + n' + n'', text_mismatch _ _, fun k hk => ?_⟩
    rw [evalExpr_call _ σ _ _ _ (hn k (by omega)), callFn_key]
    refine keyFn_stop (by simpa using hl) (intArgs_stop ?_ (hn' k (by omega)))
    rw [hn'' k (by omega)]; exact not_integer hnv
  | searchCount hf hl =>
    refine says1 (ev_gives hf) (.argCount s!' "'search()' requires 2 arguments") rfl fun k h => ?_
    rw [evalExpr_call _ σ _ _ _ h, callFn_search]
    rename_i args
    have : ∀ e, ensure ((List.map (evalExpr (cfg.steps k) σ) args).length == 2) e = .error (.err e) := fun e => by
      simp only [ensure, List.length_map, beq_iff_eq, if_neg hl, R.err]
    simp only [searchFn, this, bind, Except.bind]
  | searchTree hf _ ih =>
    refine says_after (ev_gives hf) ih fun k er h h' => ?_
    rw [evalExpr_call _ σ _ _ _ h, callFn_search]
    simp only [List.map_cons, List.map_nil, h']
    rfl
  | searchInt hf hv hn =>
    refine says2 (ev_gives hf) (ev_gives hv) _ (text_mismatch _ _) fun k h h' => ?_
    rw [evalExpr_call _ σ _ _ _ h, callFn_search]
    simp only [List.map_cons, List.map_nil, h', searchFn, List.length_cons, List.length_nil, ensure, bind, Except.bind,
      not_integer hn]
    rfl
  | searchKey hf hv _ ih =>
    obtain ⟨n, hn⟩ := ev_gives hf
    obtain ⟨n', hn'⟩ := ev_gives hv
    obtain ⟨er, n'', ht, hn''⟩ := ih
    refine ⟨er, n + n' + n'', ht, fun k hk => ?_⟩
    rw [evalExpr_call _ σ _ _ _ (hn k (by omega)), callFn_search]
    simp only [List.map_cons, List.map_nil, hn' k (by omega), hn'' k (by omega)]
    rfl
  | searchStruct hf hv hw hn =>
    refine says3 (ev_gives hf) (ev_gives hv) (ev_gives hw) _ (text_mismatch _ _) fun k h h' h'' => ?_
    rw [evalExpr_call _ σ _ _ _ h, callFn_search]
    simp only [List.map_cons, List.map_nil, h', h'', searchFn, List.length_cons, List.length_nil, ensure, bind,
      Except.bind, Value.asInteger, not_struct hn]
    rfl
  | searchKind hf hv hw hn =>
    rename_i n kk fs
    refine says3 (ev_gives hf) (ev_gives hv) (ev_gives hw) .notSearchKey rfl fun k h h' h'' => ?_
    rw [evalExpr_call _ σ _ _ _ h, callFn_search]
    have : (n == BTRFS_SEARCH_KEY.name) = false := beq_false_of_ne hn
    simp only [List.map_cons, List.map_nil, h', h'', searchFn, List.length_cons, List.length_nil, ensure, bind,
      Except.bind, Value.asInteger, Value.asStruct, this]
    rfl
  | searchNoFs hf hv hw hn =>
    refine says3 (ev_gives hf) (ev_gives hv) (ev_gives hw) .noFilesystem rfl fun k h h' h'' => ?_
    rw [evalExpr_call _ σ _ _ _ h, callFn_search, hn]
    simp only [List.map_cons, List.map_nil, h', h'']
    rfl
  | search hf hv hw hx hs =>
    obtain ⟨n₀, er, hs, ht⟩ := hs
    obtain ⟨n, hn⟩ := ev_gives hf
    obtain ⟨n', hn'⟩ := ev_gives hv
    obtain ⟨n'', hn''⟩ := ev_gives hw
    refine ⟨er, n₀ + n + n' + n'', ht, fun k hk => ?_⟩
    rw [evalExpr_call _ σ _ _ _ (hn k (by omega)), callFn_search, hx]
    simp only [List.map_cons, List.map_nil]
    rw [hn' k (by omega), hn'' k (by omega)]
    exact search_more_err cfg _ (by omega) hs
  | oneCount hf ho hl =>
    refine says1 (ev_gives hf) (.argCount _) rfl fun k h => ?_
    rw [evalExpr_call _ σ _ _ _ h]
    exact call_one _ _ ho _ (arg1_count (by simpa using hl))
  | oneArg hf ho _ ih =>
    refine says_after (ev_gives hf) ih fun k er h h' => ?_
    rw [evalExpr_call _ σ _ _ _ h]
    refine call_one _ _ ho _ ?_
    simp only [List.map_cons, List.map_nil, h']
    rfl
  | keyOfStruct hf hv hn =>
    refine says2 (ev_gives hf) (ev_gives hv) _ (text_mismatch _ _) fun k h h' => ?_
    rw [evalExpr_call _ σ _ _ _ h, callFn_keyOf]
    simp only [List.map_cons, List.map_nil, keyofFn, arg1_one, h', bind, Except.bind, not_struct hn]
  | keyOfNone hf hv =>
    refine says2 (ev_gives hf) (ev_gives hv) .noKey rfl fun k h h' => ?_
    rw [evalExpr_call _ σ _ _ _ h, callFn_keyOf]
    simp only [List.map_cons, List.map_nil, keyofFn, arg1_one, h', bind, Except.bind, Value.asStruct]
  | lenArray hf hv hn =>
    refine says2 (ev_gives hf) (ev_gives hv) _ (text_mismatch _ _) fun k h h' => ?_
    rw [evalExpr_call _ σ _ _ _ h, callFn_len]
    simp only [List.map_cons, List.map_nil, lenFn, arg1_one, h', bind, Except.bind, not_array hn]
  | lenHuge hf hv hn =>
    refine says2 (ev_gives hf) (ev_gives hv) .conversion rfl fun k h h' => ?_
    rw [evalExpr_call _ σ _ _ _ h, callFn_len]
    simp only [List.map_cons, List.map_nil, lenFn, arg1_one, h', bind, Except.bind, Value.asVec]
    rw [if_neg fun hi => hn ((inI128_iff _).1 hi)]
  | histCount hf hn =>
    refine says1 (ev_gives hf) (.argCount s!' "'hist()' takes no arguments") rfl fun k h => ?_
    rw [evalExpr_call _ σ _ _ _ h]
    rename_i args
    cases args with
    | nil => exact absurd rfl hn
    | cons a as => rfl

/-- at every bound the evaluator fails with the message of the rules, or needs more steps -/
theorem complains_eval {cfg : Cfg} {σ : State} {e : Expr} {m : Option Str}
    (h : Complains (world cfg) (complaints cfg) σ e m) (k : Nat) :
    (∃ er, evalExpr (cfg.steps k) σ e = .error (.err er) ∧ er.text = m) ∨
      evalExpr (cfg.steps k) σ e = .error .diverge := by
  obtain ⟨er, n, ht, hn⟩ := says_complains h
  by_cases hd : evalExpr (cfg.steps k) σ e = .error .diverge
  · exact .inr hd
  · have := C67_expression cfg k (max n k) (by omega) e σ hd
    rw [hn _ (by omega)] at this
    exact .inl ⟨er, this.symm, ht⟩

theorem complains_unique {cfg : Cfg} {σ : State} {e : Expr} {m m' : Option Str}
    (h : Complains (world cfg) (complaints cfg) σ e m) (h' : Complains (world cfg) (complaints cfg) σ e m') : m = m' := by
  obtain ⟨er, n, rfl, hn⟩ := says_complains h
  obtain ⟨er', n', rfl, hn'⟩ := says_complains h'
  have := hn (max n n') (by omega)
  rw [hn' _ (by omega), Except.error.injEq, Fail.err.injEq] at this
  rw [this]

/-- a failing expression has no value -/
theorem complains_no_ev {cfg : Cfg} {σ : State} {e : Expr} {m : Option Str} {v : Value}
    (h : Complains (world cfg) (complaints cfg) σ e m) : ¬ Ev (world cfg) σ e v := by
  intro h'
  obtain ⟨er, n, rfl, hn⟩ := says_complains h
  obtain ⟨n', hn'⟩ := ev_gives h'
  have := hn (max n n') (by omega)
  rw [hn' _ (by omega)] at this
  simp at this

end Btrd
