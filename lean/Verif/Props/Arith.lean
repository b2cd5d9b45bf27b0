/-
C22, C24-C30: operators of the language (`src/lang/eval/eval.rs`).
-/
import Verif.Lemmas.Arith
import Verif.Lemmas.ValueEq
import Verif.Model.Runtime

namespace Btrd
open Spec

/-- a configuration and a state for the non-vacuity examples -/
def exHost : Host := ⟨fun _ => none, fun _ => none, none⟩
/-- release build, script mode -/
def exCfg : Cfg := ⟨⟨false⟩, exHost, false, 1000⟩
/-- the start state, unlimited sink -/
def exSt : State := State.new exCfg none

variable (cfg : Cfg) (st : State)

/-! ### C22: exact or error -/

/-- **C22**, `+`: the exact sum when it is a 128-bit integer, an overflow error otherwise. -/
theorem C22_add {l r : Expr} {a b : Int} (hl : evalExpr cfg st l = .ok (.int a))
    (hr : evalExpr cfg st r = .ok (.int b)) :
    evalExpr cfg st (.bin .plus l r) =
      if Fits (a + b) then .ok (.int (a + b)) else .error (.err (.overflow a s!' "+" b)) := by
  rw [← checkedI128_eq]
  simp [evalExpr, hl, hr, binop, plusOp, bind, Except.bind]

/-- **C22**, `-` -/
theorem C22_sub {l r : Expr} {a b : Int} (hl : evalExpr cfg st l = .ok (.int a))
    (hr : evalExpr cfg st r = .ok (.int b)) :
    evalExpr cfg st (.bin .minus l r) =
      if Fits (a - b) then .ok (.int (a - b)) else .error (.err (.overflow a s!' "-" b)) := by
  rw [← checkedI128_eq]
  simp [evalExpr, hl, hr, binop, intOp, Value.asInteger, bind, Except.bind]

/-- **C22**, `*` -/
theorem C22_mul {l r : Expr} {a b : Int} (hl : evalExpr cfg st l = .ok (.int a))
    (hr : evalExpr cfg st r = .ok (.int b)) :
    evalExpr cfg st (.bin .mul l r) =
      if Fits (a * b) then .ok (.int (a * b)) else .error (.err (.overflow a s!' "*" b)) := by
  rw [← checkedI128_eq]
  simp [evalExpr, hl, hr, binop, intOp, Value.asInteger, bind, Except.bind]

/-- **C22**, `/`: the quotient truncated toward zero (`Int.tdiv`; see also C24), unless it does not fit or
the divisor is zero -/
theorem C22_div {l r : Expr} {a b : Int} (hl : evalExpr cfg st l = .ok (.int a))
    (hr : evalExpr cfg st r = .ok (.int b)) :
    evalExpr cfg st (.bin .div l r) =
      if b = 0 then .error (.err .divByZero)
      else if Fits (a.tdiv b) then .ok (.int (a.tdiv b)) else .error (.err (.overflow a s!' "/" b)) := by
  rw [← checkedI128_eq]
  simp [evalExpr, hl, hr, binop, intOp, Value.asInteger, bind, Except.bind, divI128]

/-- **C22**, `%`: the remainder of that division (with the sign of the dividend), and an error when the
divisor is zero. (The remainder is also refused in the one case where the quotient does not fit.) -/
theorem C22_rem {l r : Expr} {a b : Int} (hl : evalExpr cfg st l = .ok (.int a))
    (hr : evalExpr cfg st r = .ok (.int b)) :
    evalExpr cfg st (.bin .mod l r) =
      if b = 0 then .error (.err .divByZero)
      else if Fits (a.tdiv b) then .ok (.int (a.tmod b)) else .error (.err (.overflow a s!' "%" b)) := by
  simp only [← inI128_iff]
  simp [evalExpr, hl, hr, binop, intOp, Value.asInteger, bind, Except.bind, remI128]

/-- for operands in range the only quotient that does not fit is `MIN / -1` -/
theorem C22_div_overflow_only_min {a b : Int} (ha : Fits a) (hb : Fits b) (h0 : b ≠ 0) :
    ¬ Fits (a.tdiv b) ↔ a = -(2 ^ 127) ∧ b = -1 := by
  have hle : (a.tdiv b).natAbs ≤ a.natAbs := by
    rw [Int.natAbs_tdiv]; exact Nat.div_le_self _ _
  unfold Fits at *
  constructor
  · intro h
    have hval : a.tdiv b = 2 ^ 127 ∧ a = -(2 ^ 127) := by omega
    refine ⟨hval.2, ?_⟩
    have h1 : (a.tdiv b).natAbs = a.natAbs / b.natAbs := Int.natAbs_tdiv a b
    have hb1 : b.natAbs = 1 := by
      rcases Nat.lt_or_ge b.natAbs 2 with h2 | h2
      · omega
      · have : a.natAbs / b.natAbs ≤ a.natAbs / 2 := Nat.div_le_div_left h2 (by decide)
        omega
    rcases Int.natAbs_eq b with hb2 | hb2
    · rw [hb1] at hb2
      have : a.tdiv b = a := by rw [hb2]; simp
      omega
    · rw [hb1] at hb2; simpa using hb2
  · rintro ⟨rfl, rfl⟩
    decide

/-- **C22 is false of the code** for unary minus: negating the least 128-bit integer panics in a build with
overflow checks and silently gives the same negative number in a release build. -/
theorem C22_neg_negation {e : Expr} (he : evalExpr cfg st e = .ok (.int (-(2 ^ 127)))) :
    evalExpr cfg st (.un .minus e) =
      if cfg.build.ovfChecks then .error .panic else .ok (.int (-(2 ^ 127))) := by
  cases h : cfg.build.ovfChecks <;>
    simp [evalExpr, he, unop, Value.asInteger, bind, Except.bind, negI128, i128Min, h]

set_option maxRecDepth 100000 in
/-- **C22, reachable witness**: the program text
`x = -170141183460469231731687303715884105727 - 1; y = -x;` ends with `y = x = MIN` in a release build and
panics in a debug build. -/
theorem C22_neg_negation_reachable :
    let prog := s!' "x = -170141183460469231731687303715884105727 - 1; y = -x;"
    let fresh (cfg : Cfg) : RState := ⟨AState.new, State.new cfg none⟩
    let cfg (ovf : Bool) : Cfg := ⟨⟨ovf⟩, exHost, false, 10⟩
    (runtimeEval (cfg true) (fresh (cfg true)) prog).2 = .fail .panic ∧
    (runtimeEval (cfg false) (fresh (cfg false)) prog).2 = .ok ∧
    (runtimeEval (cfg false) (fresh (cfg false)) prog).1.ev.vars.get s!' "y" = some (.int (-(2 ^ 127))) := by
  refine ⟨by rfl, by rfl, by rfl⟩

/-- **C22, unary minus, partial**: exact for every other 128-bit integer. Missing: the least one. -/
theorem C22_neg_partial {e : Expr} {a : Int} (he : evalExpr cfg st e = .ok (.int a)) (ha : a ≠ -(2 ^ 127)) :
    evalExpr cfg st (.un .minus e) = .ok (.int (-a)) := by
  have hn : negI128 cfg.build a = .ok (-a) := by
    unfold negI128; rw [if_neg]; exact ha
  simp only [evalExpr, he, unop, Value.asInteger, bind, Except.bind, hn]

/-- **C22**: the arithmetic operators refuse operands of other types, and errors of operands win, left
first; `+` is the only one with another meaning (strings, arrays). -/
theorem C22_operand_errors (op : BinOp) (hop : op = .minus ∨ op = .mul ∨ op = .div ∨ op = .mod) (l r : Expr) :
    (∀ f, evalExpr cfg st l = .error f → evalExpr cfg st (.bin op l r) = .error f) ∧
    (∀ v, evalExpr cfg st l = .ok v → (∀ i, v ≠ .int i) →
      evalExpr cfg st (.bin op l r) = .error (.err (.typeMismatch s!' "integer" v.shortDisplay))) ∧
    (∀ i f, evalExpr cfg st l = .ok (.int i) → evalExpr cfg st r = .error f →
      evalExpr cfg st (.bin op l r) = .error f) ∧
    (∀ i v, evalExpr cfg st l = .ok (.int i) → evalExpr cfg st r = .ok v → (∀ j, v ≠ .int j) →
      evalExpr cfg st (.bin op l r) = .error (.err (.typeMismatch s!' "integer" v.shortDisplay))) := by
  have hneg : ∀ v : Value, (∀ i, v ≠ .int i) → v.asInteger = .error (.err (.typeMismatch s!' "integer" v.shortDisplay)) := by
    intro v hv; cases v <;> simp [Value.asInteger] <;> simp at hv
  refine ⟨?_, ?_, ?_, ?_⟩
  · intro f h
    rcases hop with rfl | rfl | rfl | rfl <;> simp [evalExpr, h, binop, intOp, bind, Except.bind]
  · intro v h hv
    rcases hop with rfl | rfl | rfl | rfl <;>
      simp [evalExpr, h, binop, intOp, bind, Except.bind, hneg v hv]
  · intro i f h h'
    rcases hop with rfl | rfl | rfl | rfl <;>
      simp [evalExpr, h, h', binop, intOp, bind, Except.bind, Value.asInteger]
  · intro i v h h' hv
    rcases hop with rfl | rfl | rfl | rfl <;>
      simp only [evalExpr, h, h', binop, intOp, bind, Except.bind, hneg v hv] <;> rfl

example : evalExpr exCfg exSt (.int 7) = .ok (.int 7) ∧ evalExpr exCfg exSt (.un .minus (.int 2)) = .ok (.int (-2)) :=
  ⟨by rfl, by rfl⟩
example : evalExpr exCfg exSt (.bin .div (.int 7) (.un .minus (.int 2))) = .ok (.int (-3)) := by rfl
example : Fits (-(2 ^ 127)) ∧ ¬ Fits (2 ^ 127) := by decide

/-! ### C24: division and remainder -/

/-- **C24**: whenever both succeed, quotient and remainder satisfy the division equation, the remainder is
smaller than the divisor and has the sign of the dividend; these conditions determine them. -/
theorem C24_div_rem {l r : Expr} {a b q m : Int} (hl : evalExpr cfg st l = .ok (.int a))
    (hr : evalExpr cfg st r = .ok (.int b)) (hq : evalExpr cfg st (.bin .div l r) = .ok (.int q))
    (hm : evalExpr cfg st (.bin .mod l r) = .ok (.int m)) :
    a = q * b + m ∧ m.natAbs < b.natAbs ∧ (0 < m → 0 < a) ∧ (m < 0 → a < 0) := by
  rw [C22_div cfg st hl hr] at hq
  rw [C22_rem cfg st hl hr] at hm
  by_cases h0 : b = 0
  · simp [h0] at hq
  by_cases hf : Fits (a.tdiv b)
  · simp only [h0, hf, if_false, if_true, Except.ok.injEq, Value.int.injEq] at hq hm
    subst hq hm
    refine ⟨?_, ?_, ?_, ?_⟩
    · have := Int.tmod_add_mul_tdiv a b
      rw [Int.mul_comm]; omega
    · rw [Int.natAbs_tmod]; exact Nat.mod_lt _ (by omega)
    · intro h
      rcases Int.le_total a 0 with ha | ha
      · have := Int.tmod_nonneg (a := -a) b (by omega)
        rw [Int.neg_tmod] at this; omega
      · rcases Int.lt_or_eq_of_le ha with h1 | h1
        · exact h1
        · subst h1; simp at h
    · intro h
      rcases Int.le_total 0 a with ha | ha
      · have := Int.tmod_nonneg (a := a) b ha; omega
      · rcases Int.lt_or_eq_of_le ha with h1 | h1
        · exact h1
        · subst h1; simp at h
  · simp [h0, hf] at hq

/-- **C24**: the equation and sign conditions have one solution, so C24 pins the results down. -/
theorem C24_unique {a b q m q' m' : Int} (h : a = q * b + m ∧ m.natAbs < b.natAbs ∧ (0 < m → 0 < a) ∧ (m < 0 → a < 0))
    (h' : a = q' * b + m' ∧ m'.natAbs < b.natAbs ∧ (0 < m' → 0 < a) ∧ (m' < 0 → a < 0)) : q = q' ∧ m = m' := by
  obtain ⟨h1, h2, h3, h4⟩ := h
  obtain ⟨g1, g2, g3, g4⟩ := h'
  have e : (q - q') * b = m' - m := by rw [Int.sub_mul]; omega
  have hd : (m' - m).natAbs < b.natAbs := by omega
  have : q - q' = 0 := by
    rcases Nat.lt_or_ge 0 (q - q').natAbs with hp | hp
    · have h5 : (m' - m).natAbs = (q - q').natAbs * b.natAbs := by rw [← e, Int.natAbs_mul]
      have : b.natAbs ≤ (q - q').natAbs * b.natAbs := Nat.le_mul_of_pos_left _ (by omega)
      omega
    · omega
  rw [this] at e
  simp at e
  omega

/-- **C24**: dividing by zero always fails with an error. -/
theorem C24_by_zero {l r : Expr} {a : Int} (hl : evalExpr cfg st l = .ok (.int a))
    (hr : evalExpr cfg st r = .ok (.int 0)) :
    evalExpr cfg st (.bin .div l r) = .error (.err .divByZero) ∧
    evalExpr cfg st (.bin .mod l r) = .error (.err .divByZero) := by
  rw [C22_div cfg st hl hr, C22_rem cfg st hl hr]; simp

example : evalExpr exCfg exSt (.bin .mod (.un .minus (.int 7)) (.int 2)) = .ok (.int (-1)) := by rfl

/-! ### C25: bitwise operators -/

/-- **C25**: for all integers, `&`, `|`, `^` succeed and each of the 128 two's complement bits of the
result is the boolean operation of the operands' bits; the result is a 128-bit integer. -/
theorem C25_bitwise {l r : Expr} {a b : Int} (hl : evalExpr cfg st l = .ok (.int a))
    (hr : evalExpr cfg st r = .ok (.int b)) :
    (∃ c, evalExpr cfg st (.bin .band l r) = .ok (.int c) ∧ Fits c ∧
      ∀ i < 128, twosBit c i = (twosBit a i && twosBit b i)) ∧
    (∃ c, evalExpr cfg st (.bin .bor l r) = .ok (.int c) ∧ Fits c ∧
      ∀ i < 128, twosBit c i = (twosBit a i || twosBit b i)) ∧
    (∃ c, evalExpr cfg st (.bin .bxor l r) = .ok (.int c) ∧ Fits c ∧
      ∀ i < 128, twosBit c i = (twosBit a i ^^ twosBit b i)) := by
  refine ⟨⟨(BitVec.ofInt 128 a &&& BitVec.ofInt 128 b).toInt, ?_, fits_toInt _, ?_⟩,
    ⟨(BitVec.ofInt 128 a ||| BitVec.ofInt 128 b).toInt, ?_, fits_toInt _, ?_⟩,
    ⟨(BitVec.ofInt 128 a ^^^ BitVec.ofInt 128 b).toInt, ?_, fits_toInt _, ?_⟩⟩
  · simp only [evalExpr, hl, hr, binop, intOp, bitI128, Value.asInteger, bind, Except.bind]
  · intro i hi
    rw [twosBit_toInt _ _ hi, BitVec.getLsbD_and, getLsbD_ofInt _ _ hi, getLsbD_ofInt _ _ hi]
  · simp only [evalExpr, hl, hr, binop, intOp, bitI128, Value.asInteger, bind, Except.bind]
  · intro i hi
    rw [twosBit_toInt _ _ hi, BitVec.getLsbD_or, getLsbD_ofInt _ _ hi, getLsbD_ofInt _ _ hi]
  · simp only [evalExpr, hl, hr, binop, intOp, bitI128, Value.asInteger, bind, Except.bind]
  · intro i hi
    rw [twosBit_toInt _ _ hi, BitVec.getLsbD_xor, getLsbD_ofInt _ _ hi, getLsbD_ofInt _ _ hi]

/-- **C25**: `~` flips each of the 128 bits. -/
theorem C25_not {e : Expr} {a : Int} (he : evalExpr cfg st e = .ok (.int a)) :
    ∃ c, evalExpr cfg st (.un .bitNot e) = .ok (.int c) ∧ Fits c ∧
      ∀ i < 128, twosBit c i = !twosBit a i := by
  refine ⟨(~~~(BitVec.ofInt 128 a)).toInt, ?_, fits_toInt _, ?_⟩
  · simp only [evalExpr, he, unop, Value.asInteger, bind, Except.bind]
  · intro i hi
    rw [twosBit_toInt _ _ hi, BitVec.getLsbD_not, getLsbD_ofInt _ _ hi]
    simp [hi]

/-- **C25**: the 128 bits determine a 128-bit integer, so the two theorems above determine the results. -/
theorem C25_bits_determine {a b : Int} (ha : Fits a) (hb : Fits b)
    (h : ∀ i < 128, twosBit a i = twosBit b i) : a = b := by
  have e : BitVec.ofInt 128 a = BitVec.ofInt 128 b := by
    apply BitVec.eq_of_getLsbD_eq
    intro i hi
    rw [getLsbD_ofInt _ _ hi, getLsbD_ofInt _ _ hi, h i hi]
  have := congrArg BitVec.toInt e
  rw [BitVec.toInt_ofInt, BitVec.toInt_ofInt] at this
  have h1 := wrapI128_of_fits ha
  have h2 := wrapI128_of_fits hb
  simp only [wrapI128] at h1 h2
  rw [← h1, ← h2]; exact this

example : evalExpr exCfg exSt (.bin .bxor (.int 12) (.un .minus (.int 10))) = .ok (.int (-6)) := by rfl

/-! ### C26: shifts -/

/-- **C26**, amounts: negative amounts and amounts of 128 or more are errors for both shifts. The error says that the
shift overflows if the amount fits 32 bits, and that the amount cannot be converted otherwise. -/
theorem C26_amount_error {l r : Expr} {a n : Int} (hl : evalExpr cfg st l = .ok (.int a))
    (hr : evalExpr cfg st r = .ok (.int n)) :
    (128 ≤ n → n < 2 ^ 32 → evalExpr cfg st (.bin .shl l r) = .error (.err (.overflow a s!' "<<" n)) ∧
      evalExpr cfg st (.bin .shr l r) = .error (.err (.overflow a s!' ">>" n))) ∧
    (n < 0 ∨ 2 ^ 32 ≤ n → evalExpr cfg st (.bin .shl l r) = .error (.err .conversion) ∧
      evalExpr cfg st (.bin .shr l r) = .error (.err .conversion)) := by
  have e1 : evalExpr cfg st (.bin .shl l r) = shlI128 a n := by
    simp [evalExpr, hl, hr, binop, intOp, Value.asInteger, bind, Except.bind]
  have e2 : evalExpr cfg st (.bin .shr l r) = shrI128 a n := by
    simp [evalExpr, hl, hr, binop, intOp, Value.asInteger, bind, Except.bind]
  rw [e1, e2]
  unfold shlI128 shrI128
  constructor
  · intro h1 h2
    rw [tryUnsigned_ok (by omega) h2]
    simp only [bind, Except.bind]
    rw [if_neg (by omega), if_neg (by omega)]
    exact ⟨rfl, rfl⟩
  · intro h
    rw [tryUnsigned_err (by omega)]
    exact ⟨rfl, rfl⟩

/-- **C26**, amounts: every amount outside `0..127` is an error, for both shifts. -/
theorem C26_amount {l r : Expr} {a n : Int} (hl : evalExpr cfg st l = .ok (.int a))
    (hr : evalExpr cfg st r = .ok (.int n)) (hn : n < 0 ∨ 128 ≤ n) (op : BinOp) (hop : op = .shl ∨ op = .shr) :
    ∃ e, evalExpr cfg st (.bin op l r) = .error (.err e) := by
  obtain ⟨h1, h2⟩ := C26_amount_error cfg st hl hr
  by_cases h : 128 ≤ n ∧ n < 2 ^ 32
  · rcases hop with rfl | rfl
    · exact ⟨_, (h1 h.1 h.2).1⟩
    · exact ⟨_, (h1 h.1 h.2).2⟩
  · rcases hop with rfl | rfl
    · exact ⟨_, (h2 (by omega)).1⟩
    · exact ⟨_, (h2 (by omega)).2⟩

/-- **C26**, `>>`: for every amount below 128 the result is `a / 2^n` rounded down. -/
theorem C26_shr {l r : Expr} {a : Int} {n : Nat} (hl : evalExpr cfg st l = .ok (.int a))
    (hr : evalExpr cfg st r = .ok (.int n)) (hn : n < 128) :
    ∃ q, evalExpr cfg st (.bin .shr l r) = .ok (.int q) ∧ q * 2 ^ n ≤ a ∧ a < (q + 1) * 2 ^ n := by
  refine ⟨a / 2 ^ n, ?_, ?_, ?_⟩
  · rw [← shrI128_small a n hn, evalExpr, hl, hr, binop, intOp_ok]
  · exact Int.ediv_mul_le a (Int.ne_of_gt (Int.pow_pos (by decide)))
  · exact Int.lt_ediv_add_one_mul_self a (Int.pow_pos (by decide))

/-- **C26 is false of the code** for `<<`: a result that does not fit is not an error, the bits shifted
out are lost. `1 << 127` is negative, `1 << 127 << 1` is `0`. -/
theorem C26_shl_negation {e : Expr} (he : evalExpr cfg st e = .ok (.int 1)) :
    evalExpr cfg st (.bin .shl e (.int 127)) = .ok (.int (-(2 ^ 127))) ∧
    evalExpr cfg st (.bin .shl (.bin .shl e (.int 127)) e) = .ok (.int 0) := by
  simp only [evalExpr, he, binop, intOp, Value.asInteger, bind, Except.bind, shlI128]
  exact ⟨by rfl, by rfl⟩

/-- **C26, `<<`, partial**: for every amount below 128 the result is congruent to `a * 2^n` modulo `2^128`,
and equal to it when that fits. Missing: an error when it does not fit. -/
theorem C26_shl_partial {l r : Expr} {a : Int} {n : Nat} (hl : evalExpr cfg st l = .ok (.int a))
    (hr : evalExpr cfg st r = .ok (.int n)) (hn : n < 128) :
    ∃ c, evalExpr cfg st (.bin .shl l r) = .ok (.int c) ∧ Fits c ∧
      (∃ k, c = a * 2 ^ n + k * 2 ^ 128) ∧ (Fits (a * 2 ^ n) → c = a * 2 ^ n) := by
  refine ⟨wrapI128 (a * 2 ^ n), ?_, wrapI128_fits _, ?_, wrapI128_of_fits⟩
  · rw [← shlI128_small a n hn, evalExpr, hl, hr, binop, intOp_ok]
  · have h := Int.bmod_add_bdiv (a * 2 ^ n) (2 ^ 128)
    refine ⟨-(Int.bdiv (a * 2 ^ n) (2 ^ 128)), ?_⟩
    simp only [wrapI128]
    rw [Int.neg_mul, Int.mul_comm (Int.bdiv _ _)]
    have h' : (((2 ^ 128 : Nat)) : Int) = 2 ^ 128 := by simp
    rw [h'] at h
    omega

example : evalExpr exCfg exSt (.bin .shr (.un .minus (.int 5)) (.int 1)) = .ok (.int (-3)) := by rfl

/-! ### C27: lazy logic -/

/-- **C27**, `&&`: `false` decides for every right operand (even one that fails or panics); after `true`
the result is the right operand, which must be boolean; the left operand must be boolean. -/
theorem C27_and (l r : Expr) :
    (evalExpr cfg st l = .ok (.bool false) → evalExpr cfg st (.bin .land l r) = .ok (.bool false)) ∧
    (evalExpr cfg st l = .ok (.bool true) →
      (∀ b, evalExpr cfg st r = .ok (.bool b) → evalExpr cfg st (.bin .land l r) = .ok (.bool b)) ∧
      (∀ v, evalExpr cfg st r = .ok v → (∀ b, v ≠ .bool b) →
        evalExpr cfg st (.bin .land l r) = .error (.err (.typeMismatch s!' "boolean" v.shortDisplay))) ∧
      (∀ f, evalExpr cfg st r = .error f → evalExpr cfg st (.bin .land l r) = .error f)) ∧
    (∀ v, evalExpr cfg st l = .ok v → (∀ b, v ≠ .bool b) →
      evalExpr cfg st (.bin .land l r) = .error (.err (.typeMismatch s!' "boolean" v.shortDisplay))) ∧
    (∀ f, evalExpr cfg st l = .error f → evalExpr cfg st (.bin .land l r) = .error f) := by
  have hneg : ∀ v : Value, (∀ i, v ≠ .bool i) → v.asBoolean = .error (.err (.typeMismatch s!' "boolean" v.shortDisplay)) := by
    intro v hv; cases v <;> simp [Value.asBoolean] <;> simp at hv
  refine ⟨?_, ?_, ?_, ?_⟩
  · intro h; simp [evalExpr, h, binop, Value.asBoolean, bind, Except.bind]
  · intro h
    refine ⟨?_, ?_, ?_⟩
    · intro b hb; simp [evalExpr, h, hb, binop, Value.asBoolean, bind, Except.bind]
    · intro v hv hne
      simp only [evalExpr, h, hv, binop, bind, Except.bind, hneg v hne]
      rfl
    · intro f hf; simp [evalExpr, h, hf, binop, Value.asBoolean, bind, Except.bind]
  · intro v hv hne
    simp [evalExpr, hv, binop, bind, Except.bind, hneg v hne]
  · intro f hf; simp [evalExpr, hf, binop, bind, Except.bind]

/-- **C27**, `||`: dual of `&&` -/
theorem C27_or (l r : Expr) :
    (evalExpr cfg st l = .ok (.bool true) → evalExpr cfg st (.bin .lor l r) = .ok (.bool true)) ∧
    (evalExpr cfg st l = .ok (.bool false) →
      (∀ b, evalExpr cfg st r = .ok (.bool b) → evalExpr cfg st (.bin .lor l r) = .ok (.bool b)) ∧
      (∀ v, evalExpr cfg st r = .ok v → (∀ b, v ≠ .bool b) →
        evalExpr cfg st (.bin .lor l r) = .error (.err (.typeMismatch s!' "boolean" v.shortDisplay))) ∧
      (∀ f, evalExpr cfg st r = .error f → evalExpr cfg st (.bin .lor l r) = .error f)) ∧
    (∀ v, evalExpr cfg st l = .ok v → (∀ b, v ≠ .bool b) →
      evalExpr cfg st (.bin .lor l r) = .error (.err (.typeMismatch s!' "boolean" v.shortDisplay))) ∧
    (∀ f, evalExpr cfg st l = .error f → evalExpr cfg st (.bin .lor l r) = .error f) := by
  have hneg : ∀ v : Value, (∀ i, v ≠ .bool i) → v.asBoolean = .error (.err (.typeMismatch s!' "boolean" v.shortDisplay)) := by
    intro v hv; cases v <;> simp [Value.asBoolean] <;> simp at hv
  refine ⟨?_, ?_, ?_, ?_⟩
  · intro h; simp [evalExpr, h, binop, Value.asBoolean, bind, Except.bind]
  · intro h
    refine ⟨?_, ?_, ?_⟩
    · intro b hb; simp [evalExpr, h, hb, binop, Value.asBoolean, bind, Except.bind]
    · intro v hv hne
      simp only [evalExpr, h, hv, binop, bind, Except.bind, hneg v hne]
      rfl
    · intro f hf; simp [evalExpr, h, hf, binop, Value.asBoolean, bind, Except.bind]
  · intro v hv hne
    simp [evalExpr, hv, binop, bind, Except.bind, hneg v hne]
  · intro f hf; simp [evalExpr, hf, binop, bind, Except.bind]

/-- **C27**, `!`: booleans are negated, an integer is compared with zero, all else is an error. -/
theorem C27_not {e : Expr} {v : Value} (he : evalExpr cfg st e = .ok v) :
    (∀ b, v = .bool b → evalExpr cfg st (.un .not e) = .ok (.bool !b)) ∧
    (∀ i, v = .int i → evalExpr cfg st (.un .not e) = .ok (.bool (decide (i = 0)))) ∧
    ((∀ b, v ≠ .bool b) → (∀ i, v ≠ .int i) →
      evalExpr cfg st (.un .not e) = .error (.err (.typeMismatch s!' "integer or boolean" v.shortDisplay))) := by
  refine ⟨?_, ?_, ?_⟩
  · rintro b rfl; simp [evalExpr, he, unop, bind, Except.bind]
  · rintro b rfl; simp [evalExpr, he, unop, bind, Except.bind]
  · intro h1 h2; cases v <;> simp [evalExpr, he, unop, bind, Except.bind] <;> simp at h1 h2

example : evalExpr exCfg exSt (.bin .land (.bool false) (.bin .div (.int 1) (.int 0))) = .ok (.bool false) := by rfl

/-! ### C28: equality -/

/-- **C28**: `==` is true exactly for identical values, `!=` exactly for different ones, for values of any
shape and depth (including the disk key and the histogram mark). -/
theorem C28_equality {l r : Expr} {v w : Value} (hl : evalExpr cfg st l = .ok v)
    (hr : evalExpr cfg st r = .ok w) :
    ∃ b, evalExpr cfg st (.bin .eq l r) = .ok (.bool b) ∧
      evalExpr cfg st (.bin .ne l r) = .ok (.bool !b) ∧ (b = true ↔ v = w) := by
  refine ⟨Value.beq v w, ?_, ?_, Value.beq_iff v w⟩
  · simp [evalExpr, hl, hr, binop, bind, Except.bind]
  · simp [evalExpr, hl, hr, binop, bind, Except.bind]

/-- **C28**: equality never fails by itself: an error comes from an operand, the left one first. -/
theorem C28_errors (l r : Expr) (op : BinOp) (hop : op = .eq ∨ op = .ne) :
    (∀ f, evalExpr cfg st l = .error f → evalExpr cfg st (.bin op l r) = .error f) ∧
    (∀ v f, evalExpr cfg st l = .ok v → evalExpr cfg st r = .error f →
      evalExpr cfg st (.bin op l r) = .error f) := by
  rcases hop with rfl | rfl <;>
    exact ⟨fun f h => by simp [evalExpr, h, binop, bind, Except.bind],
      fun v f h h' => by simp [evalExpr, h, h', binop, bind, Except.bind]⟩

example : evalExpr exCfg exSt (.bin .eq (.str s!' "a") (.str s!' "a")) = .ok (.bool true) := by rfl

/-! ### C29: ordering -/

/-- **C29**: on integers the comparisons are those of the integers. -/
theorem C29_ordering {l r : Expr} {a b : Int} (hl : evalExpr cfg st l = .ok (.int a))
    (hr : evalExpr cfg st r = .ok (.int b)) :
    evalExpr cfg st (.bin .lt l r) = .ok (.bool (decide (a < b))) ∧
    evalExpr cfg st (.bin .le l r) = .ok (.bool (decide (a ≤ b))) ∧
    evalExpr cfg st (.bin .gt l r) = .ok (.bool (decide (b < a))) ∧
    evalExpr cfg st (.bin .ge l r) = .ok (.bool (decide (b ≤ a))) := by
  simp [evalExpr, hl, hr, binop, intOp, Value.asInteger, bind, Except.bind, GT.gt, GE.ge]

/-- **C29**: any non-integer operand is an error. -/
theorem C29_type_errors (op : BinOp) (hop : op = .lt ∨ op = .le ∨ op = .gt ∨ op = .ge) (l r : Expr) :
    (∀ v, evalExpr cfg st l = .ok v → (∀ i, v ≠ .int i) →
      evalExpr cfg st (.bin op l r) = .error (.err (.typeMismatch s!' "integer" v.shortDisplay))) ∧
    (∀ i v, evalExpr cfg st l = .ok (.int i) → evalExpr cfg st r = .ok v → (∀ j, v ≠ .int j) →
      evalExpr cfg st (.bin op l r) = .error (.err (.typeMismatch s!' "integer" v.shortDisplay))) := by
  have hneg : ∀ v : Value, (∀ i, v ≠ .int i) → v.asInteger = .error (.err (.typeMismatch s!' "integer" v.shortDisplay)) := by
    intro v hv; cases v <;> simp [Value.asInteger] <;> simp at hv
  constructor
  · intro v h hv
    rcases hop with rfl | rfl | rfl | rfl <;>
      simp [evalExpr, h, binop, intOp, bind, Except.bind, hneg v hv]
  · intro i v h h' hv
    rcases hop with rfl | rfl | rfl | rfl <;>
      simp only [evalExpr, h, h', binop, intOp, bind, Except.bind, hneg v hv] <;> rfl

example : evalExpr exCfg exSt (.bin .lt (.int 1) (.bool true)) = .error (.err (.typeMismatch s!' "integer" s!' "true")) := by rfl

/-! ### C30: parentheses -/

theorem evalArgs_eq_map (es : List Expr) : evalArgs cfg st es = es.map (evalExpr cfg st) := by
  induction es with
  | nil => simp [evalArgs]
  | cons e es ih => simp [evalArgs, ih]

/-- **C30**: wrapping subexpressions in parentheses, anywhere and any number of times, leaves the result
(value, error, panic or divergence) as it was. -/
theorem C30_parens {e e' : Expr} (h : Wrapped e e') : evalExpr cfg st e' = evalExpr cfg st e := by
  induction h with
  | refl => rfl
  | wrap _ ih => simpa [evalExpr] using ih
  | paren _ ih => simpa [evalExpr] using ih
  | field f _ ih => simp only [evalExpr, ih]
  | index _ _ ih1 ih2 => simp only [evalExpr, ih1, ih2]
  | call _ hlen _ ih1 ih2 =>
    simp only [evalExpr, ih1, evalArgs_eq_map]
    congr 1
    apply List.ext_getElem
    · simp [hlen]
    · intro i h1 h2
      simp at h1 h2
      simp [ih2 i h2 h1]
  | bin op _ _ ih1 ih2 => simp only [evalExpr, ih1, ih2]
  | un op _ ih => simp only [evalExpr, ih]
  | cast ty _ ih => simp only [evalExpr, ih]

example : Wrapped (.bin .plus (.int 1) (.int 2)) (.paren (.bin .plus (.paren (.int 1)) (.int 2))) :=
  .wrap (.bin _ (.wrap (.refl _)) (.refl _))

end Btrd
