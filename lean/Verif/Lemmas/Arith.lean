/-
Helper lemmas about 128-bit integers and value equality.
-/
import Verif.Model.Eval
import Verif.Spec.Arith

namespace Btrd
open Spec

theorem inI128_iff (x : Int) : inI128 x = true ↔ Fits x := by
  unfold inI128 Fits i128Min i128Max
  rw [Bool.and_eq_true, decide_eq_true_iff, decide_eq_true_iff]
  omega

theorem checkedI128_eq (e : Err) (x : Int) :
    checkedI128 e x = if Fits x then .ok (.int x) else .error (.err e) := by
  unfold checkedI128
  by_cases h : Fits x
  · rw [if_pos ((inI128_iff x).mpr h), if_pos h]
  · rw [if_neg (fun e => h ((inI128_iff x).mp e)), if_neg h]

theorem getLsbD_ofInt (x : Int) (i : Nat) (hi : i < 128) :
    (BitVec.ofInt 128 x).getLsbD i = twosBit x i := by
  have hpos : (0:Int) < 2 ^ 128 := by decide
  have h0 : 0 ≤ x % 2 ^ 128 := Int.emod_nonneg _ (by decide)
  have hn : ((BitVec.ofInt 128 x).toNat : Int) = x % 2 ^ 128 := by
    rw [BitVec.toNat_ofInt]
    exact Int.toNat_of_nonneg h0
  rw [← BitVec.testBit_toNat, Nat.testBit_eq_decide_div_mod_eq, twosBit]
  congr 1
  generalize (BitVec.ofInt 128 x).toNat = n at hn
  have e1 : ((n / 2 ^ i % 2 : Nat) : Int) = (x % 2 ^ 128) / 2 ^ i % 2 := by
    rw [← hn]; simp
  have e2 : (x % 2 ^ 128) / 2 ^ i % 2 = x / 2 ^ i % 2 := by
    have hx : x = x % 2 ^ 128 + (2 * (2 ^ (127 - i) * (x / 2 ^ 128))) * 2 ^ i := by
      have h1 := Int.emod_add_mul_ediv x (2 ^ 128)
      have h2 : (2:Int) ^ 128 = 2 * 2 ^ (127 - i) * 2 ^ i := by
        rw [Int.mul_assoc, ← Int.pow_add, show 127 - i + i = 127 by omega]
        decide
      calc x = x % 2 ^ 128 + 2 ^ 128 * (x / 2 ^ 128) := h1.symm
        _ = x % 2 ^ 128 + (2 * 2 ^ (127 - i) * 2 ^ i) * (x / 2 ^ 128) := by rw [← h2]
        _ = _ := by
          congr 1
          simp only [Int.mul_assoc, Int.mul_comm, Int.mul_left_comm]
    have hp : (2:Int) ^ i ≠ 0 := Int.pow_ne_zero (by decide)
    conv => rhs; rw [hx, Int.add_mul_ediv_right _ _ hp]
    omega
  rw [e2] at e1
  apply propext
  omega

theorem twosBit_toInt (b : BitVec 128) (i : Nat) (hi : i < 128) : twosBit b.toInt i = b.getLsbD i := by
  rw [← getLsbD_ofInt _ _ hi, BitVec.ofInt_toInt]

theorem fits_toInt (b : BitVec 128) : Fits b.toInt := by
  have h1 := b.le_toInt
  have h2 := b.toInt_lt
  simp only [Fits]
  omega

theorem wrapI128_fits (x : Int) : Fits (wrapI128 x) := by
  have h1 := Int.le_bmod (x := x) (m := 2 ^ 128) (by decide)
  have h2 := Int.bmod_lt (x := x) (m := 2 ^ 128) (by decide)
  simp only [Fits, wrapI128]
  omega

theorem wrapI128_of_fits {x : Int} (h : Fits x) : wrapI128 x = x := by
  simp only [Fits] at h
  apply Int.bmod_eq_of_le <;> omega

theorem tryUnsigned_nat {bits n : Nat} (h : n < 2 ^ bits) : tryUnsigned bits (n : Int) = .ok n := by
  change (if n < 2 ^ bits then _ else _) = _
  rw [if_pos h]

theorem tryUnsigned_err {bits : Nat} {x : Int} (h : ¬ (0 ≤ x ∧ x < 2 ^ bits)) :
    tryUnsigned bits x = .error (.err .conversion) := by
  unfold tryUnsigned
  split
  · rename_i n
    rw [if_neg]
    intro hn
    apply h
    refine ⟨Int.natCast_nonneg n, ?_⟩
    have hx : ((2 ^ bits : Nat) : Int) = 2 ^ bits := by simp
    have : (n : Int) < ((2 ^ bits : Nat) : Int) := Int.ofNat_lt.mpr hn
    rw [hx] at this
    exact this
  · rfl

theorem tryUnsigned_ok {bits : Nat} {x : Int} (h0 : 0 ≤ x) (h1 : x < 2 ^ bits) :
    tryUnsigned bits x = .ok x.toNat := by
  obtain ⟨n, rfl⟩ := Int.eq_ofNat_of_zero_le h0
  have hx : ((2 ^ bits : Nat) : Int) = 2 ^ bits := by simp
  rw [← hx] at h1
  rw [tryUnsigned_nat (Int.ofNat_lt.mp h1)]
  rfl

theorem tryUnsigned_inv {bits : Nat} {x : Int} {n : Nat} (h : tryUnsigned bits x = .ok n) :
    x = n ∧ n < 2 ^ bits := by
  unfold tryUnsigned at h
  split at h
  · split at h
    · injection h with h; subst h; exact ⟨rfl, by assumption⟩
    · simp at h
  · simp at h

theorem tryUnsigned_small (n : Nat) (hn : n < 128) : tryUnsigned 32 (n : Int) = .ok n :=
  tryUnsigned_nat (Nat.lt_trans hn (by decide))

theorem intOp_ok (f : Int → Int → R Value) (a b : Int) :
    intOp f (.ok (.int a)) (.ok (.int b)) = f a b := rfl

theorem shrI128_small (a : Int) (n : Nat) (hn : n < 128) : shrI128 a n = .ok (.int (a / 2 ^ n)) := by
  unfold shrI128
  rw [tryUnsigned_small n hn]
  simp only [bind, Except.bind]
  rw [if_pos hn]

theorem shlI128_small (a : Int) (n : Nat) (hn : n < 128) :
    shlI128 a n = .ok (.int (wrapI128 (a * 2 ^ n))) := by
  unfold shlI128
  rw [tryUnsigned_small n hn]
  simp only [bind, Except.bind]
  rw [if_pos hn]

end Btrd
