/-
The derived equality of values is equality.
-/
import Verif.Model.Eval

namespace Btrd

mutual
theorem Value.beq_iff : ∀ v w : Value, Value.beq v w = true ↔ v = w
  | .int i, w => by cases w <;> simp [Value.beq]
  | .str s, w => by cases w <;> simp [Value.beq]
  | .bool b, w => by cases w <;> simp [Value.beq]
  | .func f, w => by cases w <;> simp [Value.beq]
  | .array v h, w => by
    cases w <;> simp [Value.beq]
    rename_i w k
    intro _
    exact beqList_iff v w
  | .struct n k fs, w => by
    cases w <;> simp [Value.beq]
    rename_i m l gs
    rw [beqFields_iff fs gs]
    simp [and_assoc]
theorem beqList_iff : ∀ v w : List Value, beqList v w = true ↔ v = w
  | [], w => by cases w <;> simp [beqList]
  | v :: vs, w => by
    cases w with
    | nil => simp [beqList]
    | cons w ws =>
      simp only [beqList, Bool.and_eq_true, List.cons.injEq]
      rw [Value.beq_iff v w, beqList_iff vs ws]
theorem beqFields_iff : ∀ v w : List (Str × Value), beqFields v w = true ↔ v = w
  | [], w => by cases w <;> simp [beqFields]
  | (n, v) :: vs, w => by
    cases w with
    | nil => simp [beqFields]
    | cons w ws =>
      obtain ⟨m, w⟩ := w
      simp only [beqFields, Bool.and_eq_true, List.cons.injEq, Prod.mk.injEq]
      rw [Value.beq_iff v w, beqFields_iff vs ws]
      simp
end

instance : DecidableEq Value := fun v w => decidable_of_iff _ (Value.beq_iff v w)

end Btrd
