/-
C100: parsing takes polynomial time, whatever the text.
-/
import Verif.Lemmas.LooksStmt
import Verif.Lemmas.LooksFull

namespace Btrd

/-- The parser that counts its looks at the text reads what the parser reads. -/
theorem C100_same (s : Str) : ((PC.seqL (PC.seqL PC.stmts PC.space) PC.eof s).1.map Prod.fst) = parse s := by
  have h : (PC.seqL (PC.seqL PC.stmts PC.space) PC.eof s).1 = P.seqL (P.seqL stmts space) P.eof s :=
    PC.Er.seqL (PC.Er.seqL PC.Er.stmts PC.Er.space) PC.Er.eof s
  rw [h]
  unfold parse
  cases P.seqL (P.seqL stmts space) P.eof s <;> rfl

/-- However a text is made, accepted or not: the number of times parsing it looks at a character is bounded by a
constant times the cube of its length. -/
theorem C100_cubic : ∃ c, ∀ s : Str, PC.looks s ≤ c * (s.length + 1) ^ 3 := ⟨5000000, PC.looks_le⟩

/-- A single expression, however nested: a constant times the square. -/
theorem C100_expression : ∃ c, ∀ s : Str, (PC.expr s).2 ≤ c * (s.length + 1) ^ 2 := by
  refine ⟨30000, fun s => ?_⟩
  have h := (PC.bd_expr (N := s.length) rfl rfl).cost (Nat.le_refl _)
  have e : 300 * (100 * (s.length + 1)) * (s.length + 1) = 30000 * (s.length + 1) ^ 2 := by
    rw [Nat.pow_succ, Nat.pow_one, ← Nat.mul_assoc, ← Nat.mul_assoc]
  omega

/-- And if the text is a program, each of its characters has been looked at. -/
theorem C100_all_seen (s : Str) (h : (parse s).isSome) : s.length < PC.looks s := by
  rw [← C100_same, Option.isSome_map] at h
  obtain ⟨⟨a, s'⟩, hx⟩ := Option.isSome_iff_exists.1 h
  have hp : PC.seqL (PC.seqL PC.stmts PC.space) PC.eof s = (some (a, s'), PC.looks s) := Prod.ext hx rfl
  obtain ⟨b, s1, m, m', h1, h2, h3⟩ := PC.andThen_some hp
  obtain ⟨u, s2, m2, m3, h4, h5, rfl⟩ := PC.andThen_some h2
  have := (PC.Full.seqL PC.Full.stmts PC.Full.space).all h1
  cases s1 with
  | nil =>
    simp only [PC.eof, Prod.mk.injEq] at h4
    simp only [List.length_nil] at this
    omega
  | cons c cs => simp [PC.eof] at h4

/-- a program with nested expressions and blocks, and one that breaks off deep inside -/
example : PC.looks s!' "if a { b = ((1)); }" = 787 ∧ (parse s!' "if a { b = ((1)); }").isSome := by decide +kernel
example : PC.looks s!' "if a { b = ((1" = 644 ∧ (parse s!' "if a { b = ((1").isNone := by decide +kernel

/-- four, eight and sixteen levels: not twice as much for each level -/
example : (PC.expr s!' "((((1))))").2 = 241 ∧ (PC.expr s!' "((((((((1))))))))").2 = 441 ∧
    (PC.expr s!' "((((((((((((((((1))))))))))))))))").2 = 841 := by decide +kernel

/-- and blocks that are never closed, each an alternative of an `if` -/
example : PC.looks s!' "if a {} else {if a {} else {" = 1370 ∧
    PC.looks s!' "if a {} else {if a {} else {if a {} else {if a {} else {" = 2672 := by decide +kernel

end Btrd
