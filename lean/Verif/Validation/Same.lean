/-
Comparison of syntax trees, for the tests of the model in `Validation/*`.
-/
import Verif.Model.Parse

namespace Btrd.Validation

mutual
/-- the same expression -/
def sameExpr : Expr → Expr → Bool
  | .ident a, .ident b => a == b
  | .int a, .int b => a == b
  | .bool a, .bool b => a == b
  | .str a, .str b => a == b
  | .paren a, .paren b => sameExpr a b
  | .field a f, .field b g => sameExpr a b && sameExpr f g
  | .index a f, .index b g => sameExpr a b && sameExpr f g
  | .call a f, .call b g => sameExpr a b && sameExprs f g
  | .bin o a f, .bin o' b g => o == o' && sameExpr a b && sameExpr f g
  | .un o a, .un o' b => o == o' && sameExpr a b
  | .cast a f, .cast b g => sameExpr a b && sameExpr f g
  | _, _ => false
/-- the same arguments -/
def sameExprs : List Expr → List Expr → Bool
  | [], [] => true
  | a :: l, b :: l' => sameExpr a b && sameExprs l l'
  | _, _ => false
end

mutual
/-- the same statement -/
def sameStmt : Stmt → Stmt → Bool
  | .assign a b, .assign a' b' => sameExpr a a' && sameExpr b b'
  | .ite c t f, .ite c' t' f' => sameExpr c c' && sameStmts t t' && sameStmts f f'
  | .while c b, .while c' b' => sameExpr c c' && sameStmts b b'
  | .for x r b, .for x' r' b' => sameExpr x x' && sameExpr r r' && sameStmts b b'
  | .brk, .brk => true
  | .cont, .cont => true
  | .help, .help => true
  | .quit, .quit => true
  | .filesystem e, .filesystem e' => sameExpr e e'
  | .print e, .print e' => sameExpr e e'
  | .expr e, .expr e' => sameExpr e e'
  | _, _ => false
/-- the same program -/
def sameStmts : List Stmt → List Stmt → Bool
  | [], [] => true
  | a :: l, b :: l' => sameStmt a b && sameStmts l l'
  | _, _ => false
end

mutual
theorem sameExpr_eq : ∀ a b : Expr, sameExpr a b = true → a = b
  | .ident a, b, h => by cases b <;> simp_all [sameExpr]
  | .int a, b, h => by cases b <;> simp_all [sameExpr]
  | .bool a, b, h => by cases b <;> simp_all [sameExpr]
  | .str a, b, h => by cases b <;> simp_all [sameExpr]
  | .paren a, b, h => by
    cases b <;> simp only [sameExpr, Bool.false_eq_true] at h
    rw [sameExpr_eq _ _ h]
  | .field a f, b, h => by
    cases b <;> simp only [sameExpr, Bool.false_eq_true, Bool.and_eq_true] at h
    rw [sameExpr_eq _ _ h.1, sameExpr_eq _ _ h.2]
  | .index a f, b, h => by
    cases b <;> simp only [sameExpr, Bool.false_eq_true, Bool.and_eq_true] at h
    rw [sameExpr_eq _ _ h.1, sameExpr_eq _ _ h.2]
  | .call a f, b, h => by
    cases b <;> simp only [sameExpr, Bool.false_eq_true, Bool.and_eq_true] at h
    rw [sameExpr_eq _ _ h.1, sameExprs_eq _ _ h.2]
  | .bin o a f, b, h => by
    cases b <;> simp only [sameExpr, Bool.false_eq_true, Bool.and_eq_true] at h
    rw [eq_of_beq h.1.1, sameExpr_eq _ _ h.1.2, sameExpr_eq _ _ h.2]
  | .un o a, b, h => by
    cases b <;> simp only [sameExpr, Bool.false_eq_true, Bool.and_eq_true] at h
    rw [eq_of_beq h.1, sameExpr_eq _ _ h.2]
  | .cast a f, b, h => by
    cases b <;> simp only [sameExpr, Bool.false_eq_true, Bool.and_eq_true] at h
    rw [sameExpr_eq _ _ h.1, sameExpr_eq _ _ h.2]
theorem sameExprs_eq : ∀ a b : List Expr, sameExprs a b = true → a = b
  | [], b, h => by cases b <;> simp_all [sameExprs]
  | a :: l, b, h => by
    cases b <;> simp only [sameExprs, Bool.false_eq_true, Bool.and_eq_true] at h
    rw [sameExpr_eq _ _ h.1, sameExprs_eq _ _ h.2]
end

mutual
theorem sameStmt_eq : ∀ a b : Stmt, sameStmt a b = true → a = b
  | .assign a b, c, h => by
    cases c <;> simp only [sameStmt, Bool.false_eq_true, Bool.and_eq_true] at h
    rw [sameExpr_eq _ _ h.1, sameExpr_eq _ _ h.2]
  | .ite a b c, d, h => by
    cases d <;> simp only [sameStmt, Bool.false_eq_true, Bool.and_eq_true] at h
    rw [sameExpr_eq _ _ h.1.1, sameStmts_eq _ _ h.1.2, sameStmts_eq _ _ h.2]
  | .while a b, d, h => by
    cases d <;> simp only [sameStmt, Bool.false_eq_true, Bool.and_eq_true] at h
    rw [sameExpr_eq _ _ h.1, sameStmts_eq _ _ h.2]
  | .for a b c, d, h => by
    cases d <;> simp only [sameStmt, Bool.false_eq_true, Bool.and_eq_true] at h
    rw [sameExpr_eq _ _ h.1.1, sameExpr_eq _ _ h.1.2, sameStmts_eq _ _ h.2]
  | .brk, d, h => by cases d <;> simp_all [sameStmt]
  | .cont, d, h => by cases d <;> simp_all [sameStmt]
  | .help, d, h => by cases d <;> simp_all [sameStmt]
  | .quit, d, h => by cases d <;> simp_all [sameStmt]
  | .filesystem e, d, h => by
    cases d <;> simp only [sameStmt, Bool.false_eq_true] at h
    rw [sameExpr_eq _ _ h]
  | .print e, d, h => by
    cases d <;> simp only [sameStmt, Bool.false_eq_true] at h
    rw [sameExpr_eq _ _ h]
  | .expr e, d, h => by
    cases d <;> simp only [sameStmt, Bool.false_eq_true] at h
    rw [sameExpr_eq _ _ h]
theorem sameStmts_eq : ∀ a b : List Stmt, sameStmts a b = true → a = b
  | [], b, h => by cases b <;> simp_all [sameStmts]
  | a :: l, b, h => by
    cases b <;> simp only [sameStmts, Bool.false_eq_true, Bool.and_eq_true] at h
    rw [sameStmt_eq _ _ h.1, sameStmts_eq _ _ h.2]
end

/-- the same result of a parser of expressions -/
def sameE : Option Expr → Option Expr → Bool
  | some a, some b => sameExpr a b
  | _, _ => false

/-- the same result of a parser of statements -/
def sameS : Option Stmt → Option Stmt → Bool
  | some a, some b => sameStmt a b
  | _, _ => false

/-- the same program -/
def sameP : Option (List Stmt) → Option (List Stmt) → Bool
  | some a, some b => sameStmts a b
  | _, _ => false

/-- the parser fails -/
def failed {α : Type} : Option α → Bool
  | none => true
  | some _ => false

end Btrd.Validation
