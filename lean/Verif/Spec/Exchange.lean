/-
Vocabulary for replacing expressions in a program by others (C101).
-/
import Verif.Model.Live
import Verif.Spec.Unread
import Verif.Spec.Ints
import Verif.Spec.Arith
import Verif.Spec.Display

namespace Btrd.Spec

/-- the values of the variables are such as sessions have (C23, C42, `C101_usual`): all integers fit 128 bits, all names
are printable -/
def Usual (st : State) : Prop :=
  ∀ scope ∈ st.vars, ∀ x v, scope x = some v → AllInts Fits v ∧ PlainNames v

/-- **two expressions mean the same**: before a program runs, one is rejected where the other is, with the same error;
and evaluated in the same state at the same moment in any world they make the same requests with the same warnings, take
the same time, and give the same value or fail with the same error -/
structure SameMeaning (e e' : Expr) : Prop where
  checked : ∀ known, analyzeExpr known e' = analyzeExpr known e
  evaluated : ∀ cfg st, Usual st → ∀ fuel ω t, T.live (α := R Value) fuel ω (evalExprT cfg st e') t =
    T.live (α := R Value) fuel ω (evalExprT cfg st e) t

/-- **the second expression serves for the first**: it is accepted wherever the first is, and whenever evaluating the
first gives a value, so does the second, with the same requests, warnings and time. Where the first fails, the second may
do anything -/
structure ServesFor (e e' : Expr) : Prop where
  checked : ∀ known, analyzeExpr known e = .ok () → analyzeExpr known e' = .ok ()
  evaluated : ∀ cfg st, Usual st → ∀ fuel ω t v, (T.live (α := R Value) fuel ω (evalExprT cfg st e) t).result = .ok v →
    T.live (α := R Value) fuel ω (evalExprT cfg st e') t = T.live (α := R Value) fuel ω (evalExprT cfg st e) t

section
variable (R : Expr → Expr → Prop)

mutual
/-- **the second expression is the first with some subexpressions, at any depth, replaced by related ones** -/
inductive Exchanged : Expr → Expr → Prop where
  | here {e e'} : R e e' → Exchanged e e'
  | same (e) : Exchanged e e
  | paren {e e'} : Exchanged e e' → Exchanged (.paren e) (.paren e')
  | field {e e'} (f) : Exchanged e e' → Exchanged (.field e f) (.field e' f)
  | index {e e' i i'} : Exchanged e e' → Exchanged i i' → Exchanged (.index e i) (.index e' i')
  | call {f f' args args'} : Exchanged f f' → ExchangedArgs args args' → Exchanged (.call f args) (.call f' args')
  | bin (op) {l l' r r'} : Exchanged l l' → Exchanged r r' → Exchanged (.bin op l r) (.bin op l' r')
  | un (op) {e e'} : Exchanged e e' → Exchanged (.un op e) (.un op e')
  | cast (ty) {e e'} : Exchanged e e' → Exchanged (.cast ty e) (.cast ty e')
/-- the arguments of a call -/
inductive ExchangedArgs : List Expr → List Expr → Prop where
  | nil : ExchangedArgs [] []
  | cons {e e' es es'} : Exchanged e e' → ExchangedArgs es es' → ExchangedArgs (e :: es) (e' :: es')
end

/-- the target of an assignment: only its indices are expressions to be evaluated -/
inductive ExchangedTarget : Expr → Expr → Prop where
  | same (e) : ExchangedTarget e e
  | field {e e'} (f) : ExchangedTarget e e' → ExchangedTarget (.field e f) (.field e' f)
  | index {e e' i i'} : ExchangedTarget e e' → Exchanged R i i' → ExchangedTarget (.index e i) (.index e' i')

mutual
/-- **the second statement is the first with some expressions, anywhere in it, replaced by related ones** -/
inductive ExchangedStmt : Stmt → Stmt → Prop where
  | same (s) : ExchangedStmt s s
  | assign {l l' r r'} : ExchangedTarget R l l' → Exchanged R r r' → ExchangedStmt (.assign l r) (.assign l' r')
  | ite {c c' t t' f f'} : Exchanged R c c' → ExchangedProg t t' → ExchangedProg f f' →
      ExchangedStmt (.ite c t f) (.ite c' t' f')
  | while {c c' b b'} : Exchanged R c c' → ExchangedProg b b' → ExchangedStmt (.while c b) (.while c' b')
  | for (x) {r r' b b'} : Exchanged R r r' → ExchangedProg b b' → ExchangedStmt (.for x r b) (.for x r' b')
  | print {e e'} : Exchanged R e e' → ExchangedStmt (.print e) (.print e')
  | expr {e e'} : Exchanged R e e' → ExchangedStmt (.expr e) (.expr e')
/-- the same for programs -/
inductive ExchangedProg : List Stmt → List Stmt → Prop where
  | nil : ExchangedProg [] []
  | cons {s s' p p'} : ExchangedStmt s s' → ExchangedProg p p' → ExchangedProg (s :: p) (s' :: p')
end

/-- two events at the prompt: the same, or two entries that are programs, the second the first with expressions replaced -/
inductive ExchangedEvent (cleaned : Str → Str) : ReplEvent → ReplEvent → Prop where
  | same (e) : ExchangedEvent cleaned e e
  | program {s s' p p'} : Spells (cleaned s) p → Spells (cleaned s') p' → ExchangedProg R p p' →
      ExchangedEvent cleaned (.line s) (.line s')

/-- two events of a session in the same world -/
structure ExchangedTick (cleaned : Str → Str) (t t' : LiveTick) : Prop where
  drift : t'.drift = t.drift
  world : t'.world = t.world
  event : ExchangedEvent R cleaned t.event t'.event

end

end Btrd.Spec
