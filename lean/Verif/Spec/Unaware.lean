/-
Vocabulary for programs that do not mention a variable (C107).
-/
import Verif.Spec.Propagate

namespace Btrd.Spec

mutual
/-- **the statement does not mention the variable**: it neither reads it nor assigns to it or to a part of it, nor loops with it -/
def Unaware (x : Str) : Stmt → Prop
  | .assign l r => x ∉ l.uses ∧ x ∉ r.uses
  | .ite c t f => x ∉ c.uses ∧ UnawareAll x t ∧ UnawareAll x f
  | .while c b => x ∉ c.uses ∧ UnawareAll x b
  | .for y r b => y ≠ .ident x ∧ x ∉ r.uses ∧ UnawareAll x b
  | .brk | .cont | .help | .quit => True
  | .filesystem e => x ∉ e.uses
  | .print e => x ∉ e.uses
  | .expr e => x ∉ e.uses
/-- the same for all statements of a program -/
def UnawareAll (x : Str) : List Stmt → Prop
  | [] => True
  | s :: p => Unaware x s ∧ UnawareAll x p
end

mutual
/-- **the statement has no `quit;`** at any depth -/
def NoQuit : Stmt → Prop
  | .quit => False
  | .ite _ t f => NoQuits t ∧ NoQuits f
  | .while _ b => NoQuits b
  | .for _ _ b => NoQuits b
  | _ => True
/-- the same for all statements of a program -/
def NoQuits : List Stmt → Prop
  | [] => True
  | s :: p => NoQuit s ∧ NoQuits p
end

/-- **the same variables but for one**: in every scope, every other name has the same value, or none -/
inductive ButFor {T : Type} (x : Str) : Vars T → Vars T → Prop where
  | nil : ButFor x [] []
  | cons {s s' : Scope T} {vs vs' : Vars T} : (∀ y, y ≠ x → s' y = s y) → ButFor x vs vs' → ButFor x (s :: vs) (s' :: vs')

/-- the same state but for one variable -/
structure AlikeBut (x : Str) (st st' : State) : Prop where
  fs : st'.fs = st.fs
  sink : st'.sink = st.sink
  vars : ButFor x st.vars st'.vars

/-- a number, `true`, `false` or a string -/
def IsLiteral : Expr → Prop
  | .int _ | .bool _ | .str _ => True
  | _ => False

/-- **nothing that happens at the prompt here mentions the variable**: a line that is a program is one that does not -/
def NotMentioned (x : Str) (e : ReplEvent) : Prop := ∀ s, e = .line s → ∀ p, Spells (fixupInput (stripComments s)) p → UnawareAll x p

end Btrd.Spec
