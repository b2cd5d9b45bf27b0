/-
Vocabulary for renaming the variables of a program (C94).
-/
import Verif.Spec.Analysis
import Verif.Model.Live
import Verif.Spec.Unread
import Batteries.Data.List.Basic

namespace Btrd

mutual
/-- the expression with other names for its variables; the name after a `.` and the type of a cast are no variables -/
def Expr.rename (ρ : Str → Str) : Expr → Expr
  | .ident x => .ident (ρ x)
  | .int i => .int i
  | .bool b => .bool b
  | .str s => .str s
  | .paren e => .paren (e.rename ρ)
  | .field e f => .field (e.rename ρ) f
  | .index e i => .index (e.rename ρ) (i.rename ρ)
  | .call f args => .call (f.rename ρ) (renameL ρ args)
  | .bin op l r => .bin op (l.rename ρ) (r.rename ρ)
  | .un op e => .un op (e.rename ρ)
  | .cast ty e => .cast ty (e.rename ρ)
def renameL (ρ : Str → Str) : List Expr → List Expr
  | [] => []
  | e :: es => e.rename ρ :: renameL ρ es
end

mutual
/-- the statement with other names for its variables -/
def Stmt.rename (ρ : Str → Str) : Stmt → Stmt
  | .assign l r => .assign (l.rename ρ) (r.rename ρ)
  | .ite c t f => .ite (c.rename ρ) (renameP ρ t) (renameP ρ f)
  | .while c b => .while (c.rename ρ) (renameP ρ b)
  | .for x r b => .for (x.rename ρ) (r.rename ρ) (renameP ρ b)
  | .brk => .brk
  | .cont => .cont
  | .help => .help
  | .quit => .quit
  | .filesystem e => .filesystem (e.rename ρ)
  | .print e => .print (e.rename ρ)
  | .expr e => .expr (e.rename ρ)
def renameP (ρ : Str → Str) : List Stmt → List Stmt
  | [] => []
  | s :: p => s.rename ρ :: renameP ρ p
end

mutual
/-- the names a statement has in the place of a variable, to read or to write -/
def Stmt.mentions : Stmt → List Str
  | .assign l r => l.uses ++ r.uses
  | .ite c t f => c.uses ++ mentionsP t ++ mentionsP f
  | .while c b => c.uses ++ mentionsP b
  | .for x r b => x.uses ++ r.uses ++ mentionsP b
  | .brk | .cont | .help | .quit => []
  | .filesystem e => e.uses
  | .print e => e.uses
  | .expr e => e.uses
def mentionsP : List Stmt → List Str
  | [] => []
  | s :: p => s.mentions ++ mentionsP p
end

namespace Spec

/-- different names of the set get different names -/
def Distinguishes (X : Names) (ρ : Str → Str) : Prop := ∀ x y, X x → X y → ρ x = ρ y → x = y

/-- scope by scope: what the names of the set stand for, their new names stand for in the second -/
def SameVars {T : Type} (X : Names) (ρ : Str → Str) (vs vs' : Vars T) : Prop :=
  List.Forall₂ (fun s s' => ∀ x, X x → s' (ρ x) = s x) vs vs'

/-- a failure in terms of the new names: a message about an unknown variable has its new name, nothing else changes -/
def renameFail (ρ : Str → Str) : Fail → Fail
  | .err (.unknownVar x) => .err (.unknownVar (ρ x))
  | f => f

/-- a result in terms of the new names -/
def renameResult (ρ : Str → Str) : EvalResult → EvalResult
  | .fail f => .fail (renameFail ρ f)
  | r => r

/-- two interpreters: the same filesystem and output, and the same values of the variables, by their names of the set
here, by their new names there -/
structure SameBut (X : Names) (ρ : Str → Str) (a b : RState) : Prop where
  known : SameVars X ρ a.sem.vars b.sem.vars
  depth : b.sem.loopDepth = a.sem.loopDepth
  vars : SameVars X ρ a.ev.vars b.ev.vars
  fs : b.ev.fs = a.ev.fs
  sink : b.ev.sink = a.ev.sink

/-- two lines on standard error: the same, or both about an unknown variable, with its old and new name -/
def SameLine (ρ : Str → Str) (l l' : ErrLine) : Prop :=
  l' = l ∨ ∃ x, l = .error (some (s!' "Unknown variable: " ++ x)) ∧ l' = .error (some (s!' "Unknown variable: " ++ ρ x))

/-- built-in names keep their name, and no other name becomes a built-in one -/
def KeepsBuiltin (builtin X : Names) (ρ : Str → Str) : Prop := ∀ x, X x → builtin x ∨ builtin (ρ x) → ρ x = x

/-- two events at the prompt: the same, if there is no entry or it is no program; or two entries that are programs, the
second the first with other names for its variables -/
inductive RenamedEvent (cleaned : Str → Str) (X : Names) (ρ : Str → Str) : ReplEvent → ReplEvent → Prop where
  | noEntry {e} : (∀ s, e ≠ .line s) → RenamedEvent cleaned X ρ e e
  | noProgram {s} : (∀ p, ¬ Spells (cleaned s) p) → RenamedEvent cleaned X ρ (.line s) (.line s)
  | program {s s' p} : Spells (cleaned s) p → Spells (cleaned s') (renameP ρ p) → (∀ x ∈ mentionsP p, X x) →
      RenamedEvent cleaned X ρ (.line s) (.line s')

/-- two events of a session in the same world -/
structure RenamedTick (cleaned : Str → Str) (X : Names) (ρ : Str → Str) (t t' : LiveTick) : Prop where
  drift : t'.drift = t.drift
  world : t'.world = t.world
  event : RenamedEvent cleaned X ρ t.event t'.event

end Spec

end Btrd
