/-
Specification vocabulary for semantic analysis (C16-C21).
-/
import Verif.Model.Ast
import Verif.Model.StructTable

namespace Btrd

mutual
/-- the variables an expression reads; the name after a `.` and the type of a cast are no variables -/
def Expr.uses : Expr → List Str
  | .ident x => [x]
  | .int _ | .bool _ | .str _ => []
  | .paren e => e.uses
  | .field e _ => e.uses
  | .index e i => e.uses ++ i.uses
  | .call f args => f.uses ++ usesL args
  | .bin _ l r => l.uses ++ r.uses
  | .un _ e => e.uses
  | .cast _ e => e.uses
def usesL : List Expr → List Str
  | [] => []
  | e :: es => e.uses ++ usesL es
end

mutual
/-- well-formed: what follows a `.` is an identifier, and casts name a known struct -/
def Expr.Sound : Expr → Prop
  | .ident _ | .int _ | .bool _ | .str _ => True
  | .paren e => e.Sound
  | .field e f => (∃ n, f = .ident n) ∧ e.Sound
  | .index e i => e.Sound ∧ i.Sound
  | .call f args => f.Sound ∧ SoundL args
  | .bin _ l r => l.Sound ∧ r.Sound
  | .un _ e => e.Sound
  | .cast ty e => (∃ n, ty = .ident n ∧ ∃ s ∈ structs, s.name = n) ∧ e.Sound
def SoundL : List Expr → Prop
  | [] => True
  | e :: es => e.Sound ∧ SoundL es
end

/-- the variable a statement creates in the scope it stands in, if it runs to its end -/
def Stmt.gains : Stmt → List Str
  | .assign (.ident x) _ => [x]
  | _ => []

/-- the variables a sequence of statements creates in the scope it stands in -/
def gainsL (p : List Stmt) : List Str := p.flatMap Stmt.gains

namespace Spec

/-- a set of names -/
abbrev Names := Str → Prop

/-- the names of `D`, and those of the list -/
def Names.with (D : Names) (l : List Str) : Names := fun x => D x ∨ x ∈ l

/-- a well-formed expression that reads only variables of `D` -/
def Reads (D : Names) (e : Expr) : Prop := e.Sound ∧ ∀ x ∈ e.uses, D x

mutual
/-- **What the analyzer checks**, where `D` are the known variables and `loop` says whether the statement
stands in a loop. Three places are laxer than definition before use (`Strict` below): the variable being
assigned counts as known in the right-hand side, a loop variable counts as known in the range, and what
the first branch of an `if` defines counts as known in the second. -/
def Accepted (D : Names) (loop : Prop) : Stmt → Prop
  | .assign l r =>
    match l with
    | .ident x => Reads (D.with [x]) r
    | l => Reads D l ∧ Reads D r
  | .ite c t f => Reads D c ∧ AcceptedL D loop t ∧ AcceptedL (D.with (gainsL t)) loop f
  | .while c b => Reads D c ∧ AcceptedL D True b
  | .for x r b => ∃ n, x = .ident n ∧ Reads (D.with [n]) r ∧ AcceptedL (D.with [n]) True b
  | .brk => loop
  | .cont => loop
  | .help => True
  | .quit => True
  | .filesystem e => ∃ s, e = .str s
  | .print e => Reads D e
  | .expr e => Reads D e
def AcceptedL (D : Names) (loop : Prop) : List Stmt → Prop
  | [] => True
  | s :: ss => Accepted D loop s ∧ AcceptedL (D.with s.gains) loop ss
end

mutual
/-- **Definition before use**: on every path, every variable is assigned before it is read. -/
def Strict (D : Names) : Stmt → Prop
  | .assign l r =>
    match l with
    | .ident _ => ∀ x ∈ r.uses, D x
    | l => (∀ x ∈ l.uses, D x) ∧ ∀ x ∈ r.uses, D x
  | .ite c t f => (∀ x ∈ c.uses, D x) ∧ StrictL D t ∧ StrictL D f
  | .while c b => (∀ x ∈ c.uses, D x) ∧ StrictL D b
  | .for x r b => (∀ y ∈ r.uses, D y) ∧ ∀ n, x = .ident n → StrictL (D.with [n]) b
  | .brk | .cont | .help | .quit => True
  | .filesystem e => ∀ x ∈ e.uses, D x
  | .print e => ∀ x ∈ e.uses, D x
  | .expr e => ∀ x ∈ e.uses, D x
def StrictL (D : Names) : List Stmt → Prop
  | [] => True
  | s :: ss => Strict D s ∧ StrictL (D.with s.gains) ss
end

end Spec

end Btrd

namespace Btrd

mutual
/-- every variable read anywhere in the statement -/
def Stmt.reads : Stmt → List Str
  | .assign l r =>
    match l with
    | .ident _ => r.uses
    | l => l.uses ++ r.uses
  | .ite c t f => c.uses ++ readsL t ++ readsL f
  | .while c b => c.uses ++ readsL b
  | .for _ r b => r.uses ++ readsL b
  | .brk | .cont | .help | .quit => []
  | .filesystem e => e.uses
  | .print e => e.uses
  | .expr e => e.uses
def readsL : List Stmt → List Str
  | [] => []
  | s :: ss => s.reads ++ readsL ss
end

namespace Spec

mutual
/-- The three gaps of the analyzer are not used: no assignment reads the variable it assigns, no range
reads its loop variable, and no `else` branch reads a variable that the first branch creates. -/
def NoGaps : Stmt → Prop
  | .assign l r => ∀ x, l = .ident x → x ∉ r.uses
  | .ite _ t f => NoGapsL t ∧ NoGapsL f ∧ ∀ x ∈ gainsL t, x ∉ readsL f
  | .while _ b => NoGapsL b
  | .for x r b => (∀ n, x = .ident n → n ∉ r.uses) ∧ NoGapsL b
  | .brk | .cont | .help | .quit | .filesystem _ | .print _ | .expr _ => True
def NoGapsL : List Stmt → Prop
  | [] => True
  | s :: ss => NoGaps s ∧ NoGapsL ss
end

end Spec

end Btrd
