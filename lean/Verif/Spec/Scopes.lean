/-
Specification vocabulary for variables, scopes and assignment (C13-C15, C31-C33).
-/
import Verif.Model.Eval

namespace Btrd.Spec

/-- what can happen to the variables -/
inductive VOp (T : Type) where
  | push
  | pop
  | assign (name : Str) (v : T)

/-- One variable seen alone: for each open scope, innermost first, its binding there if any. -/
abbrev Slots (T : Type) := List (Option T)

/-- reading: the innermost binding -/
def Slots.read {T : Type} : Slots T → Option T
  | [] => none
  | some v :: _ => some v
  | none :: r => read r

/-- is there any binding? -/
def Slots.bound {T : Type} (s : Slots T) : Bool := s.any Option.isSome

/-- update the innermost binding -/
def Slots.update {T : Type} (v : T) : Slots T → Slots T
  | [] => []
  | some _ :: r => some v :: r
  | none :: r => none :: update v r

/-- assignment: update the innermost binding if there is one, else create one in the innermost scope -/
def Slots.write {T : Type} (s : Slots T) (v : T) : Slots T :=
  if s.bound then s.update v else some v :: s.tail

/-- what an operation means for the variable `x` alone -/
def Slots.step {T : Type} (x : Str) (s : Slots T) : VOp T → Slots T
  | .push => none :: s
  | .pop => s.tail
  | .assign y v => if y = x then s.write v else s

/-- at every point there is a scope to pop or to create variables in -/
def opsOk {T : Type} : Nat → List (VOp T) → Prop
  | _, [] => True
  | d, .push :: ops => opsOk (d + 1) ops
  | d, .pop :: ops => 0 < d ∧ opsOk (d - 1) ops
  | d, .assign _ _ :: ops => 0 < d ∧ opsOk d ops

/-- the code's operations in sequence -/
def perform {T : Type} (vs : Vars T) : List (VOp T) → R (Vars T)
  | [] => .ok vs
  | .push :: ops => perform vs.push ops
  | .pop :: ops =>
    match vs.pop with
    | .ok vs' => perform vs' ops
    | .error e => .error e
  | .assign k v :: ops =>
    match vs.insert k v with
    | .ok vs' => perform vs' ops
    | .error e => .error e

/-- the same variables are defined, scope by scope -/
def SameDefined {T : Type} : Vars T → Vars T → Prop
  | [], [] => True
  | s :: r, s' :: r' => (∀ x, s x = none ↔ s' x = none) ∧ SameDefined r r'
  | _, _ => False

/-- the same variables are defined in every scope but the innermost, which may have gained some -/
def Gained {T : Type} : Vars T → Vars T → Prop
  | [], [] => True
  | s :: r, s' :: r' => (∀ x, s' x = none → s x = none) ∧ SameDefined r r'
  | _, _ => False

/-- one step into a value -/
inductive Step where
  | field (name : Str)
  | index (i : Nat)
deriving DecidableEq

/-- the component of a value one step down (the first field of that name) -/
def child : Value → Step → Option Value
  | .struct _ _ fs, .field name => (fs.find? fun p => p.1 == name).map (·.2)
  | .array vec _, .index i => vec[i]?
  | _, _ => none

/-- the component of a value at a path -/
def at? (v : Value) : List Step → Option Value
  | [] => some v
  | s :: p => (child v s).bind fun w => at? w p

/-- two paths that part at some step: neither is an initial part of the other -/
def Apart (p q : List Step) : Prop := ¬ p <+: q ∧ ¬ q <+: p

/-- the assignment target `e` denotes the component at `path` of variable `x`; index expressions are
evaluated in the given state -/
inductive Denotes (cfg : Cfg) (st : State) : Expr → Str → List Step → Prop where
  | ident (x) : Denotes cfg st (.ident x) x []
  | field {e x p} (f) : Denotes cfg st e x p → Denotes cfg st (.field e (.ident f)) x (p ++ [.field f])
  | index {e i x p n} : Denotes cfg st e x p → evalExpr cfg st i = .ok (.int (n : Nat)) → n < 2 ^ 64 →
      Denotes cfg st (.index e i) x (p ++ [.index n])

/-- the variable an assignment target starts with -/
def root : Expr → Option Str
  | .ident x => some x
  | .field e _ => root e
  | .index e _ => root e
  | _ => none

end Btrd.Spec
