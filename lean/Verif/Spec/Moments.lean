/-
The rules of the language in a world that changes while a program runs (C88): every search, every read of an image and
every opening of a filesystem is answered by the world as it is at that moment. What an operation means is left to the
rules for a fixed moment (`Spec/Rules`, `Spec/Messages`, `Spec/World`); here it is said in which order the operands are
evaluated, which of them are, and at which moment each thing happens.
-/
import Verif.Spec.World
import Verif.Model.Live

namespace Btrd.Spec

/-! ### operations on operands -/

/-- the operands of an expression, in the order of their evaluation -/
def operands : Expr → List Expr
  | .paren e => [e]
  | .field e _ => [e]
  | .index e i => [e, i]
  | .call f args => f :: args
  | .bin _ l r => [l, r]
  | .un _ e => [e]
  | .cast _ e => [e]
  | _ => []

/-- the name that stands for an operand, by its number -/
def slot (i : Nat) : Str := List.replicate i 'x'

/-- an expression with names for its operands -/
def outline : Expr → Expr
  | .paren _ => .paren (.ident (slot 0))
  | .field _ f => .field (.ident (slot 0)) f
  | .index _ _ => .index (.ident (slot 0)) (.ident (slot 1))
  | .call _ args => .call (.ident (slot 0)) ((List.range args.length).map fun i => .ident (slot (i + 1)))
  | .bin op _ _ => .bin op (.ident (slot 0)) (.ident (slot 1))
  | .un op _ => .un op (.ident (slot 0))
  | .cast ty _ => .cast ty (.ident (slot 0))
  | e => e

/-- the names hold the values of the first operands; the others are not yet known -/
def holding (vs : List Value) : Scope Value := fun x => vs[x.length]?

/-- the message about an operand that is not yet known -/
def missing (i : Nat) : Option Str := some (s!' "Unknown variable: " ++ slot i)

/-- how often the operation itself, given these operands, turns to the operating system when it gives a value -/
def asks : Expr → List Value → Nat
  | .cast _ _, _ => 1
  | .call _ _, .func .search :: _ => 1
  | _, _ => 0

section
variable (ω : Live) (wraps interactive : Prop)

/-- the rules of the moment -/
abbrev worldAt (t : Nat) : World := theWorld (ω.host t) wraps interactive

/-- the messages of the moment -/
abbrev messagesAt (t : Nat) : Complaints := theComplaints (ω.host t) wraps

/-- the state in which an operation on these operands is performed at a moment -/
def during (σ : State) (t : Nat) (vs : List Value) : State := ⟨σ.sink, [holding vs], σ.fs.map (ω.drift t)⟩

/-- when these are the values of the first operands of `e`, the next one, `q`, has to be evaluated: without it the rules
complain that it is not known -/
def Wanted (σ : State) (e : Expr) (t : Nat) (vs : List Value) (q : Expr) : Prop :=
  (operands e)[vs.length]? = some q ∧
    Complains (worldAt ω wraps interactive t) (messagesAt ω wraps t) (during ω σ t vs) (outline e) (missing vs.length)

mutual
/-- **evaluating `e` from moment `t` on, its first operands have these values** at moment `t'` -/
inductive Got (σ : State) : Expr → Nat → List Value → Nat → Prop where
  | start {e t} : Got σ e t [] t
  | next {e q t vs t₁ v t₂} : Got σ e t vs t₁ → Wanted ω wraps interactive σ e t₁ vs q → LiveEv σ q t₁ v t₂ →
      Got σ e t (vs ++ [v]) t₂
/-- **evaluating `e` from moment `t` on gives the value `v`** at moment `t'` -/
inductive LiveEv (σ : State) : Expr → Nat → Value → Nat → Prop where
  | atom {e t v} : operands e = [] → Ev (worldAt ω wraps interactive t) σ e v → LiveEv σ e t v t
  | op {e t vs t₁ v} : operands e ≠ [] → Got σ e t vs t₁ →
      Ev (worldAt ω wraps interactive t₁) (during ω σ t₁ vs) (outline e) v → LiveEv σ e t v (t₁ + asks e vs)
end

/-- **evaluating `e` from moment `t` on fails** with this message -/
inductive LiveFails (σ : State) : Expr → Nat → Option Str → Prop where
  | atom {e t m} : operands e = [] → Complains (worldAt ω wraps interactive t) (messagesAt ω wraps t) σ e m →
      LiveFails σ e t m
  | operand {e t vs t₁ q m} : Got ω wraps interactive σ e t vs t₁ → Wanted ω wraps interactive σ e t₁ vs q →
      LiveFails σ q t₁ m → LiveFails σ e t m
  | op {e t vs t₁ m} : operands e ≠ [] → Got ω wraps interactive σ e t vs t₁ →
      (∀ q, ¬ Wanted ω wraps interactive σ e t₁ vs q) →
      Complains (worldAt ω wraps interactive t₁) (messagesAt ω wraps t₁) (during ω σ t₁ vs) (outline e) m →
      LiveFails σ e t m

/-! ### statements -/

/-- the expression is no condition -/
inductive TestFails (σ : State) (c : Expr) (t : Nat) : Option Str → Prop where
  | fails {m} : LiveFails ω wraps interactive σ c t m → TestFails σ c t m
  | kind {v t'} : LiveEv ω wraps interactive σ c t v t' → (∀ b, v ≠ .bool b) →
      TestFails σ c t (expected s!' "boolean" v)

/-- the target of an assignment with its indices worked out, the last one first -/
inductive Fixes (σ : State) : Expr → Nat → Expr → Nat → Prop where
  | index {e i n e' t t₁ t₂} : LiveEv ω wraps interactive σ i t (.int n) t₁ → Fixes σ e t₁ e' t₂ →
      Fixes σ (.index e i) t (.index e' (.int n)) t₂
  | field {e f e' t t₁} : Fixes σ e t e' t₁ → Fixes σ (.field e (.ident f)) t (.field e' (.ident f)) t₁
  | other {e t} : (∀ a i, e ≠ .index a i) → (∀ a f, e ≠ .field a (.ident f)) → Fixes σ e t e t

/-- one of its indices is none -/
inductive FixFails (σ : State) : Expr → Nat → Option Str → Prop where
  | index {e i t m} : LiveFails ω wraps interactive σ i t m → FixFails σ (.index e i) t m
  | kind {e i v t t₁} : LiveEv ω wraps interactive σ i t v t₁ → (∀ n, v ≠ .int n) →
      FixFails σ (.index e i) t (expected s!' "integer" v)
  | indexOf {e i n t t₁ m} : LiveEv ω wraps interactive σ i t (.int n) t₁ → FixFails σ e t₁ m →
      FixFails σ (.index e i) t m
  | field {e f t m} : FixFails σ e t m → FixFails σ (.field e (.ident f)) t m

/-- how statements end, and at which moment if that matters -/
inductive How where
  | done (t : Nat)
  | brk (t : Nat)
  | cont (t : Nat)
  | quit
  | failed (m : Option Str)

/-- writing text at this moment -/
inductive Writes (text : Str) (σ : State) (t : Nat) : State → How → Prop where
  | done {σ'} : Outputs text σ σ' .done → Writes text σ t σ' (.done t)
  | full {σ'} : Outputs text σ σ' .failed → Writes text σ t σ' (.failed none)

mutual
/-- **the statement, begun at moment `t`, takes the first state to the second and ends this way** -/
inductive Goes : Stmt → State → Nat → State → How → Prop where
  -- assignment: the value, then the indices of the target, then the target
  | assign {l r l' σ t v t₁ t₂ vs} : LiveEv ω wraps interactive σ r t v t₁ → Fixes ω wraps interactive σ l t₁ l' t₂ →
      Stores (worldAt ω wraps interactive t₂) σ l' v vs → Goes (.assign l r) σ t { σ with vars := vs } (.done t₂)
  | assignFrom {l r σ t m} : LiveFails ω wraps interactive σ r t m → Goes (.assign l r) σ t σ (.failed m)
  | assignAt {l r σ t v t₁ m} : LiveEv ω wraps interactive σ r t v t₁ → FixFails ω wraps interactive σ l t₁ m →
      Goes (.assign l r) σ t σ (.failed m)
  | assignTo {l r l' σ t v t₁ t₂ m} : LiveEv ω wraps interactive σ r t v t₁ → Fixes ω wraps interactive σ l t₁ l' t₂ →
      StoreFails (worldAt ω wraps interactive t₂) (messagesAt ω wraps t₂) σ l' m → Goes (.assign l r) σ t σ (.failed m)
  -- `if`
  | ifTrue {c a b σ t t₁ σ₁ σ₂ h} : LiveEv ω wraps interactive (opened σ) c t (.bool true) t₁ →
      GoesAll a (opened σ) t₁ σ₁ h → Closes σ₁ σ₂ → Goes (.ite c a b) σ t σ₂ h
  | ifFalse {c a b σ t t₁ σ₁ σ₂ h} : LiveEv ω wraps interactive (opened σ) c t (.bool false) t₁ →
      GoesAll b (opened σ) t₁ σ₁ h → Closes σ₁ σ₂ → Goes (.ite c a b) σ t σ₂ h
  | ifFails {c a b σ t m} : TestFails ω wraps interactive (opened σ) c t m → Goes (.ite c a b) σ t σ (.failed m)
  -- loops
  | while {c b σ t σ₁ σ₂ h} : GoesOn c b (opened σ) t σ₁ h → Closes σ₁ σ₂ → Goes (.while c b) σ t σ₂ h
  | for {x r b xs k σ t t₁ σ₁ σ₂ h} : LiveEv ω wraps interactive (opened σ) r t (.array xs k) t₁ →
      GoesThrough x b xs (opened σ) t₁ σ₁ h → Closes σ₁ σ₂ → Goes (.for (.ident x) r b) σ t σ₂ h
  | forOf {x r b σ t m} : LiveFails ω wraps interactive (opened σ) r t m → Goes (.for (.ident x) r b) σ t σ (.failed m)
  | forKind {x r b v σ t t₁} : LiveEv ω wraps interactive (opened σ) r t v t₁ → (∀ xs k, v ≠ .array xs k) →
      Goes (.for (.ident x) r b) σ t σ (.failed (expected s!' "array" v))
  | forNoName {x r b σ t} : (∀ y, x ≠ .ident y) →
      Goes (.for x r b) σ t σ (.failed (some s!' "Variable in for loop must be an identifier"))
  -- jumps
  | brk {σ t} : Goes .brk σ t σ (.brk t)
  | cont {σ t} : Goes .cont σ t σ (.cont t)
  | quit {σ t} : Goes .quit σ t σ .quit
  | help {σ t σ' h} : Writes (helpLines.flatMap (· ++ ['\n'])) σ t σ' h → Goes .help σ t σ' h
  -- `filesystem`: the path is opened once
  | filesystem {e s σ t t₁ fs} : LiveEv ω wraps interactive σ e t (.str s) t₁ → OpensAs (ω.host t₁) (s.flatMap byteText) fs →
      Goes (.filesystem e) σ t { σ with fs := some fs } (.done (t₁ + 1))
  | filesystemOf {e σ t m} : LiveFails ω wraps interactive σ e t m → Goes (.filesystem e) σ t σ (.failed m)
  | filesystemKind {e v σ t t₁} : LiveEv ω wraps interactive σ e t v t₁ → (∀ s, v ≠ .str s) →
      Goes (.filesystem e) σ t σ (.failed (expected s!' "string" v))
  | filesystemFails {e s σ t t₁ m} : LiveEv ω wraps interactive σ e t (.str s) t₁ →
      OpenFails (ω.host t₁) (s.flatMap byteText) m → Goes (.filesystem e) σ t σ (.failed m)
  -- `print` and expressions
  | print {e v text σ t t₁ σ' h} : LiveEv ω wraps interactive σ e t v t₁ → Prints (worldAt ω wraps interactive t₁) v text →
      Writes (text ++ ['\n']) σ t₁ σ' h → Goes (.print e) σ t σ' h
  | printOf {e σ t m} : LiveFails ω wraps interactive σ e t m → Goes (.print e) σ t σ (.failed m)
  | printNoDiagram {e before v after σ t t₁} :
      LiveEv ω wraps interactive σ e t (.array (before ++ v :: after) true) t₁ →
      (∀ w ∈ before, ∃ i, w = .int i) → (∀ i, v ≠ .int i) → Goes (.print e) σ t σ
        (.failed (some (s!' "Found invalid value '" ++ brief v ++ s!' "' when printing histogram")))
  | shown {e v text σ t t₁ σ' h} : interactive → LiveEv ω wraps interactive σ e t v t₁ →
      text = unlines (Spec.shown v) → Writes (text ++ ['\n']) σ t₁ σ' h → Goes (.expr e) σ t σ' h
  | silent {e v σ t t₁} : ¬ interactive → LiveEv ω wraps interactive σ e t v t₁ → Goes (.expr e) σ t σ (.done t₁)
  | exprOf {e σ t m} : LiveFails ω wraps interactive σ e t m → Goes (.expr e) σ t σ (.failed m)
/-- statements one after the other, up to the first that does not end normally -/
inductive GoesAll : List Stmt → State → Nat → State → How → Prop where
  | nil {σ t} : GoesAll [] σ t σ (.done t)
  | next {s ss σ t σ₁ t₁ σ₂ h} : Goes s σ t σ₁ (.done t₁) → GoesAll ss σ₁ t₁ σ₂ h → GoesAll (s :: ss) σ t σ₂ h
  | stop {s ss σ t σ₁ h} : Goes s σ t σ₁ h → (∀ t₁, h ≠ .done t₁) → GoesAll (s :: ss) σ t σ₁ h
/-- the iterations of a `while` loop -/
inductive GoesOn : Expr → List Stmt → State → Nat → State → How → Prop where
  | over {c b σ t t₁} : LiveEv ω wraps interactive σ c t (.bool false) t₁ → GoesOn c b σ t σ (.done t₁)
  | again {c b σ t t₁ σ₁ h t₂ σ₂ h'} : LiveEv ω wraps interactive σ c t (.bool true) t₁ → GoesAll b σ t₁ σ₁ h →
      h = .done t₂ ∨ h = .cont t₂ → GoesOn c b σ₁ t₂ σ₂ h' → GoesOn c b σ t σ₂ h'
  | broken {c b σ t t₁ σ₁ t₂} : LiveEv ω wraps interactive σ c t (.bool true) t₁ → GoesAll b σ t₁ σ₁ (.brk t₂) →
      GoesOn c b σ t σ₁ (.done t₂)
  | ended {c b σ t t₁ σ₁ h} : LiveEv ω wraps interactive σ c t (.bool true) t₁ → GoesAll b σ t₁ σ₁ h →
      (h = .quit ∨ ∃ m, h = .failed m) → GoesOn c b σ t σ₁ h
  | fails {c b σ t m} : TestFails ω wraps interactive σ c t m → GoesOn c b σ t σ (.failed m)
/-- the iterations of a `for` loop over the remaining elements -/
inductive GoesThrough : Str → List Stmt → List Value → State → Nat → State → How → Prop where
  | over {x b σ t} : GoesThrough x b [] σ t σ (.done t)
  | again {x b v xs σ vs t σ₁ h t₁ σ₂ h'} : Assigns x v σ.vars vs → GoesAll b { σ with vars := vs } t σ₁ h →
      h = .done t₁ ∨ h = .cont t₁ → GoesThrough x b xs σ₁ t₁ σ₂ h' → GoesThrough x b (v :: xs) σ t σ₂ h'
  | broken {x b v xs σ vs t σ₁ t₁} : Assigns x v σ.vars vs → GoesAll b { σ with vars := vs } t σ₁ (.brk t₁) →
      GoesThrough x b (v :: xs) σ t σ₁ (.done t₁)
  | ended {x b v xs σ vs t σ₁ h} : Assigns x v σ.vars vs → GoesAll b { σ with vars := vs } t σ₁ h →
      (h = .quit ∨ ∃ m, h = .failed m) → GoesThrough x b (v :: xs) σ t σ₁ h
end

end

end Btrd.Spec
