/-
The messages of refused and failing programs (C83), written as rules for a reader of a manual. The rules mention
the data of the model (syntax trees, values, states) and none of its functions.
-/
import Verif.Spec.Analysis
import Verif.Spec.Rules

namespace Btrd.Spec

mutual
/-- **the message with which an expression is refused** before anything runs, where `D` are the known variables:
that of the first offence, from left to right -/
inductive Refused (D : Names) : Expr → Str → Prop where
  | var {x} : ¬ D x → Refused D (.ident x) (s!' "Unknown variable: " ++ x)
  | paren {e m} : Refused D e m → Refused D (.paren e) m
  | field {e n m} : Refused D e m → Refused D (.field e (.ident n)) m
  | fieldName {e f} : (∀ n, f ≠ .ident n) → Refused D (.field e f) s!' "Field in a field access must be an identifier"
  | indexed {e i m} : Refused D e m → Refused D (.index e i) m
  | index {e i m} : Reads D e → Refused D i m → Refused D (.index e i) m
  | callee {f args m} : Refused D f m → Refused D (.call f args) m
  | args {f args m} : Reads D f → RefusedArgs D args m → Refused D (.call f args) m
  | left {op l r m} : Refused D l m → Refused D (.bin op l r) m
  | right {op l r m} : Reads D l → Refused D r m → Refused D (.bin op l r) m
  | un {op e m} : Refused D e m → Refused D (.un op e) m
  | cast {s e m} : s ∈ structs → Refused D e m → Refused D (.cast (.ident s.name) e) m
  | castUnknown {n e} : (∀ s ∈ structs, s.name ≠ n) →
      Refused D (.cast (.ident n) e) (s!' "Unknown type: struct " ++ n)
  | castOdd {ty e} : (∀ n, ty ≠ .ident n) → Refused D (.cast ty e) s!' "Invalid type in type cast"
/-- the same for a list of arguments -/
inductive RefusedArgs (D : Names) : List Expr → Str → Prop where
  | head {e es m} : Refused D e m → RefusedArgs D (e :: es) m
  | tail {e es m} : Reads D e → RefusedArgs D es m → RefusedArgs D (e :: es) m
end

mutual
/-- **the message with which a statement is refused**; `loop` says whether it stands in a loop -/
inductive RefusedStmt : Names → Prop → Stmt → Str → Prop where
  | assignVar {D loop x r m} : Refused (D.with [x]) r m → RefusedStmt D loop (.assign (.ident x) r) m
  | assignTo {D loop l r m} : (∀ x, l ≠ .ident x) → Refused D l m → RefusedStmt D loop (.assign l r) m
  | assignFrom {D loop l r m} : (∀ x, l ≠ .ident x) → Reads D l → Refused D r m → RefusedStmt D loop (.assign l r) m
  | ifCond {D loop c t f m} : Refused D c m → RefusedStmt D loop (.ite c t f) m
  | ifThen {D loop c t f m} : Reads D c → RefusedAll D loop t m → RefusedStmt D loop (.ite c t f) m
  | ifElse {D loop c t f m} : Reads D c → AcceptedL D loop t → RefusedAll (D.with (gainsL t)) loop f m →
      RefusedStmt D loop (.ite c t f) m
  | whileCond {D loop c b m} : Refused D c m → RefusedStmt D loop (.while c b) m
  | whileBody {D loop c b m} : Reads D c → RefusedAll D True b m → RefusedStmt D loop (.while c b) m
  | forRange {D loop x r b m} : Refused (D.with [x]) r m → RefusedStmt D loop (.for (.ident x) r b) m
  | forBody {D loop x r b m} : Reads (D.with [x]) r → RefusedAll (D.with [x]) True b m →
      RefusedStmt D loop (.for (.ident x) r b) m
  | forNoName {D loop x r b} : (∀ n, x ≠ .ident n) →
      RefusedStmt D loop (.for x r b) s!' "Temporary variable in a for-loop must be an identifier"
  | brk {D loop} : ¬ loop → RefusedStmt D loop .brk s!' "Cannot 'break' outside of a loop"
  | cont {D loop} : ¬ loop → RefusedStmt D loop .cont s!' "Cannot 'continue' outside of a loop"
  | filesystem {D loop e} : (∀ s, e ≠ .str s) →
      RefusedStmt D loop (.filesystem e) s!' "'filesystem' builtin only takes string literal arguments"
  | print {D loop e m} : Refused D e m → RefusedStmt D loop (.print e) m
  | expr {D loop e m} : Refused D e m → RefusedStmt D loop (.expr e) m
/-- the same for statements one after the other: the message is that of the first one refused -/
inductive RefusedAll : Names → Prop → List Stmt → Str → Prop where
  | head {D loop s ss m} : RefusedStmt D loop s m → RefusedAll D loop (s :: ss) m
  | tail {D loop s ss m} : Accepted D loop s → RefusedAll (D.with s.gains) loop ss m → RefusedAll D loop (s :: ss) m
end

/-! ### messages of failing expressions

A message is `some text`; it is `none` where the text comes from outside this program. -/

/-- what the rules leave open, beyond `World`: the messages of decoding and of reading a filesystem -/
structure Complaints where
  /-- `search(tree, key)` on this filesystem, with a search key, fails with this message -/
  search : Fs → Int → Value → Option Str → Prop
  /-- `(struct name) position` on this filesystem, for a position that is not negative, fails with this message -/
  cast : Fs → Str → Nat → Option Str → Prop
  /-- opening the path fails with this message -/
  opens : Str → Option Str → Prop

/-- an integer in decimal -/
def numeral (i : Int) : Str := if i < 0 then '-' :: Nat.toDigits 10 i.natAbs else Nat.toDigits 10 i.natAbs

/-- how a message shows a value -/
def brief : Value → Str
  | .int i => numeral i
  | .str s => s.flatMap byteText
  | .bool b => if b then s!' "true" else s!' "false"
  | .array xs _ => s!' "[][" ++ numeral xs.length ++ s!' "]"
  | .func f => f.display ++ s!' "()"
  | .struct n _ _ => s!' "struct " ++ n

/-- the message about a value of the wrong type -/
def expected (want : Str) (v : Value) : Option Str := some (s!' "Expected " ++ want ++ s!' ", got '" ++ brief v ++ s!' "'")

/-- the message about a number that does not fit the type it is converted to -/
def unconvertible : Option Str := some s!' "out of range integral type conversion attempted"

/-- the message about a missing filesystem -/
def noFs : Option Str := some s!' "No filesystem set, set a filesystem first with 'filesystem \"/path\"'"

/-- the message about an overflow -/
def overflows (a : Int) (op : Str) (b : Int) : Option Str :=
  some (numeral a ++ s!' " " ++ op ++ s!' " " ++ numeral b ++ s!' " overflows")

/-- the message about a missing field -/
def noSuchField (f n : Str) : Option Str :=
  some (s!' "Failed to find field '" ++ f ++ s!' "' in 'struct " ++ n ++ s!' "'")

/-- the message about an index that is too large -/
def noSuchIndex (i n : Nat) : Option Str :=
  some (s!' "Index " ++ numeral i ++ s!' " out of range, length is " ++ numeral n)

/-- operators on two integers that give no value -/
inductive IntFails : BinOp → Int → Int → Option Str → Prop where
  | plus {a b} : ¬ Fits (a + b) → IntFails .plus a b (overflows a s!' "+" b)
  | minus {a b} : ¬ Fits (a - b) → IntFails .minus a b (overflows a s!' "-" b)
  | mul {a b} : ¬ Fits (a * b) → IntFails .mul a b (overflows a s!' "*" b)
  | divZero {a} : IntFails .div a 0 (some s!' "Divide by zero")
  | modZero {a} : IntFails .mod a 0 (some s!' "Divide by zero")
  | div {a b q m} : b ≠ 0 → Divides a b q m → ¬ Fits q → IntFails .div a b (overflows a s!' "/" b)
  | mod {a b q m} : b ≠ 0 → Divides a b q m → ¬ Fits q → IntFails .mod a b (overflows a s!' "%" b)
  | shl {a b} : 128 ≤ b → b < 2 ^ 32 → IntFails .shl a b (overflows a s!' "<<" b)
  | shr {a b} : 128 ≤ b → b < 2 ^ 32 → IntFails .shr a b (overflows a s!' ">>" b)
  | shlFar {a b} : b < 0 ∨ 2 ^ 32 ≤ b → IntFails .shl a b unconvertible
  | shrFar {a b} : b < 0 ∨ 2 ^ 32 ≤ b → IntFails .shr a b unconvertible

/-- the operators that take any two values -/
def AnyOp (op : BinOp) : Prop := op = .plus ∨ op = .eq ∨ op = .ne

/-- the operators on Booleans -/
def BoolOp (op : BinOp) : Prop := op = .lor ∨ op = .land

/-- the other operators: those on integers alone -/
def OnlyInts (op : BinOp) : Prop := ¬ AnyOp op ∧ ¬ BoolOp op

/-- the two values can be added -/
inductive Addable : Value → Value → Prop where
  | ints (a b) : Addable (.int a) (.int b)
  | append (xs h v) : Addable (.array xs h) v
  | concat (s t) : Addable (.str s) (.str t)

/-- functions of one argument, and what they say when given another number of them -/
inductive OneArg : Function → Str → Prop where
  | typeOf : OneArg .typeOf s!' "'typeof()' requires 1 argument"
  | keyOf : OneArg .keyOf s!' "'keyof()' requires 1 argument"
  | len : OneArg .len s!' "'len()' requires 1 argument"
  | str : OneArg .str s!' "str() requires 1 argument"

/-- **the expression fails with this message** in this state -/
inductive Complains (W : World) (C : Complaints) (σ : State) : Expr → Option Str → Prop where
  | var {x} : (∀ v, ¬ Holds1 x v σ.vars) → Complains W C σ (.ident x) (some (s!' "Unknown variable: " ++ x))
  | paren {e m} : Complains W C σ e m → Complains W C σ (.paren e) m
  -- fields
  | fieldOf {e f m} : Complains W C σ e m → Complains W C σ (.field e f) m
  | fieldKind {e f v} : Ev W σ e v → (∀ n k fs, v ≠ .struct n k fs) → Complains W C σ (.field e f) (expected s!' "struct" v)
  | fieldNone {e n k fs f} : Ev W σ e (.struct n k fs) → (∀ v, ¬ FirstField fs f v) →
      Complains W C σ (.field e (.ident f)) (noSuchField f n)
  | fieldName {e n k fs f} : Ev W σ e (.struct n k fs) → (∀ x, f ≠ .ident x) →
      Complains W C σ (.field e f) (some s!' "Field in a field access must be an identifier")
  -- elements
  | indexOf {e i m} : Complains W C σ e m → Complains W C σ (.index e i) m
  | indexKind {e i v} : Ev W σ e v → (∀ xs h, v ≠ .array xs h) → Complains W C σ (.index e i) (expected s!' "array" v)
  | index {e i xs h m} : Ev W σ e (.array xs h) → Complains W C σ i m → Complains W C σ (.index e i) m
  | indexInt {e i xs h v} : Ev W σ e (.array xs h) → Ev W σ i v → (∀ n, v ≠ .int n) →
      Complains W C σ (.index e i) (expected s!' "integer" v)
  | indexFar {e i xs h n} : Ev W σ e (.array xs h) → Ev W σ i (.int n) → n < 0 ∨ 2 ^ 64 ≤ n →
      Complains W C σ (.index e i) unconvertible
  | indexNone {e i xs h} {n : Nat} : Ev W σ e (.array xs h) → Ev W σ i (.int n) → n < 2 ^ 64 → xs.length ≤ n →
      Complains W C σ (.index e i) (noSuchIndex n xs.length)
  -- operators
  | left {op l r m} : Complains W C σ l m → Complains W C σ (.bin op l r) m
  | leftInt {op l r v} : OnlyInts op → Ev W σ l v → (∀ n, v ≠ .int n) →
      Complains W C σ (.bin op l r) (expected s!' "integer" v)
  | rightOfInt {op l r a m} : OnlyInts op → Ev W σ l (.int a) → Complains W C σ r m → Complains W C σ (.bin op l r) m
  | rightInt {op l r a v} : OnlyInts op → Ev W σ l (.int a) → Ev W σ r v → (∀ n, v ≠ .int n) →
      Complains W C σ (.bin op l r) (expected s!' "integer" v)
  | ints {op l r a b m} : Ev W σ l (.int a) → Ev W σ r (.int b) → IntFails op a b m → Complains W C σ (.bin op l r) m
  | rightOfAny {op l r v m} : AnyOp op → Ev W σ l v → Complains W C σ r m → Complains W C σ (.bin op l r) m
  | add {l r v w n n'} : Ev W σ l v → Ev W σ r w → ¬ Addable v w → TypeName v n → TypeName w n' →
      Complains W C σ (.bin .plus l r) (some (s!' "Cannot add types '" ++ n ++ s!' "' and '" ++ n' ++ s!' "'"))
  | leftBool {op l r v} : BoolOp op → Ev W σ l v → (∀ b, v ≠ .bool b) →
      Complains W C σ (.bin op l r) (expected s!' "boolean" v)
  | rightOfOr {l r m} : Ev W σ l (.bool false) → Complains W C σ r m → Complains W C σ (.bin .lor l r) m
  | rightOfAnd {l r m} : Ev W σ l (.bool true) → Complains W C σ r m → Complains W C σ (.bin .land l r) m
  | orBool {l r v} : Ev W σ l (.bool false) → Ev W σ r v → (∀ b, v ≠ .bool b) →
      Complains W C σ (.bin .lor l r) (expected s!' "boolean" v)
  | andBool {l r v} : Ev W σ l (.bool true) → Ev W σ r v → (∀ b, v ≠ .bool b) →
      Complains W C σ (.bin .land l r) (expected s!' "boolean" v)
  | operand {op e m} : Complains W C σ e m → Complains W C σ (.un op e) m
  | bitNot {e v} : Ev W σ e v → (∀ n, v ≠ .int n) → Complains W C σ (.un .bitNot e) (expected s!' "integer" v)
  | minus {e v} : Ev W σ e v → (∀ n, v ≠ .int n) → Complains W C σ (.un .minus e) (expected s!' "integer" v)
  | not {e v} : Ev W σ e v → (∀ n, v ≠ .int n) → (∀ b, v ≠ .bool b) →
      Complains W C σ (.un .not e) (expected s!' "integer or boolean" v)
  -- casts
  | castOf {ty e m} : Complains W C σ e m → Complains W C σ (.cast ty e) m
  | castInt {ty e v} : Ev W σ e v → (∀ n, v ≠ .int n) → Complains W C σ (.cast ty e) (expected s!' "integer" v)
  | castNegative {ty e p} : Ev W σ e (.int p) → p < 0 →
      Complains W C σ (.cast ty e) (some (s!' "Invalid bytenr (" ++ numeral p ++ s!' ") in type cast: must be non-negative"))
  | castNoFs {s e p} : s ∈ structs → Ev W σ e (.int p) → 0 ≤ p → σ.fs = none → Complains W C σ (.cast (.ident s.name) e) noFs
  | cast {name e fs m} {p : Nat} : Ev W σ e (.int p) → σ.fs = some fs → C.cast fs name p m →
      Complains W C σ (.cast (.ident name) e) m
  -- calls
  | callee {f args m} : Complains W C σ f m → Complains W C σ (.call f args) m
  | calleeKind {f args v} : Ev W σ f v → (∀ g, v ≠ .func g) → Complains W C σ (.call f args) (expected s!' "function" v)
  | keyCount {f args} : Ev W σ f (.func .key) → args.length ≠ 4 →
      Complains W C σ (.call f args) (some s!' "'key()' requires 4 arguments")
  | keyArg {f before e after m} : Ev W σ f (.func .key) → (before ++ e :: after).length = 4 →
      (∀ x ∈ before, ∃ a, Ev W σ x (.int a)) → Complains W C σ e m → Complains W C σ (.call f (before ++ e :: after)) m
  | keyInt {f before e after v} : Ev W σ f (.func .key) → (before ++ e :: after).length = 4 →
      (∀ x ∈ before, ∃ a, Ev W σ x (.int a)) → Ev W σ e v → (∀ n, v ≠ .int n) →
      Complains W C σ (.call f (before ++ e :: after)) (expected s!' "integer" v)
  | searchCount {f args} : Ev W σ f (.func .search) → args.length ≠ 2 →
      Complains W C σ (.call f args) (some s!' "'search()' requires 2 arguments")
  | searchTree {f e₁ e₂ m} : Ev W σ f (.func .search) → Complains W C σ e₁ m → Complains W C σ (.call f [e₁, e₂]) m
  | searchInt {f e₁ e₂ v} : Ev W σ f (.func .search) → Ev W σ e₁ v → (∀ n, v ≠ .int n) →
      Complains W C σ (.call f [e₁, e₂]) (expected s!' "integer" v)
  | searchKey {f e₁ e₂ a m} : Ev W σ f (.func .search) → Ev W σ e₁ (.int a) → Complains W C σ e₂ m →
      Complains W C σ (.call f [e₁, e₂]) m
  | searchStruct {f e₁ e₂ a v} : Ev W σ f (.func .search) → Ev W σ e₁ (.int a) → Ev W σ e₂ v →
      (∀ n k fs, v ≠ .struct n k fs) → Complains W C σ (.call f [e₁, e₂]) (expected s!' "struct" v)
  | searchKind {f e₁ e₂ a n k fs} : Ev W σ f (.func .search) → Ev W σ e₁ (.int a) → Ev W σ e₂ (.struct n k fs) →
      n ≠ s!' "_btrfs_ioctl_search_key" →
      Complains W C σ (.call f [e₁, e₂]) (some s!' "Argument 2 of search() must be 'struct _btrfs_ioctl_search_key")
  | searchNoFs {f e₁ e₂ a k fs} : Ev W σ f (.func .search) → Ev W σ e₁ (.int a) →
      Ev W σ e₂ (.struct s!' "_btrfs_ioctl_search_key" k fs) → σ.fs = none → Complains W C σ (.call f [e₁, e₂]) noFs
  | search {f e₁ e₂ a k fs x m} : Ev W σ f (.func .search) → Ev W σ e₁ (.int a) →
      Ev W σ e₂ (.struct s!' "_btrfs_ioctl_search_key" k fs) → σ.fs = some x →
      C.search x a (.struct s!' "_btrfs_ioctl_search_key" k fs) m → Complains W C σ (.call f [e₁, e₂]) m
  | oneCount {f g args msg} : Ev W σ f (.func g) → OneArg g msg → args.length ≠ 1 → Complains W C σ (.call f args) (some msg)
  | oneArg {f g e msg m} : Ev W σ f (.func g) → OneArg g msg → Complains W C σ e m → Complains W C σ (.call f [e]) m
  | keyOfStruct {f e v} : Ev W σ f (.func .keyOf) → Ev W σ e v → (∀ n k fs, v ≠ .struct n k fs) →
      Complains W C σ (.call f [e]) (expected s!' "struct" v)
  | keyOfNone {f e n fs} : Ev W σ f (.func .keyOf) → Ev W σ e (.struct n none fs) →
      Complains W C σ (.call f [e]) (some s!' "Could not take 'keyof()' struct with no on-disk key")
  | lenArray {f e v} : Ev W σ f (.func .len) → Ev W σ e v → (∀ xs h, v ≠ .array xs h) →
      Complains W C σ (.call f [e]) (expected s!' "array" v)
  | lenHuge {f e xs h} : Ev W σ f (.func .len) → Ev W σ e (.array xs h) → ¬ Fits xs.length →
      Complains W C σ (.call f [e]) unconvertible
  | histCount {f args} : Ev W σ f (.func .hist) → args ≠ [] →
      Complains W C σ (.call f args) (some s!' "'hist()' takes no arguments")

/-! ### messages of failing statements -/

/-- the target of an assignment names this component of this variable, whether or not there is one: field names and
indices, from the outside in -/
inductive Points (W : World) (σ : State) : Expr → Str → List (Str ⊕ Int) → Prop where
  | var (x) : Points W σ (.ident x) x []
  | field {e x p} (f) : Points W σ e x p → Points W σ (.field e (.ident f)) x (p ++ [.inl f])
  | index {e i x p n} : Points W σ e x p → Ev W σ i (.int n) → Points W σ (.index e i) x (p ++ [.inr n])

/-- the expression is no target of an assignment. What stands behind a target is looked at before the target. -/
inductive NoTarget (W : World) (C : Complaints) (σ : State) : Expr → Option Str → Prop where
  | var {x} : (∀ v, ¬ Holds1 x v σ.vars) → NoTarget W C σ (.ident x) (some (s!' "Unknown variable: " ++ x))
  | fieldName {e f} : (∀ n, f ≠ .ident n) →
      NoTarget W C σ (.field e f) (some s!' "Field in a field access must be an identifier")
  | field {e f m} : NoTarget W C σ e m → NoTarget W C σ (.field e (.ident f)) m
  | index {e i m} : Complains W C σ i m → NoTarget W C σ (.index e i) m
  | indexInt {e i v} : Ev W σ i v → (∀ n, v ≠ .int n) → NoTarget W C σ (.index e i) (expected s!' "integer" v)
  | indexOf {e i n m} : Ev W σ i (.int n) → NoTarget W C σ e m → NoTarget W C σ (.index e i) m
  | call {f args} : NoTarget W C σ (.call f args) (some s!' "Unexpected function call in LHS of assignment")
  | bin {op l r} : NoTarget W C σ (.bin op l r) (some s!' "Unexpected binary expression in LHS of assignment")
  | un {op e} : NoTarget W C σ (.un op e) (some s!' "Unexpected unary expression in LHS of assignment")
  | cast {ty e} : NoTarget W C σ (.cast ty e) (some s!' "Unexpected unary expression in LHS of assignment")
  | int {i} : NoTarget W C σ (.int i) (some s!' "Expected identifier in LHS of assignment")
  | bool {b} : NoTarget W C σ (.bool b) (some s!' "Expected identifier in LHS of assignment")
  | str {s} : NoTarget W C σ (.str s) (some s!' "Expected identifier in LHS of assignment")
  | paren {e} : NoTarget W C σ (.paren e) (some s!' "Expected identifier in LHS of assignment")

/-- a value has no component at this path: the message is about the first step that is not possible -/
inductive Blocked : List (Str ⊕ Int) → Value → Option Str → Prop where
  | notStruct {f p v} : (∀ n k fs, v ≠ .struct n k fs) →
      Blocked (.inl f :: p) v (some s!' "Field access must be used on a struct")
  | noField {f p n k fs} : (∀ v, ¬ FirstField fs f v) → Blocked (.inl f :: p) (.struct n k fs) (noSuchField f n)
  | field {f p n k fs v m} : FirstField fs f v → Blocked p v m → Blocked (.inl f :: p) (.struct n k fs) m
  | notArray {n p v} : (∀ xs h, v ≠ .array xs h) →
      Blocked (.inr n :: p) v (some s!' "Array index must be used on an array")
  | far {n p xs h} : n < 0 ∨ 2 ^ 64 ≤ n → Blocked (.inr n :: p) (.array xs h) unconvertible
  | noIndex {n : Nat} {p xs h} : n < 2 ^ 64 → xs.length ≤ n →
      Blocked (.inr (n : Int) :: p) (.array xs h) (noSuchIndex n xs.length)
  | index {n : Nat} {p xs h v m} : n < 2 ^ 64 → xs[n]? = some v → Blocked p v m →
      Blocked (.inr (n : Int) :: p) (.array xs h) m

/-- nothing can be assigned to the expression -/
inductive StoreFails (W : World) (C : Complaints) (σ : State) (l : Expr) (m : Option Str) : Prop where
  | target : (∀ x, l ≠ .ident x) → NoTarget W C σ l m → StoreFails W C σ l m
  | blocked {x p old} : Points W σ l x p → Holds1 x old σ.vars → Blocked p old m → StoreFails W C σ l m

/-- the expression is no condition -/
inductive CondFails (W : World) (C : Complaints) (σ : State) (c : Expr) : Option Str → Prop where
  | fails {m} : Complains W C σ c m → CondFails W C σ c m
  | kind {v} : Ev W σ c v → (∀ b, v ≠ .bool b) → CondFails W C σ c (expected s!' "boolean" v)

mutual
/-- **the statement fails with this message** in this state -/
inductive Fails (W : World) (C : Complaints) : Stmt → State → Option Str → Prop where
  | assignFrom {l r σ m} : Complains W C σ r m → Fails W C (.assign l r) σ m
  | assignTo {l r v σ m} : Ev W σ r v → StoreFails W C σ l m → Fails W C (.assign l r) σ m
  | ifCond {c t f σ m} : CondFails W C (opened σ) c m → Fails W C (.ite c t f) σ m
  | ifTrue {c t f σ m} : Ev W (opened σ) c (.bool true) → FailsAll W C t (opened σ) m → Fails W C (.ite c t f) σ m
  | ifFalse {c t f σ m} : Ev W (opened σ) c (.bool false) → FailsAll W C f (opened σ) m → Fails W C (.ite c t f) σ m
  | while {c b σ m} : LoopFails W C c b (opened σ) m → Fails W C (.while c b) σ m
  | forNoName {x r b σ} : (∀ y, x ≠ .ident y) →
      Fails W C (.for x r b) σ (some s!' "Variable in for loop must be an identifier")
  | forRange {x r b σ m} : Complains W C (opened σ) r m → Fails W C (.for (.ident x) r b) σ m
  | forKind {x r b v σ} : Ev W (opened σ) r v → (∀ xs h, v ≠ .array xs h) →
      Fails W C (.for (.ident x) r b) σ (expected s!' "array" v)
  | forBody {x r b xs h σ m} : Ev W (opened σ) r (.array xs h) → VisitFails W C x b xs (opened σ) m →
      Fails W C (.for (.ident x) r b) σ m
  | help {σ σ'} : Outputs (helpLines.flatMap (· ++ ['\n'])) σ σ' .failed → Fails W C .help σ none
  | filesystemOf {e σ m} : Complains W C σ e m → Fails W C (.filesystem e) σ m
  | filesystemKind {e v σ} : Ev W σ e v → (∀ s, v ≠ .str s) → Fails W C (.filesystem e) σ (expected s!' "string" v)
  | filesystem {e s σ m} : Ev W σ e (.str s) → C.opens (s.flatMap byteText) m → Fails W C (.filesystem e) σ m
  | printOf {e σ m} : Complains W C σ e m → Fails W C (.print e) σ m
  | printNoDiagram {e before v after σ} : Ev W σ e (.array (before ++ v :: after) true) →
      (∀ w ∈ before, ∃ i, w = .int i) → (∀ i, v ≠ .int i) →
      Fails W C (.print e) σ (some (s!' "Found invalid value '" ++ brief v ++ s!' "' when printing histogram"))
  | printFull {e v t σ σ'} : Ev W σ e v → Prints W v t → Outputs (t ++ ['\n']) σ σ' .failed → Fails W C (.print e) σ none
  | exprOf {e σ m} : Complains W C σ e m → Fails W C (.expr e) σ m
  | exprFull {e v t σ σ'} : W.interactive → Ev W σ e v → W.shows v t → Outputs (t ++ ['\n']) σ σ' .failed →
      Fails W C (.expr e) σ none
/-- statements one after the other: one of them fails, those before it having been run -/
inductive FailsAll (W : World) (C : Complaints) : List Stmt → State → Option Str → Prop where
  | here {s ss σ m} : Fails W C s σ m → FailsAll W C (s :: ss) σ m
  | later {s ss σ σ₁ m} : Runs W s σ σ₁ .done → FailsAll W C ss σ₁ m → FailsAll W C (s :: ss) σ m
/-- a `while` loop fails in some iteration -/
inductive LoopFails (W : World) (C : Complaints) : Expr → List Stmt → State → Option Str → Prop where
  | cond {c b σ m} : CondFails W C σ c m → LoopFails W C c b σ m
  | body {c b σ m} : Ev W σ c (.bool true) → FailsAll W C b σ m → LoopFails W C c b σ m
  | later {c b σ σ₁ o m} : Ev W σ c (.bool true) → RunsAll W b σ σ₁ o → o = .done ∨ o = .cont →
      LoopFails W C c b σ₁ m → LoopFails W C c b σ m
/-- a `for` loop fails for one of the remaining elements -/
inductive VisitFails (W : World) (C : Complaints) : Str → List Stmt → List Value → State → Option Str → Prop where
  | body {x b v xs σ vs m} : Assigns x v σ.vars vs → FailsAll W C b { σ with vars := vs } m →
      VisitFails W C x b (v :: xs) σ m
  | later {x b v xs σ vs σ₁ o m} : Assigns x v σ.vars vs → RunsAll W b { σ with vars := vs } σ₁ o →
      o = .done ∨ o = .cont → VisitFails W C x b xs σ₁ m → VisitFails W C x b (v :: xs) σ m
end

end Btrd.Spec
