/-
The rules of the language (C78): what every expression and every statement means, written as inference
rules for a reader of a language manual. The rules mention the data of the model (syntax trees, values,
states) and none of its functions; there is no step bound.

Left open by the rules, as the relations of a `World`, is what depends on the operating system or is the
subject of other properties: results of `search()` (C48, C49, C57, C60, C61), type casts (C50-C59), opening
a filesystem (C63, C69), histogram diagrams (C43-C45), the text that shows a value (C41, C42).
-/
import Verif.Spec.Arith
import Verif.Spec.Scopes
import Verif.Spec.Display
import Verif.Spec.Reflect

namespace Btrd.Spec

/-- what the rules leave open -/
structure World where
  /-- `search(tree, key)` on this filesystem can give this value -/
  search : Option Fs → Int → Value → Value → Prop
  /-- `(struct name) position` on this filesystem can give this value -/
  cast : Option Fs → Str → Int → Value → Prop
  /-- the path names this filesystem -/
  opens : Str → Fs → Prop
  /-- the diagram of a histogram of these values -/
  diagram : List Value → Str → Prop
  /-- the text that shows a value -/
  shows : Value → Str → Prop
  /-- negation wraps around (release builds) -/
  wraps : Prop
  /-- expression statements show their value (REPL) -/
  interactive : Prop

/-! ### variables -/

/-- a scope with one binding changed -/
def bind1 (s : Scope Value) (x : Str) (v : Value) : Scope Value := fun y => if y = x then some v else s y

/-- the value of a variable is its binding in the innermost scope that has one -/
inductive Holds1 (x : Str) (v : Value) : Vars Value → Prop where
  | here {s r} : s x = some v → Holds1 x v (s :: r)
  | outer {s r} : s x = none → Holds1 x v r → Holds1 x v (s :: r)

/-- change the innermost binding of a variable -/
inductive Rebinds (x : Str) (v : Value) : Vars Value → Vars Value → Prop where
  | here {s r w} : s x = some w → Rebinds x v (s :: r) (bind1 s x v :: r)
  | outer {s r r'} : s x = none → Rebinds x v r r' → Rebinds x v (s :: r) (s :: r')

/-- assign to a variable: change the innermost binding; a new variable is bound in the innermost scope -/
inductive Assigns (x : Str) (v : Value) : Vars Value → Vars Value → Prop where
  | old {vs vs'} : Rebinds x v vs vs' → Assigns x v vs vs'
  | new {s r} : (∀ t ∈ s :: r, t x = none) → Assigns x v (s :: r) (bind1 s x v :: r)

/-- `v` is the first field of that name -/
def FirstField (fs : List (Str × Value)) (name : Str) (v : Value) : Prop :=
  ∃ before after, fs = before ++ (name, v) :: after ∧ ∀ p ∈ before, p.1 ≠ name

/-- replace the component of a value at a path -/
inductive Replaces (new : Value) : List Step → Value → Value → Prop where
  | whole {old} : Replaces new [] old new
  | field {n k name p before old old' after} : (∀ q ∈ before, q.1 ≠ name) → Replaces new p old old' →
      Replaces new (.field name :: p) (.struct n k (before ++ (name, old) :: after))
        (.struct n k (before ++ (name, old') :: after))
  | index {h i p before old old' after} : before.length = i → Replaces new p old old' →
      Replaces new (.index i :: p) (.array (before ++ old :: after) h) (.array (before ++ old' :: after) h)

/-! ### expressions -/

/-- `a / b` is `q`, remainder `m`: the quotient is rounded toward zero -/
def Divides (a b q m : Int) : Prop := a = q * b + m ∧ m.natAbs < b.natAbs ∧ (0 < m → 0 < a) ∧ (m < 0 → a < 0)

/-- operators on two integers; no rule, no value -/
inductive IntOp : BinOp → Int → Int → Value → Prop where
  | plus {a b} : Fits (a + b) → IntOp .plus a b (.int (a + b))
  | minus {a b} : Fits (a - b) → IntOp .minus a b (.int (a - b))
  | mul {a b} : Fits (a * b) → IntOp .mul a b (.int (a * b))
  | div {a b q m} : b ≠ 0 → Divides a b q m → Fits q → IntOp .div a b (.int q)
  | mod {a b q m} : b ≠ 0 → Divides a b q m → Fits q → IntOp .mod a b (.int m)
  | band {a b c} : Fits c → (∀ i < 128, twosBit c i = (twosBit a i && twosBit b i)) → IntOp .band a b (.int c)
  | bor {a b c} : Fits c → (∀ i < 128, twosBit c i = (twosBit a i || twosBit b i)) → IntOp .bor a b (.int c)
  | bxor {a b c} : Fits c → (∀ i < 128, twosBit c i = (twosBit a i ^^ twosBit b i)) → IntOp .bxor a b (.int c)
  | shl {a c k} {n : Nat} : n < 128 → Fits c → c = a * 2 ^ n + k * 2 ^ 128 → IntOp .shl a n (.int c)
  | shr {a q} {n : Nat} : n < 128 → q * 2 ^ n ≤ a → a < (q + 1) * 2 ^ n → IntOp .shr a n (.int q)
  | lt {a b} : IntOp .lt a b (.bool (decide (a < b)))
  | le {a b} : IntOp .le a b (.bool (decide (a ≤ b)))
  | gt {a b} : IntOp .gt a b (.bool (decide (b < a)))
  | ge {a b} : IntOp .ge a b (.bool (decide (b ≤ a)))

/-- UTF-8 -/
def encoded (s : Str) : Bytes := s.flatMap String.utf8EncodeChar

/-- what `key(a, b, c, d)` gives -/
def keyValue (a b c d : Int) : Value :=
  .struct s!' "_btrfs_ioctl_search_key" none
    [(s!' "min_objectid", .int a), (s!' "max_objectid", .int (2 ^ 64 - 1)),
     (s!' "min_type", .int b), (s!' "max_type", .int (2 ^ 8 - 1)),
     (s!' "min_offset", .int c), (s!' "max_offset", .int (2 ^ 64 - 1)),
     (s!' "min_transid", .int d), (s!' "max_transid", .int (2 ^ 64 - 1))]

/-- the expression has this value in this state -/
inductive Ev (W : World) (σ : State) : Expr → Value → Prop where
  | var {x v} : Holds1 x v σ.vars → Ev W σ (.ident x) v
  | int (i) : Ev W σ (.int i) (.int i)
  | bool (b) : Ev W σ (.bool b) (.bool b)
  | str (s) : Ev W σ (.str s) (.str (encoded s))
  | paren {e v} : Ev W σ e v → Ev W σ (.paren e) v
  | field {e n k fs f v} : Ev W σ e (.struct n k fs) → FirstField fs f v → Ev W σ (.field e (.ident f)) v
  | index {e i xs h v} {n : Nat} : Ev W σ e (.array xs h) → Ev W σ i (.int n) → n < 2 ^ 64 →
      xs[n]? = some v → Ev W σ (.index e i) v
  | ints {op l r a b v} : Ev W σ l (.int a) → Ev W σ r (.int b) → IntOp op a b v → Ev W σ (.bin op l r) v
  | append {l r xs h v} : Ev W σ l (.array xs h) → Ev W σ r v → Ev W σ (.bin .plus l r) (.array (xs ++ [v]) h)
  | concat {l r s t} : Ev W σ l (.str s) → Ev W σ r (.str t) → Ev W σ (.bin .plus l r) (.str (s ++ t))
  | same {l r v} : Ev W σ l v → Ev W σ r v → Ev W σ (.bin .eq l r) (.bool true)
  | differ {l r v w} : Ev W σ l v → Ev W σ r w → v ≠ w → Ev W σ (.bin .eq l r) (.bool false)
  | notSame {l r v} : Ev W σ l v → Ev W σ r v → Ev W σ (.bin .ne l r) (.bool false)
  | notEq {l r v w} : Ev W σ l v → Ev W σ r w → v ≠ w → Ev W σ (.bin .ne l r) (.bool true)
  | orTrue {l r} : Ev W σ l (.bool true) → Ev W σ (.bin .lor l r) (.bool true)
  | orFalse {l r b} : Ev W σ l (.bool false) → Ev W σ r (.bool b) → Ev W σ (.bin .lor l r) (.bool b)
  | andFalse {l r} : Ev W σ l (.bool false) → Ev W σ (.bin .land l r) (.bool false)
  | andTrue {l r b} : Ev W σ l (.bool true) → Ev W σ r (.bool b) → Ev W σ (.bin .land l r) (.bool b)
  | bitNot {e a c} : Ev W σ e (.int a) → Fits c → (∀ i < 128, twosBit c i = !twosBit a i) →
      Ev W σ (.un .bitNot e) (.int c)
  | notInt {e a} : Ev W σ e (.int a) → Ev W σ (.un .not e) (.bool (decide (a = 0)))
  | notBool {e b} : Ev W σ e (.bool b) → Ev W σ (.un .not e) (.bool (!b))
  | neg {e a} : Ev W σ e (.int a) → a ≠ -(2 ^ 127) → Ev W σ (.un .minus e) (.int (-a))
  | negMin {e} : W.wraps → Ev W σ e (.int (-(2 ^ 127))) → Ev W σ (.un .minus e) (.int (-(2 ^ 127)))
  | cast {name e p v} : Ev W σ e (.int p) → W.cast σ.fs name p v → Ev W σ (.cast (.ident name) e) v
  | key {f e₁ e₂ e₃ e₄ a b c d} : Ev W σ f (.func .key) → Ev W σ e₁ (.int a) → Ev W σ e₂ (.int b) →
      Ev W σ e₃ (.int c) → Ev W σ e₄ (.int d) → Ev W σ (.call f [e₁, e₂, e₃, e₄]) (keyValue a b c d)
  | search {f e₁ e₂ tree k v} : Ev W σ f (.func .search) → Ev W σ e₁ (.int tree) → Ev W σ e₂ k →
      W.search σ.fs tree k v → Ev W σ (.call f [e₁, e₂]) v
  | typeOf {f e v n} : Ev W σ f (.func .typeOf) → Ev W σ e v → TypeName v n →
      Ev W σ (.call f [e]) (.str (encoded n))
  | keyOf {f e n o t p fs} : Ev W σ f (.func .keyOf) → Ev W σ e (.struct n (some (o, t, p)) fs) →
      Ev W σ (.call f [e]) (.struct s!' "btrfs_key" none
        [(s!' "objectid", .int o), (s!' "type", .int t), (s!' "offset", .int p)])
  | len {f e xs h} : Ev W σ f (.func .len) → Ev W σ e (.array xs h) → Fits xs.length →
      Ev W σ (.call f [e]) (.int xs.length)
  | hist {f} : Ev W σ f (.func .hist) → Ev W σ (.call f []) (.array [] true)
  | strStr {f e s} : Ev W σ f (.func .str) → Ev W σ e (.str s) → Ev W σ (.call f [e]) (.str s)
  | strOther {f e v t} : Ev W σ f (.func .str) → Ev W σ e v → (∀ s, v ≠ .str s) → W.shows v t →
      Ev W σ (.call f [e]) (.str (encoded t))

/-! ### statements -/

/-- how a statement ends -/
inductive Outcome where
  | done | brk | cont | quit | failed
deriving DecidableEq

/-- the target of an assignment is this component of this variable -/
inductive Target (W : World) (σ : State) : Expr → Str → List Step → Prop where
  | var (x) : Target W σ (.ident x) x []
  | field {e x p} (f) : Target W σ e x p → Target W σ (.field e (.ident f)) x (p ++ [.field f])
  | index {e i x p} {n : Nat} : Target W σ e x p → Ev W σ i (.int n) → n < 2 ^ 64 →
      Target W σ (.index e i) x (p ++ [.index n])

/-- the variables after `l = v` -/
inductive Stores (W : World) (σ : State) : Expr → Value → Vars Value → Prop where
  | var {x v vs} : Assigns x v σ.vars vs → Stores W σ (.ident x) v vs
  | part {l x p v old new vs} : (∀ y, l ≠ .ident y) → Target W σ l x p → Holds1 x old σ.vars →
      Replaces v p old new → Rebinds x new σ.vars vs → Stores W σ l v vs

/-- write text: all of it if there is room, else as much as fits, and that fails -/
inductive Outputs (t : Str) : State → State → Outcome → Prop where
  | free {out vars fs} : Outputs t ⟨⟨out, none⟩, vars, fs⟩ ⟨⟨out ++ t, none⟩, vars, fs⟩ .done
  | room {out n vars fs} : Outputs t ⟨⟨out, some (t.length + n)⟩, vars, fs⟩ ⟨⟨out ++ t, some n⟩, vars, fs⟩ .done
  | full {out n vars fs} : n < t.length →
      Outputs t ⟨⟨out, some n⟩, vars, fs⟩ ⟨⟨out ++ t.take n, some 0⟩, vars, fs⟩ .failed

/-- a byte of a printed string: white space as it is, else as shown -/
def rawText (b : UInt8) : Str :=
  if b = 32 ∨ b = 9 ∨ b = 10 ∨ b = 12 ∨ b = 13 then [Char.ofNat b.toNat] else byteText b

/-- what `print` writes before the line feed -/
inductive Prints (W : World) : Value → Str → Prop where
  | diagram {xs t} : W.diagram xs t → Prints W (.array xs true) t
  | string (s) : Prints W (.str s) (s.flatMap rawText)
  | other {v t} : (∀ xs, v ≠ .array xs true) → (∀ s, v ≠ .str s) → W.shows v t → Prints W v t

/-- the lines of `help`: commands and functions on the left, explanations in column 41 -/
def helpLines : List Str :=
  [s!' "Commands                                ",
   s!' "--------------------                    ",
   s!' "help                                    Print help",
   s!' "quit                                    Exit debugger",
   s!' "filesystem <string>                     Debug <string> (<string> must be a path to a mounted btrfs filesystem)",
   s!' "print <expression>                      Evaluate <expression> and print result",
   s!' "                                        ",
   s!' "Functions                               ",
   s!' "--------------------                    ",
   s!' "key(objectid, type, offset, transid)    Returns a key to be used in `search()`",
   s!' "search(treeid, key)                     Returns an array of search results based on `treeid` and `key`",
   s!' "keyof(expr)                             Returns the corresponding disk key (if any) of the expression",
   s!' "typeof(expr)                            Returns the type of `expr` as a string",
   s!' "len(expr)                               Returns the length of an array",
   s!' "hist()                                  Returns a histogram (an array that `print()` will format)",
   s!' "str(expr)                               Returns `expr` in string representation"]

/-- the state with a new innermost scope -/
def opened (σ : State) : State := { σ with vars := (fun _ => none) :: σ.vars }

/-- `σ'` is `σ` without its innermost scope -/
def Closes (σ σ' : State) : Prop := ∃ s, σ.vars = s :: σ'.vars ∧ σ'.sink = σ.sink ∧ σ'.fs = σ.fs

/-- ends that stop the statements after it -/
def Outcome.stops (o : Outcome) : Prop := o ≠ .done

mutual
/-- the statement takes the first state to the second and ends this way -/
inductive Runs (W : World) : Stmt → State → State → Outcome → Prop where
  | assign {l r σ v vs} : Ev W σ r v → Stores W σ l v vs → Runs W (.assign l r) σ { σ with vars := vs } .done
  | assignFails {l r σ} : (∀ v vs, Ev W σ r v → ¬ Stores W σ l v vs) → Runs W (.assign l r) σ σ .failed
  | ifTrue {c t f σ σ₁ σ₂ o} : Ev W (opened σ) c (.bool true) → RunsAll W t (opened σ) σ₁ o →
      Closes σ₁ σ₂ → Runs W (.ite c t f) σ σ₂ o
  | ifFalse {c t f σ σ₁ σ₂ o} : Ev W (opened σ) c (.bool false) → RunsAll W f (opened σ) σ₁ o →
      Closes σ₁ σ₂ → Runs W (.ite c t f) σ σ₂ o
  | ifFails {c t f σ} : (∀ b, ¬ Ev W (opened σ) c (.bool b)) → Runs W (.ite c t f) σ σ .failed
  | while {c b σ σ₁ σ₂ o} : Loops W c b (opened σ) σ₁ o → Closes σ₁ σ₂ → Runs W (.while c b) σ σ₂ o
  | for {x r b xs h σ σ₁ σ₂ o} : Ev W (opened σ) r (.array xs h) → Visits W x b xs (opened σ) σ₁ o →
      Closes σ₁ σ₂ → Runs W (.for (.ident x) r b) σ σ₂ o
  | forFails {x r b σ} : (∀ xs h, ¬ Ev W (opened σ) r (.array xs h)) → Runs W (.for (.ident x) r b) σ σ .failed
  | forNoName {x r b σ} : (∀ y, x ≠ .ident y) → Runs W (.for x r b) σ σ .failed
  | brk {σ} : Runs W .brk σ σ .brk
  | cont {σ} : Runs W .cont σ σ .cont
  | quit {σ} : Runs W .quit σ σ .quit
  | help {σ σ' o} : Outputs (helpLines.flatMap (· ++ ['\n'])) σ σ' o → Runs W .help σ σ' o
  | filesystem {e s σ fs} : Ev W σ e (.str s) → W.opens (s.flatMap byteText) fs →
      Runs W (.filesystem e) σ { σ with fs := some fs } .done
  | filesystemFails {e σ} : (∀ s fs, Ev W σ e (.str s) → ¬ W.opens (s.flatMap byteText) fs) →
      Runs W (.filesystem e) σ σ .failed
  | print {e v t σ σ' o} : Ev W σ e v → Prints W v t → Outputs (t ++ ['\n']) σ σ' o → Runs W (.print e) σ σ' o
  | printFails {e σ} : (∀ v t, Ev W σ e v → ¬ Prints W v t) → Runs W (.print e) σ σ .failed
  | shown {e v t σ σ' o} : W.interactive → Ev W σ e v → W.shows v t → Outputs (t ++ ['\n']) σ σ' o →
      Runs W (.expr e) σ σ' o
  | silent {e v σ} : ¬ W.interactive → Ev W σ e v → Runs W (.expr e) σ σ .done
  | exprFails {e σ} : (∀ v, ¬ Ev W σ e v) → Runs W (.expr e) σ σ .failed
/-- statements one after the other, up to the first that does not end normally -/
inductive RunsAll (W : World) : List Stmt → State → State → Outcome → Prop where
  | nil {σ} : RunsAll W [] σ σ .done
  | next {s ss σ σ₁ σ₂ o} : Runs W s σ σ₁ .done → RunsAll W ss σ₁ σ₂ o → RunsAll W (s :: ss) σ σ₂ o
  | stop {s ss σ σ₁ o} : Runs W s σ σ₁ o → o.stops → RunsAll W (s :: ss) σ σ₁ o
/-- the iterations of a `while` loop -/
inductive Loops (W : World) : Expr → List Stmt → State → State → Outcome → Prop where
  | over {c b σ} : Ev W σ c (.bool false) → Loops W c b σ σ .done
  | again {c b σ σ₁ σ₂ o o'} : Ev W σ c (.bool true) → RunsAll W b σ σ₁ o → o = .done ∨ o = .cont →
      Loops W c b σ₁ σ₂ o' → Loops W c b σ σ₂ o'
  | broken {c b σ σ₁} : Ev W σ c (.bool true) → RunsAll W b σ σ₁ .brk → Loops W c b σ σ₁ .done
  | ended {c b σ σ₁ o} : Ev W σ c (.bool true) → RunsAll W b σ σ₁ o → o = .quit ∨ o = .failed →
      Loops W c b σ σ₁ o
  | condFails {c b σ} : (∀ t, ¬ Ev W σ c (.bool t)) → Loops W c b σ σ .failed
/-- the iterations of a `for` loop over the remaining elements -/
inductive Visits (W : World) : Str → List Stmt → List Value → State → State → Outcome → Prop where
  | over {x b σ} : Visits W x b [] σ σ .done
  | again {x b v xs σ vs σ₁ σ₂ o o'} : Assigns x v σ.vars vs → RunsAll W b { σ with vars := vs } σ₁ o →
      o = .done ∨ o = .cont → Visits W x b xs σ₁ σ₂ o' → Visits W x b (v :: xs) σ σ₂ o'
  | broken {x b v xs σ vs σ₁} : Assigns x v σ.vars vs → RunsAll W b { σ with vars := vs } σ₁ .brk →
      Visits W x b (v :: xs) σ σ₁ .done
  | ended {x b v xs σ vs σ₁ o} : Assigns x v σ.vars vs → RunsAll W b { σ with vars := vs } σ₁ o →
      o = .quit ∨ o = .failed → Visits W x b (v :: xs) σ σ₁ o
end

end Btrd.Spec
