/-
What can go on forever (C79). Beside the rules of `Spec/Rules`, which describe runs that end: which statement a
run gets to, and what it means that a statement never comes to an end there.
-/
import Verif.Spec.Rules
import Verif.Spec.Search

namespace Btrd.Spec

/-- what the system leaves open: searches that never answer, diagrams that are never finished -/
structure Waits where
  search : Option Fs → Int → Value → Prop
  diagram : List Value → Prop

/-- operators that look at their right side only after the left side turned out to be this -/
inductive WantsRight : BinOp → Value → Prop where
  | plus (v) : WantsRight .plus v
  | eq (v) : WantsRight .eq v
  | ne (v) : WantsRight .ne v
  | lor : WantsRight .lor (.bool false)
  | land : WantsRight .land (.bool true)
  | other {op} (i) : op ≠ .plus → op ≠ .eq → op ≠ .ne → op ≠ .lor → op ≠ .land → WantsRight op (.int i)

/-- evaluating the expression never comes to an end: it gets to a search that does not -/
inductive EvHangs (W : World) (N : Waits) (σ : State) : Expr → Prop where
  | search {f e₁ e₂ tree k} : Ev W σ f (.func .search) → Ev W σ e₁ (.int tree) → Ev W σ e₂ k →
      N.search σ.fs tree k → EvHangs W N σ (.call f [e₁, e₂])
  | paren {e} : EvHangs W N σ e → EvHangs W N σ (.paren e)
  | field {e f} : EvHangs W N σ e → EvHangs W N σ (.field e f)
  | base {e i} : EvHangs W N σ e → EvHangs W N σ (.index e i)
  | index {e i xs h} : Ev W σ e (.array xs h) → EvHangs W N σ i → EvHangs W N σ (.index e i)
  | left {op l r} : EvHangs W N σ l → EvHangs W N σ (.bin op l r)
  | right {op l r v} : Ev W σ l v → WantsRight op v → EvHangs W N σ r → EvHangs W N σ (.bin op l r)
  | unary {op e} : EvHangs W N σ e → EvHangs W N σ (.un op e)
  | cast {ty e} : EvHangs W N σ e → EvHangs W N σ (.cast ty e)
  | callee {f args} : EvHangs W N σ f → EvHangs W N σ (.call f args)
  | keyArg {f before e after} : Ev W σ f (.func .key) → (before ++ e :: after).length = 4 →
      (∀ a ∈ before, ∃ i, Ev W σ a (.int i)) → EvHangs W N σ e → EvHangs W N σ (.call f (before ++ e :: after))
  | searchTree {f e₁ e₂} : Ev W σ f (.func .search) → EvHangs W N σ e₁ → EvHangs W N σ (.call f [e₁, e₂])
  | searchKey {f e₁ e₂ tree} : Ev W σ f (.func .search) → Ev W σ e₁ (.int tree) → EvHangs W N σ e₂ →
      EvHangs W N σ (.call f [e₁, e₂])
  | oneArg {f g e} : Ev W σ f (.func g) → g ≠ .key → g ≠ .search → g ≠ .hist → EvHangs W N σ e →
      EvHangs W N σ (.call f [e])

/-- finding the target of an assignment never comes to an end; the indices are evaluated from the last to the
first -/
inductive TargetHangs (W : World) (N : Waits) (σ : State) : Expr → Prop where
  | index {e i} : EvHangs W N σ i → TargetHangs W N σ (.index e i)
  | base {e i k} : Ev W σ i (.int k) → TargetHangs W N σ e → TargetHangs W N σ (.index e i)
  | field {e f} : TargetHangs W N σ e → TargetHangs W N σ (.field e (.ident f))

/-- this many complete iterations of a `while` loop -/
inductive Turns (W : World) (c : Expr) (b : List Stmt) : Nat → State → State → Prop where
  | zero {σ} : Turns W c b 0 σ σ
  | succ {k σ σ₁ σ₂ o} : Ev W σ c (.bool true) → RunsAll W b σ σ₁ o → o = .done ∨ o = .cont →
      Turns W c b k σ₁ σ₂ → Turns W c b (k + 1) σ σ₂

/-- the complete iterations of a `for` loop for these elements -/
inductive Visited (W : World) (x : Str) (b : List Stmt) : List Value → State → State → Prop where
  | nil {σ} : Visited W x b [] σ σ
  | cons {v xs σ vs σ₁ σ₂ o} : Assigns x v σ.vars vs → RunsAll W b { σ with vars := vs } σ₁ o →
      o = .done ∨ o = .cont → Visited W x b xs σ₁ σ₂ → Visited W x b (v :: xs) σ σ₂

mutual
/-- running the first statement in the first state gets to the second statement, in the second state -/
inductive Reaches (W : World) : Stmt → State → Stmt → State → Prop where
  | self {s σ} : Reaches W s σ s σ
  | thenBranch {c t f σ s τ} : Ev W (opened σ) c (.bool true) → ReachesAll W t (opened σ) s τ →
      Reaches W (.ite c t f) σ s τ
  | elseBranch {c t f σ s τ} : Ev W (opened σ) c (.bool false) → ReachesAll W f (opened σ) s τ →
      Reaches W (.ite c t f) σ s τ
  | whileBody {c b k σ σ₁ s τ} : Turns W c b k (opened σ) σ₁ → Ev W σ₁ c (.bool true) → ReachesAll W b σ₁ s τ →
      Reaches W (.while c b) σ s τ
  | forBody {x r b before v after h σ σ₁ vs s τ} : Ev W (opened σ) r (.array (before ++ v :: after) h) →
      Visited W x b before (opened σ) σ₁ → Assigns x v σ₁.vars vs → ReachesAll W b { σ₁ with vars := vs } s τ →
      Reaches W (.for (.ident x) r b) σ s τ
/-- the same for a sequence of statements -/
inductive ReachesAll (W : World) : List Stmt → State → Stmt → State → Prop where
  | head {p ps σ s τ} : Reaches W p σ s τ → ReachesAll W (p :: ps) σ s τ
  | tail {p ps σ σ₁ s τ} : Runs W p σ σ₁ .done → ReachesAll W ps σ₁ s τ → ReachesAll W (p :: ps) σ s τ
end

/-- the statement, started in this state, never comes to an end, for a reason of its own: an expression of it
never does, it prints a diagram that is never finished, or it is a loop with no end of complete iterations -/
inductive Stuck (W : World) (N : Waits) : Stmt → State → Prop where
  | assign {l r σ} : EvHangs W N σ r → Stuck W N (.assign l r) σ
  | target {l r v σ} : Ev W σ r v → TargetHangs W N σ l → Stuck W N (.assign l r) σ
  | cond {c t f σ} : EvHangs W N (opened σ) c → Stuck W N (.ite c t f) σ
  | whileCond {c b k σ σ₁} : Turns W c b k (opened σ) σ₁ → EvHangs W N σ₁ c → Stuck W N (.while c b) σ
  | endless {c b σ} : (∀ k, ∃ σ₁, Turns W c b k (opened σ) σ₁) → Stuck W N (.while c b) σ
  | range {x r b σ} : EvHangs W N (opened σ) r → Stuck W N (.for (.ident x) r b) σ
  | filesystem {e σ} : EvHangs W N σ e → Stuck W N (.filesystem e) σ
  | print {e σ} : EvHangs W N σ e → Stuck W N (.print e) σ
  | diagram {e xs σ} : Ev W σ e (.array xs true) → N.diagram xs → Stuck W N (.print e) σ
  | expr {e σ} : EvHangs W N σ e → Stuck W N (.expr e) σ

/-- an open filesystem is honest: if it is mounted, the kernel keeps its promise about searching, call by call, while
the filesystem may be written to -/
def HonestFs (fs : Option Fs) : Prop :=
  ∀ k, fs = some (.mounted k) → ∃ trees, OrderedEach trees ∧ HonoursEach k trees

/-- every directory can be searched honestly -/
def HonestHost (h : Host) : Prop :=
  ∀ path d, h.openDir path = some d → ∃ trees, OrderedEach trees ∧ HonoursEach d.kernel trees

mutual
/-- there is no `while` loop in the statement -/
def NoWhile : Stmt → Prop
  | .while _ _ => False
  | .ite _ t f => NoWhiles t ∧ NoWhiles f
  | .for _ _ b => NoWhiles b
  | _ => True
/-- nor in any of these -/
def NoWhiles : List Stmt → Prop
  | [] => True
  | s :: ss => NoWhile s ∧ NoWhiles ss
end

/-- a diagram of these values is never finished: they are integers, one of them above `2^125`. In a build with
overflow checks, one may get a panic instead, if there is also one below `-2^126`. -/
def Unfinished (checked : Bool) (xs : List Value) : Prop :=
  ∃ vals : List Int, xs = vals.map Value.int ∧ ∃ v ∈ vals, 2 ^ 125 < v ∧
    (checked = true → 2 ^ 126 < v ∨ ∀ w ∈ vals, -(2 ^ 126) ≤ w)

end Btrd.Spec
