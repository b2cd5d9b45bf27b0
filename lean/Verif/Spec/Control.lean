/-
Specification of loops (C34, C35): what the reader of a loop expects, as inference rules over the meaning
of the condition and of the body.
-/
import Verif.Model.Eval

namespace Btrd.Spec

/-- A run of `while`: from the first state to the second with the given result. -/
inductive WhileRuns (cond : State → R Bool) (body : State → State × IRes) : State → State → IRes → Prop where
  /-- the condition is tested first; if it is false the loop is over -/
  | stop {st} : cond st = .ok false → WhileRuns cond body st st .ok
  /-- a condition without a boolean value fails the loop -/
  | condFails {st f} : cond st = .error f → WhileRuns cond body st st (.fail f)
  /-- a completed iteration is followed by a new test -/
  | again {st st₁ st₂ r} : cond st = .ok true → body st = (st₁, .ok) → WhileRuns cond body st₁ st₂ r →
      WhileRuns cond body st st₂ r
  /-- so is one cut short by `continue` -/
  | continued {st st₁ st₂ r} : cond st = .ok true → body st = (st₁, .cont) →
      WhileRuns cond body st₁ st₂ r → WhileRuns cond body st st₂ r
  /-- `break` ends the loop normally -/
  | broken {st st₁} : cond st = .ok true → body st = (st₁, .brk) → WhileRuns cond body st st₁ .ok
  /-- `quit` ends everything -/
  | quits {st st₁} : cond st = .ok true → body st = (st₁, .quit) → WhileRuns cond body st st₁ .quit
  /-- so does a failure -/
  | fails {st st₁ f} : cond st = .ok true → body st = (st₁, .fail f) → WhileRuns cond body st st₁ (.fail f)

/-- A run of `for x in items`: the items are fixed in advance; each is assigned to `x` in turn. -/
inductive ForRuns (x : Str) (body : State → State × IRes) : List Value → State → State → IRes → Prop where
  | done {st} : ForRuns x body [] st st .ok
  | again {v items st vs st₁ st₂ r} : st.vars.insert x v = .ok vs → body { st with vars := vs } = (st₁, .ok) →
      ForRuns x body items st₁ st₂ r → ForRuns x body (v :: items) st st₂ r
  | continued {v items st vs st₁ st₂ r} : st.vars.insert x v = .ok vs →
      body { st with vars := vs } = (st₁, .cont) → ForRuns x body items st₁ st₂ r →
      ForRuns x body (v :: items) st st₂ r
  | broken {v items st vs st₁} : st.vars.insert x v = .ok vs → body { st with vars := vs } = (st₁, .brk) →
      ForRuns x body (v :: items) st st₁ .ok
  | quits {v items st vs st₁} : st.vars.insert x v = .ok vs → body { st with vars := vs } = (st₁, .quit) →
      ForRuns x body (v :: items) st st₁ .quit
  | fails {v items st vs st₁ f} : st.vars.insert x v = .ok vs →
      body { st with vars := vs } = (st₁, .fail f) → ForRuns x body (v :: items) st st₁ (.fail f)

end Btrd.Spec
