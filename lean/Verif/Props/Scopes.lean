/-
C13-C15, C31-C33: variables, scopes and assignment (`src/lang/variables.rs`, `src/lang/eval/eval.rs`).
-/
import Verif.Lemmas.Vars
import Verif.Lemmas.Arith
import Verif.Lemmas.Runtime

namespace Btrd
open Spec

/-! ### C13: a stack of maps -/

/-- **C13**: after any sequence of scope pushes, pops and assignments that the code carries out, reading
any variable gives what the one-variable specification (`Slots`) gives: the innermost binding, where an
assignment has updated the innermost existing binding or created one in the innermost scope, and
operations on other variables have had no influence. -/
theorem C13_stack_of_maps {T : Type} (ops : List (VOp T)) (vs vs' : Vars T)
    (h : perform vs ops = .ok vs') (x : Str) :
    vs'.get x = (ops.foldl (Slots.step x) (vs.map fun s => s x)).read := by
  have key : ∀ (ops : List (VOp T)) (vs vs' : Vars T), perform vs ops = .ok vs' →
      slots vs' x = ops.foldl (Slots.step x) (slots vs x) := by
    intro ops
    induction ops with
    | nil =>
      intro vs vs' h
      simp only [perform, Except.ok.injEq] at h
      subst h; rfl
    | cons op ops ih =>
      intro vs vs' h
      cases op with
      | push =>
        rw [List.foldl_cons, ih _ _ h]
        rfl
      | pop =>
        simp only [perform] at h
        cases vs with
        | nil => simp [Vars.pop] at h
        | cons s r =>
          simp only [Vars.pop] at h
          rw [List.foldl_cons, ih _ _ h]
          rfl
      | assign k v =>
        simp only [perform] at h
        cases hi : vs.insert k v with
        | error e => simp [hi] at h
        | ok w =>
          simp only [hi] at h
          rw [List.foldl_cons, ih _ _ h]
          congr 1
          have := insert_slots hi
          simp only [Slots.step]
          by_cases hk : k = x
          · subst hk; simp [this.1]
          · simp [hk, this.2 x (fun e => hk e.symm)]
  rw [get_eq_read, key ops vs vs' h]
  rfl

/-- **C13**: the operations fail (an assertion of the code) only when a scope is missing. -/
theorem C13_total {T : Type} (ops : List (VOp T)) (vs : Vars T) (h : opsOk vs.length ops) :
    ∃ vs', perform vs ops = .ok vs' := by
  induction ops generalizing vs with
  | nil => exact ⟨vs, rfl⟩
  | cons op ops ih =>
    cases op with
    | push => exact ih _ h
    | pop =>
      cases vs with
      | nil => exact absurd h.1 (by simp)
      | cons s r => exact ih r h.2
    | assign k v =>
      have hne : vs ≠ [] := by rintro rfl; exact absurd h.1 (by simp)
      obtain ⟨vs', hv⟩ := insert_ok vs k v hne
      simp only [perform, hv]
      exact ih vs' (by rw [insert_length hv]; exact h.2)

example : opsOk (T := Value) 1
    [.assign s!' "x" (.int 1), .push, .assign s!' "x" (.int 2), .assign s!' "y" (.int 3), .pop] := by
  simp [opsOk]
example : ([.assign s!' "x" (.int 1), .push, .assign s!' "x" (.int 2), .pop].foldl
    (Slots.step s!' "x") [none]).read = some (Value.int 2) := by rfl

/-! ### C14, C15: blocks and balance -/

/-- **C14**: an `if`, `while` or `for` statement, however it ends (normally, error, panic, break,
continue, quit, no end within the step bound), leaves defined exactly the variables that were defined
before, in every scope. -/
theorem C14_blocks_do_not_leak (cfg : Cfg) (st : State) (s : Stmt)
    (hs : (∃ c t f, s = .ite c t f) ∨ (∃ c b, s = .while c b) ∨ (∃ x r b, s = .for x r b)) :
    SameDefined st.vars (evalStmt cfg s st).1.vars := by
  have key : ∀ body : State → State × IRes, (∀ st, Gained st.vars (body st).1.vars) →
      SameDefined st.vars (inScope st body).1.vars := by
    intro body hb
    unfold inScope
    have h1 := hb { st with vars := st.vars.push }
    generalize body { st with vars := st.vars.push } = r at h1
    obtain ⟨⟨k, vs, fs⟩, r⟩ := r
    cases vs with
    | nil => simp [Vars.push, Gained] at h1
    | cons s r => exact h1.2
  have hc := gained_closed cfg
  rcases hs with ⟨c, t, f, rfl⟩ | ⟨c, b, rfl⟩ | ⟨x, r, b, rfl⟩
  · rw [evalStmt]
    apply key
    intro st
    cases evalCond cfg st c with
    | error e => exact Gained.refl _
    | ok v => cases v
              · exact evalStmts_rel hc f (allT_true f) st
              · exact evalStmts_rel hc t (allT_true t) st
  · rw [evalStmt]
    apply key
    intro st
    exact whileLoop_rel hc _ _ (fun st => evalStmts_rel hc b (allT_true b) st) _ st
  · rw [evalStmt]
    apply key
    intro st
    exact evalFor_rel hc x r trivial _ (fun st => evalStmts_rel hc b (allT_true b) st) st

/-- **C14**, in terms of reading: a variable can be read after the block exactly if it could before. -/
theorem C14_readable_iff (cfg : Cfg) (st : State) (s : Stmt)
    (hs : (∃ c t f, s = .ite c t f) ∨ (∃ c b, s = .while c b) ∨ (∃ x r b, s = .for x r b)) (x : Str) :
    st.vars.get x = none ↔ (evalStmt cfg s st).1.vars.get x = none :=
  (C14_blocks_do_not_leak cfg st s hs).get x

/-- **C15**: after any program, however it ends, there are as many scopes as before, all but the innermost
define the same variables, and the innermost has lost none. -/
theorem C15_balanced (cfg : Cfg) (st : State) (p : List Stmt) :
    Gained st.vars (evalProgram cfg p st).1.vars ∧
    (evalProgram cfg p st).1.vars.length = st.vars.length := by
  have h := evalStmts_rel (gained_closed cfg) p (allT_true p) st
  refine ⟨h, ?_⟩
  change (evalStmts cfg p st).1.vars.length = _
  revert h
  generalize (evalStmts cfg p st).1.vars = vs'
  intro h
  cases hv : st.vars with
  | nil => rw [hv] at h; cases vs' <;> simp_all [Gained]
  | cons s r =>
    rw [hv] at h
    cases vs' with
    | nil => simp [Gained] at h
    | cons s' r' => simp [h.2.length]

theorem runtimeEval_scopes (cfg : Cfg) (rs : RState) (cmd : Str) :
    (runtimeEval cfg rs cmd).1.ev.vars.length = rs.ev.vars.length := by
  rcases runtimeEval_cases cfg rs cmd with ⟨_, h⟩ | ⟨p, e, _, _, h⟩ | ⟨p, _, _, h⟩
  · rw [h]
  · rw [h]
  · rw [h]; exact (C15_balanced cfg rs.ev p).2

/-- **C15**, sessions: whatever is entered in a REPL session, there is exactly one scope at every prompt. -/
theorem C15_session (cfg : Cfg) (room : Option Nat) (events : List ReplEvent) :
    (replRun cfg (RState.new cfg room) events).1.ev.vars.length = 1 := by
  apply replRun_inv cfg (fun rs => rs.ev.vars.length = 1)
  · intro rs cmd h
    rw [runtimeEval_scopes]; exact h
  · rfl

/-! ### C31: whole assignment -/

/-- **C31**: `x = e` succeeds exactly when `e` does (there being a scope); then `x` has that value, every
other variable reads as before, and nothing else changes. When it fails, nothing changes. -/
theorem C31_assignment (cfg : Cfg) (st : State) (x : Str) (e : Expr) :
    (∀ v, evalExpr cfg st e = .ok v → st.vars ≠ [] →
      (evalStmt cfg (.assign (.ident x) e) st).2 = .ok ∧
      (evalStmt cfg (.assign (.ident x) e) st).1.vars.get x = some v ∧
      (∀ y, y ≠ x → (evalStmt cfg (.assign (.ident x) e) st).1.vars.get y = st.vars.get y) ∧
      (evalStmt cfg (.assign (.ident x) e) st).1.sink = st.sink ∧
      (evalStmt cfg (.assign (.ident x) e) st).1.fs = st.fs) ∧
    (∀ f, evalExpr cfg st e = .error f → evalStmt cfg (.assign (.ident x) e) st = (st, .fail f)) := by
  constructor
  · intro v hv hne
    obtain ⟨vs', hi⟩ := insert_ok st.vars x v hne
    have : evalStmt cfg (.assign (.ident x) e) st = ({ st with vars := vs' }, .ok) := by
      simp [evalStmt, evalAssign, hv, hi]
    rw [this]
    have := get_insert hi
    exact ⟨rfl, this.1, this.2, rfl, rfl⟩
  · intro f hf
    simp [evalStmt, evalAssign, hf]

/-- **C31/C32**: an assignment (whole or partial) that does not succeed changes nothing at all. -/
theorem C31_failure_changes_nothing (cfg : Cfg) (st : State) (l r : Expr)
    (h : (evalStmt cfg (.assign l r) st).2 ≠ .ok) : (evalStmt cfg (.assign l r) st).1 = st := by
  simp only [evalStmt, evalAssign] at h ⊢
  split
  · rfl
  · split
    · split
      · simp_all
      · rfl
    · split
      · simp_all
      · rfl

example : (evalStmt ⟨⟨false⟩, ⟨fun _ => none, fun _ => none, none⟩, false, 1⟩
    (.assign (.ident s!' "x") (.int 3)) ⟨⟨[], none⟩, [Scope.empty], none⟩).1.vars.get s!' "x" =
    some (.int 3) := by rfl

/-! ### C32: partial assignment -/

/-- **C32**: a successful assignment to a field/index path writes the value of the right-hand side at the
component that the target denotes, and at every path that parts from it the variable is as it was; every
other variable, the output and the filesystem are as they were. -/
theorem C32_partial_assignment (cfg : Cfg) (st : State) (l r : Expr) (hl : ∀ x, l ≠ .ident x)
    (h : (evalStmt cfg (.assign l r) st).2 = .ok) :
    ∃ x p v old new, evalExpr cfg st r = .ok v ∧ Denotes cfg st l x p ∧ p ≠ [] ∧
      st.vars.get x = some old ∧ (evalStmt cfg (.assign l r) st).1.vars.get x = some new ∧
      at? old p ≠ none ∧ at? new p = some v ∧ (∀ q, Apart p q → at? new q = at? old q) ∧
      (∀ y, y ≠ x → (evalStmt cfg (.assign l r) st).1.vars.get y = st.vars.get y) ∧
      (evalStmt cfg (.assign l r) st).1.sink = st.sink ∧ (evalStmt cfg (.assign l r) st).1.fs = st.fs := by
  simp only [evalStmt] at h ⊢
  cases hr : evalExpr cfg st r with
  | error f => simp [evalAssign, hr] at h
  | ok v =>
    rw [evalAssign_path cfg st l r hl v hr] at h ⊢
    · cases hm : modifyLhs cfg st l (fun _ => .ok v) with
      | error f => simp [hm] at h
      | ok vs =>
        obtain ⟨x, p, old, new, hw⟩ := modifyLhs_wrote cfg st l _ vs hm
        obtain ⟨w, w', h1, h2, h3⟩ := hw.here
        simp only [Except.ok.injEq] at h2
        subst h2
        have hp : p ≠ [] := by
          rintro rfl
          have hd := hw.denotes
          generalize hq : ([] : List Step) = q at hd
          cases hd with
          | ident x => exact hl x rfl
          | field f hd => simp at hq
          | index hd _ _ => simp at hq
        refine ⟨x, p, v, old, new, rfl, hw.denotes, hp, hw.before, ?_, by simp [h1], h3, hw.apart, ?_, rfl, rfl⟩
        · rw [get_eq_read, hw.slots]
          exact read_update (by rw [← get_eq_read]; exact hw.before)
        · intro y hy
          rw [get_eq_read, get_eq_read, hw.others y hy]

/-- writing through a target that denotes an existing component works -/
theorem modifyLhs_ok (cfg : Cfg) (st : State) {e : Expr} {x : Str} {p : List Step}
    (hd : Denotes cfg st e x p) : ∀ {old w w' : Value} {f : Value → R Value}, st.vars.get x = some old →
    at? old p = some w → f w = .ok w' → ∃ vs, modifyLhs cfg st e f = .ok vs := by
  induction hd with
  | ident x =>
    intro old w w' f ho hw hf
    simp only [at?, Option.some.injEq] at hw
    subst hw
    simp only [modifyLhs]
    rcases @modify_spec _ f st.vars x with ⟨h1, _⟩ | ⟨v, e, h1, h2, _⟩ | ⟨v, v', vs, h1, h2, h3, _⟩
    · simp [h1] at ho
    · rw [h1] at ho; injection ho with ho; subst ho; rw [hf] at h2; simp at h2
    · exact ⟨vs, by simp [h3]⟩
  | field name hd ih =>
    intro old w w' f ho hw hf
    rename_i e x p
    simp only [modifyLhs]
    rw [at?_append] at hw
    cases hp : at? old p with
    | none => simp [hp] at hw
    | some u =>
      rw [hp, Option.bind_some, at?_single] at hw
      cases u with
      | struct n k fs =>
        have hm : ∃ fs', modifyField n f fs name = .ok fs' := by
          simp only [child] at hw
          clear hp
          induction fs with
          | nil => simp at hw
          | cons q fs ih =>
            obtain ⟨m, v⟩ := q
            simp only [modifyField]
            by_cases hm : m = name
            · simp [hm] at hw
              subst hw
              simp [hm, hf, bind, Except.bind]
            · have hb : (m == name) = false := by simpa using hm
              obtain ⟨fs', h'⟩ := ih (by simpa [hb] using hw)
              simp [hm, h', bind, Except.bind]
        obtain ⟨fs', hm⟩ := hm
        exact ih ho hp (w' := .struct n k fs') (by simp [hm, bind, Except.bind])
      | _ => simp [child] at hw
  | index hd hi hn ih =>
    intro old w w' f ho hw hf
    rename_i e i x p n
    simp only [modifyLhs, hi, bind, Except.bind, Value.asInteger]
    rw [at?_append] at hw
    cases hp : at? old p with
    | none => simp [hp] at hw
    | some u =>
      rw [hp, Option.bind_some, at?_single] at hw
      cases u with
      | array vec k =>
        have hm : ∀ er, ∃ vec', modifyNth er f vec n = .ok vec' := by
          intro er
          simp only [child] at hw
          clear hp hi hn ih
          revert n
          induction vec with
          | nil => intro n hw; simp at hw
          | cons v vs ih =>
            intro n hw
            cases n with
            | zero =>
              simp at hw; subst hw
              simp [modifyNth, hf, bind, Except.bind]
            | succ n =>
              obtain ⟨vs', h'⟩ := ih (n := n) (by simpa using hw)
              simp [modifyNth, h', bind, Except.bind]
        obtain ⟨vec', hm⟩ := hm (.indexRange n vec.length)
        have ht : tryUnsigned 64 (n : Int) = .ok n := tryUnsigned_nat hn
        refine ih ho hp (w' := .array vec' k) ?_
        simp only [ht, hm]
      | _ => simp [child] at hw

/-- **C32**: an assignment whose right-hand side has a value and whose target denotes an existing component
of an existing variable succeeds. -/
theorem C32_succeeds (cfg : Cfg) (st : State) (l r : Expr) (x : Str) (p : List Step) (v old w : Value)
    (hr : evalExpr cfg st r = .ok v) (hd : Denotes cfg st l x p) (ho : st.vars.get x = some old)
    (hw : at? old p = some w) : (evalStmt cfg (.assign l r) st).2 = .ok := by
  simp only [evalStmt, evalAssign, hr]
  split
  · have hne : st.vars ≠ [] := by intro e; simp [e, Vars.get] at ho
    rename_i name
    obtain ⟨vs, hi⟩ := insert_ok st.vars name v hne
    simp [hi]
  · obtain ⟨vs, hm⟩ := modifyLhs_ok cfg st hd (f := fun _ => .ok v) ho hw rfl
    simp [hm]

/-- **C32**: reading a target gives the component it denotes; so after an assignment, if its index
expressions still have the same values, reading the target gives what was assigned. -/
theorem C32_read_target (cfg : Cfg) (st : State) {e : Expr} {x : Str} {p : List Step} {old w : Value}
    (hd : Denotes cfg st e x p) (ho : st.vars.get x = some old) (hw : at? old p = some w) :
    evalExpr cfg st e = .ok w := by
  induction hd generalizing w with
  | ident x =>
    simp only [at?, Option.some.injEq] at hw
    subst hw
    simp [evalExpr, ho, orErr]
  | field name hd ih =>
    rename_i e x p
    rw [at?_append] at hw
    cases hp : at? old p with
    | none => simp [hp] at hw
    | some u =>
      rw [hp, Option.bind_some, at?_single] at hw
      cases u with
      | struct n k fs =>
        simp only [evalExpr, ih ho hp, fieldOp, bind, Except.bind, Value.asStruct, StructVal.field,
          fieldLookup_eq, findField]
        simp only [child] at hw
        rw [hw]; rfl
      | _ => simp [child] at hw
  | index hd hi hn ih =>
    rename_i e i x p n
    rw [at?_append] at hw
    cases hp : at? old p with
    | none => simp [hp] at hw
    | some u =>
      rw [hp, Option.bind_some, at?_single] at hw
      cases u with
      | array vec k =>
        have ht : tryUnsigned 64 (n : Int) = .ok n := tryUnsigned_nat hn
        simp only [child] at hw
        simp only [evalExpr, ih ho hp, hi, indexOp, bind, Except.bind, Value.asVec, Value.asInteger, ht]
        rw [hw]; rfl
      | _ => simp [child] at hw

/-- a state with `a = [[1, 2], 3]` and `b = 7`, and the effect of `a[0][1] = b` on it -/
example :
    let cfg : Cfg := ⟨⟨false⟩, ⟨fun _ => none, fun _ => none, none⟩, false, 1⟩
    let st : State := ⟨⟨[], none⟩, [(Scope.empty.set s!' "a"
      (.array [.array [.int 1, .int 2] false, .int 3] false)).set s!' "b" (.int 7)], none⟩
    let lhs : Expr := .index (.index (.ident s!' "a") (.int 0)) (.int 1)
    Denotes cfg st lhs s!' "a" [.index 0, .index 1] ∧
    (evalStmt cfg (.assign lhs (.ident s!' "b")) st).2 = .ok ∧
    (evalStmt cfg (.assign lhs (.ident s!' "b")) st).1.vars.get s!' "a" =
      some (.array [.array [.int 1, .int 7] false, .int 3] false) ∧
    Apart [.index 0, .index 1] [.index 1] := by
  refine ⟨?_, by rfl, by rfl, by simp only [Apart]; decide⟩
  exact .index (n := 1) (p := [.index 0]) (.index (n := 0) (p := []) (.ident _) (by rfl) (by decide)) (by rfl)
    (by decide)

/-! ### C33: copies -/

theorem frame_closed (cfg : Cfg) (y : Str) :
    RelClosed cfg (fun l => root l ≠ some y) (fun x => x ≠ .ident y)
      (fun vs vs' => slots vs' y = slots vs y) where
  refl _ := rfl
  trans h h' := h'.trans h
  scope vs vs' vs'' h hp := by
    cases vs' with
    | nil => simp [Vars.pop] at hp
    | cons s r =>
      simp only [Vars.pop, Except.ok.injEq] at hp
      subst hp
      simp only [slots, Vars.push, List.map_cons, List.cons.injEq] at h ⊢
      exact h.2
  scopeErr vs vs' e h hp := by
    cases vs' with
    | nil => simp [slots, Vars.push] at h
    | cons s r => simp [Vars.pop] at hp
  assign st l r hl := by
    unfold evalAssign
    split
    · rfl
    · split
      · split
        · rename_i h
          exact (insert_slots h).2 y (by intro e; apply hl; simp [root, e])
        · rfl
      · split
        · rename_i h
          obtain ⟨x, p, old, new, hw⟩ := modifyLhs_wrote _ _ _ _ _ h
          exact hw.others y (by intro e; apply hl; rw [hw.root, e])
        · rfl
  bind vs name v vs' hn h := (insert_slots h).2 y (by rintro rfl; exact hn rfl)

/-- **C33**: after `y = x` has succeeded, whatever program runs next — assignments to `x`, to parts of `x`
at any depth, loops, blocks, errors — as long as it contains no assignment whose target starts with `y`
and no loop over `y`, `y` keeps the value `x` had. -/
theorem C33_values_are_copied (cfg : Cfg) (st : State) (x y : Str) (v : Value) (p : List Stmt)
    (hx : st.vars.get x = some v)
    (hp : allT (fun l => root l ≠ some y) (fun z => z ≠ .ident y) p) :
    (evalStmts cfg (.assign (.ident y) (.ident x) :: p) st).1.vars.get y = some v := by
  have hne : st.vars ≠ [] := by intro e; simp [e, Vars.get] at hx
  obtain ⟨vs, hi⟩ := insert_ok st.vars y v hne
  have h1 : evalStmt cfg (.assign (.ident y) (.ident x)) st = ({ st with vars := vs }, .ok) := by
    simp [evalStmt, evalAssign, evalExpr, hx, orErr, hi]
  rw [evalStmts, h1]
  simp only
  have h2 := evalStmts_rel (frame_closed cfg y) p hp { st with vars := vs }
  rw [get_eq_read, h2, ← get_eq_read]
  exact (get_insert hi).1

example : allT (fun l => root l ≠ some s!' "y") (fun z => z ≠ .ident s!' "y")
    [.assign (.index (.ident s!' "x") (.int 0)) (.int 9), .assign (.ident s!' "x") (.ident s!' "y"),
     .while (.bool true) [.assign (.field (.ident s!' "x") (.ident s!' "f")) (.int 1)]] := by
  simp [allT, Stmt.AllT, root]

end Btrd
