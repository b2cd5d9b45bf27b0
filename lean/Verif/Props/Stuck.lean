/-
C108: a loop whose body can not change its condition.
-/
import Verif.Props.Unaware

namespace Btrd
open Spec

/-- the condition has this value here, found without any request -/
def Holds (cfg : Cfg) (st : State) (c : Expr) (b : Bool) : Prop := evalCondT cfg st c = E.of (.ok b)

theorem cond_simple (cfg : Cfg) {st st' : State} {c : Expr} (hc : Simple c) (h : ∀ y ∈ c.uses, st'.vars.get y = st.vars.get y) :
    evalCondT cfg st' c = evalCondT cfg st c := by
  unfold evalCondT
  rw [simple_depends cfg hc h]

theorem cond_plainly (cfg : Cfg) (st : State) {c : Expr} (hc : Simple c) : Plainly (evalCondT cfg st c) := by
  unfold evalCondT
  exact plainly_bind (simple_plainly cfg st hc) fun v => plainly_of _

section
variable (cfg : Cfg) {c : Expr} (hc : Simple c) {b : List Stmt} (hy : ∀ y ∈ c.uses, UntouchedAll y b) (hj : NoJumps b)

include hc hy hj in
theorem loop_goes_on (fuel : Nat) (ω : Live) : ∀ (n : Nat) (st : State) (t : Nat), Holds cfg st c true →
    (((whileLoopT (fun st => evalCondT cfg st c) (evalStmtsT cfg b) n st).live fuel ω t).result.2 = .quit ∧ ¬ NoQuits b) ∨
    ∃ f, ((whileLoopT (fun st => evalCondT cfg st c) (evalStmtsT cfg b) n st).live fuel ω t).result.2 = .fail f
  | 0, _, _, _ => .inr ⟨_, rfl⟩
  | n + 1, st, t, h => by
    rw [whileLoopT, show evalCondT cfg st c = E.of (.ok true) from h, into_of]
    try dsimp only
    rw [if_pos rfl, live_bind]
    have hk := Leads.result fuel ω (stmts_keep (N := fun y => y ∈ c.uses) cfg b hy st) t
    have h1 := Leads.result fuel ω (stmts_straight cfg b hj st) t
    have h2 := fun hq => Leads.result fuel ω (stmts_stay cfg b hq st) t
    generalize (evalStmtsT cfg b st).live fuel ω t = A at *
    obtain ⟨ca, la, sa, ra⟩ := A
    dsimp only at hk h1 h2 ⊢
    cases ra with
    | fail f => exact .inr ⟨f, rfl⟩
    | brk => exact absurd rfl h1.1
    | cont => exact absurd rfl h1.2
    | quit => exact .inl ⟨rfl, fun hq => h2 hq rfl⟩
    | ok => exact loop_goes_on fuel ω n sa ca ((cond_simple cfg hc fun y hu => KeptAs.get hk hu).trans h)

end

theorem push_same {cfg : Cfg} {st : State} {c : Expr} (hc : Simple c) :
    evalCondT cfg { st with vars := st.vars.push } c = evalCondT cfg st c := cond_simple cfg hc fun _ _ => rfl

/-- **C108** A loop whose condition holds at the start, and whose body assigns to no variable in the condition and has no `break`
or `continue` of its own, does not come to an end: in any world and for any bound on its iterations, what ends it is an error in
the body (or the bound), or a `quit;` in the body. -/
theorem C108_endless (cfg : Cfg) (c : Expr) (hc : Simple c) (b : List Stmt) (hy : ∀ y ∈ c.uses, UntouchedAll y b) (hj : NoJumps b)
    (st : State) (h : Holds cfg st c true) (fuel : Nat) (ω : Live) (t : Nat) :
    (((evalStmtT cfg (.while c b) st).live fuel ω t).result.2 = .quit ∧ ¬ NoQuits b) ∨
    ∃ f, ((evalStmtT cfg (.while c b) st).live fuel ω t).result.2 = .fail f := by
  rw [evalStmtT]
  unfold inScopeT
  rw [live_bind]
  have := loop_goes_on cfg hc hy hj fuel ω cfg.fuel { st with vars := st.vars.push } t (Eq.trans (push_same hc) h)
  generalize T.live fuel ω _ t = A at *
  obtain ⟨ca, la, sa, ra⟩ := A
  dsimp only [T.live] at this ⊢
  cases sa.vars.pop with
  | ok vs => exact this
  | error e => exact .inr ⟨e, rfl⟩

/-- **C108** So if such a loop ends, then its body has not run at all: nothing was asked, no time has passed, nothing has changed. -/
theorem C108_untouched (cfg : Cfg) (c : Expr) (hc : Simple c) (b : List Stmt) (hy : ∀ y ∈ c.uses, UntouchedAll y b) (hj : NoJumps b)
    (st : State) (fuel : Nat) (ω : Live) (t : Nat) (h : ((evalStmtT cfg (.while c b) st).live fuel ω t).result.2 = .ok) :
    Holds cfg st c false ∧ (evalStmtT cfg (.while c b) st).live fuel ω t = ⟨t, [], (st, .ok)⟩ := by
  obtain ⟨r, he⟩ := cond_plainly cfg st hc
  have hp : evalCondT cfg { st with vars := st.vars.push } c = E.of r := (push_same hc).trans he
  have key : ∀ n, whileLoopT (fun st => evalCondT cfg st c) (evalStmtsT cfg b) (n + 1) { st with vars := st.vars.push } =
      (E.of r).into { st with vars := st.vars.push } fun v => if v then _ else .ret ({ st with vars := st.vars.push }, .ok) := fun n => by
    rw [whileLoopT, hp]
  cases r with
  | ok v =>
    cases v with
    | true =>
      rcases C108_endless cfg c hc b hy hj st he fuel ω t with ⟨h1, _⟩ | ⟨f, h1⟩ <;> rw [h] at h1 <;> cases h1
    | false =>
      refine ⟨he, ?_⟩
      rw [evalStmtT] at h ⊢
      unfold inScopeT at h ⊢
      dsimp only at h ⊢
      cases hf : cfg.fuel with
      | zero => rw [hf] at h; cases h
      | succ n => rw [key n]; rfl
  | error e =>
    rw [evalStmtT] at h
    unfold inScopeT at h
    dsimp only at h
    cases hf : cfg.fuel with
    | zero => rw [hf] at h; cases h
    | succ n => rw [hf, key n] at h; cases h

/-- **C108** If the body always ends well, the loop goes on beyond every bound. -/
theorem C108_forever (cfg : Cfg) (c : Expr) (hc : Simple c) (b : List Stmt) (hy : ∀ y ∈ c.uses, UntouchedAll y b)
    (st : State) (h : Holds cfg st c true) (fuel : Nat) (ω : Live)
    (hb : ∀ st' t', st'.vars.length = st.vars.length + 1 → ((evalStmtsT cfg b st').live fuel ω t').result.2 = .ok) (t : Nat) :
    ((evalStmtT cfg (.while c b) st).live fuel ω t).result.2 = .fail .diverge := by
  have loop : ∀ (n : Nat) (st' : State) (t : Nat), st'.vars.length = st.vars.length + 1 → Holds cfg st' c true →
      ((whileLoopT (fun st => evalCondT cfg st c) (evalStmtsT cfg b) n st').live fuel ω t).result.2 = .fail .diverge ∧
      ((whileLoopT (fun st => evalCondT cfg st c) (evalStmtsT cfg b) n st').live fuel ω t).result.1.vars.length = st.vars.length + 1 := by
    intro n
    induction n with
    | zero => intro st' t hl _; exact ⟨rfl, hl⟩
    | succ n ih =>
      intro st' t hl h
      rw [whileLoopT, show evalCondT cfg st' c = E.of (.ok true) from h, into_of]
      try dsimp only
      rw [if_pos rfl, live_bind]
      have hk := Leads.result fuel ω (stmts_keep (N := fun y => y ∈ c.uses) cfg b hy st') t
      have h1 := hb st' t hl
      have h2 := Leads.result fuel ω (stmts_level cfg b st') t
      generalize (evalStmtsT cfg b st').live fuel ω t = A at *
      obtain ⟨ca, la, sa, ra⟩ := A
      dsimp only at hk h1 h2 ⊢
      subst h1
      exact ih sa ca (h2.trans hl) ((cond_simple cfg hc fun y hu => KeptAs.get hk hu).trans h)
  rw [evalStmtT]
  unfold inScopeT
  rw [live_bind]
  obtain ⟨h1, h2⟩ := loop cfg.fuel { st with vars := st.vars.push } t (by simp [Vars.push]) (Eq.trans (push_same hc) h)
  generalize T.live fuel ω _ t = A at *
  obtain ⟨ca, la, sa, ra⟩ := A
  dsimp only [T.live] at h1 h2 ⊢
  cases hv : sa.vars with
  | nil => rw [hv] at h2; simp at h2
  | cons s vs => exact h1

/-! ### examples -/

/-- a counter is printed, but another one is counted -/
example (cfg : Cfg) (st : State) (h : Holds cfg st (.bin .lt (.ident ['i']) (.int 3)) true) (fuel : Nat) (ω : Live) (t : Nat) :
    ∃ f, ((evalStmtT cfg (.while (.bin .lt (.ident ['i']) (.int 3))
      [.print (.ident ['i']), .assign (.ident ['j']) (.bin .plus (.ident ['j']) (.int 1))]) st).live fuel ω t).result.2 = .fail f := by
  rcases C108_endless cfg (.bin .lt (.ident ['i']) (.int 3)) (by simp [Simple])
    [.print (.ident ['i']), .assign (.ident ['j']) (.bin .plus (.ident ['j']) (.int 1))] (by simp [UntouchedAll, Untouched, root, Expr.uses]) ⟨trivial, trivial, trivial⟩ st h fuel ω t with ⟨_, h⟩ | h
  · exact absurd (by simp [NoQuits, NoQuit]) h
  · exact h

/-- and there are states in which that condition holds -/
example : Holds demo { (RState.new demo none).ev with vars := [fun y => if y = ['i'] then some (.int 0) else none] }
    (.bin .lt (.ident ['i']) (.int 3)) true := by with_unfolding_all rfl

/-- an assignment in the body that always succeeds -/
example (cfg : Cfg) (st : State) (fuel : Nat) (ω : Live) (t : Nat) :
    ((evalStmtT cfg (.while (.bool true) [.assign (.ident ['x']) (.int 1)]) st).live fuel ω t).result.2 = .fail .diverge := by
  refine C108_forever cfg (.bool true) trivial [.assign (.ident ['x']) (.int 1)] (by simp [Expr.uses]) st rfl fuel ω (fun st' t' hl => ?_) t
  obtain ⟨w, hw⟩ := insert_ok st'.vars ['x'] (.int 1) (by intro h; rw [h] at hl; simp at hl)
  rw [eval_single, evalStmtT]
  unfold evalAssignT
  rw [evalExprT, into_of]
  dsimp only
  rw [hw, into_of]
  rfl

end Btrd
