/-
C106: what was assigned to a variable may be read instead of the variable.
-/
import Verif.Lemmas.Propagate
import Verif.Props.Rewrite

namespace Btrd
open Spec

/-- the names on which the value of such an expression depends -/
def nameIn (x : Str) (c : Expr) (y : Str) : Prop := y = x ∨ y ∈ c.uses

theorem simple_keeps {x : Str} {c : Expr} (hc : Simple c) (cfg : Cfg) (st st' : State)
    (h : ∀ y, nameIn x c y → st'.vars.get y = st.vars.get y) (ha : AlikeAt (Reading x c) cfg st) : AlikeAt (Reading x c) cfg st' := by
  rintro _ _ ⟨rfl, rfl⟩
  have h1 := ha _ _ ⟨rfl, rfl⟩
  rw [simple_depends cfg hc fun y hy => h y (.inr hy), h1, evalExprT, evalExprT, h x (.inl rfl)]

/-- **C106** After `x = c;`, where `c` is made of literals, other variables and operators, `c` may be read instead of `x`, at
any place in any expression in the statements that follow, at any depth in blocks and loops, as long as none of them assigns
to `x` or to a variable in `c`, to parts of them or loops with them: the checks accept the same, and in any world the requests,
warnings, output, state and result are the same, errors included. -/
theorem C106_propagate (x : Str) (c : Expr) (hc : Simple c) (hxc : x ∉ c.uses) (p p' : List Stmt) (hx : UntouchedAll x p)
    (hy : ∀ y ∈ c.uses, UntouchedAll y p) (h : ExchangedProg (Reading x c) p p') :
    SameEffect (.assign (.ident x) c :: p) (.assign (.ident x) c :: p') := by
  have hN : LeftAlone (nameIn x c) p := by
    rintro y (rfl | hu)
    · exact hx
    · exact hy y hu
  refine effect_same (fun a => ?_) fun cfg st => ?_
  · rw [analyzeStmts, analyzeStmts, analyzeStmt]
    unfold AState.declare
    cases hi : a.vars.insert x () with
    | error e => rfl
    | ok vs =>
      rw [then_of]
      dsimp only
      cases he : analyzeExpr vs c with
      | error e => rfl
      | ok u =>
        rw [then_of, then_of]
        have hr := (analyzeExpr_iff vs c).1 he
        have known : ∀ {vs : Vars Unit} {y : Str}, defined vs y → vs.get y = some () := fun {vs y} hd => by
          unfold defined at hd
          cases hg : vs.get y with
          | some u => rfl
          | none => simp [hg] at hd
        have hk : Knows (nameIn x c) vs := by
          rintro y (rfl | hu)
          · exact (get_insert hi).1
          · exact known (hr.2 y hu)
        refine known_prog (N := nameIn x c) (fun vs hv e e' hr' => ?_) h _ hk
        obtain ⟨rfl, rfl⟩ := hr'
        rw [analyzeExpr, hv x (.inl rfl), (analyzeExpr_iff vs e').2 ⟨hr.1, fun y hu => by
          unfold defined
          rw [hv y (.inr hu)]
          simp⟩]
  · rw [eval_cons, eval_cons, evalStmtT]
    obtain ⟨r, he⟩ := simple_plainly cfg st hc
    unfold evalAssignT
    rw [he]
    cases r with
    | error e => exact Along.refl _
    | ok v =>
      rw [into_of]
      dsimp only
      cases hi : st.vars.insert x v with
      | error e => exact Along.refl _
      | ok w =>
        rw [into_of]
        refine alike_prog (N := nameIn x c) (simple_keeps hc cfg) h hN _ ?_
        rintro _ _ ⟨rfl, rfl⟩
        rw [simple_depends cfg hc (st := st) fun y hu => (get_insert hi).2 y (by rintro rfl; exact hxc hu), he, evalExprT]
        dsimp only
        rw [(get_insert hi).1]
        rfl

/-- from two states that differ, on to the same ends -/
theorem live_near {α : Type} (x : E α) {st st' : State} {k k' : α → T (State × IRes)}
    (hk : ∀ a, SubS False (k a) (k' a) ∨ ∃ f s, k a = .ret (s, .fail f)) :
    SubS False (x.into st k) (x.into st' k') := by
  refine Along.bind (α := R α) (P := fun r => ∃ a, r = .ok a) (fun _ _ _ _ => rfl) (fun r => ?_) (fun r fuel ω t h => ?_)
  · cases r with
    | error e =>
      intro fuel ω t h
      rcases h with h | h
      · exact h.elim
      · exact absurd rfl (h e)
    | ok a =>
      rcases hk a with h | ⟨f, s, h⟩
      · exact h
      · intro fuel ω t hc
        dsimp only at hc
        rw [h] at hc
        rcases hc with hc | hc
        · exact hc.elim
        · exact absurd rfl (hc f)
  · cases r with
    | ok a => exact ⟨a, rfl⟩
    | error e =>
      rcases h with h | h
      · exact h.elim
      · exact absurd rfl (h e)

/-- **C106** An assignment that the next one overwrites may be left out, if that does not read the variable and the first
neither calls nor casts: a program that ends without an error does the same without it. -/
theorem C106_overwritten (x : Str) (c e : Expr) (hc : Simple c) (hx : x ∉ e.uses) :
    StandsIn [.assign (.ident x) c, .assign (.ident x) e] [.assign (.ident x) e] := by
  refine stands (fun a h => ?_) fun cfg st => ?_
  · rw [analyzeStmts, analyzeStmt] at h
    rw [check_single, analyzeStmt]
    refine Eq.symm ?_
    rw [analyzeStmts, analyzeStmt]
    unfold AState.declare at h ⊢
    cases hi : a.vars.insert x () with
    | error e => rfl
    | ok vs =>
      rw [hi, then_of] at h
      rw [then_of]
      dsimp only at h ⊢
      cases he : analyzeExpr vs c with
      | error e => rw [he] at h; cases h
      | ok u =>
        rw [then_of, then_of, check_single, analyzeStmt]
        unfold AState.declare
        dsimp only
        rw [insert_twice x () () hi, hi]
        rfl
  · rw [eval_cons, eval_single, evalStmtT, evalStmtT]
    obtain ⟨r, he⟩ := simple_plainly cfg st hc
    unfold evalAssignT
    rw [he]
    cases r with
    | error f =>
      intro fuel ω t h
      rcases h with h | h
      · exact h.elim
      · exact absurd rfl (h f)
    | ok v =>
      rw [into_of]
      dsimp only
      cases hi : st.vars.insert x v with
      | error f =>
        intro fuel ω t h
        rcases h with h | h
        · exact h.elim
        · exact absurd rfl (h f)
      | ok w =>
        rw [into_of]
        show SubS False (evalStmtsT cfg [.assign (.ident x) e] { st with vars := w }) _
        rw [eval_single, evalStmtT]
        unfold evalAssignT
        rw [uses_depends cfg (st := st) (st' := { st with vars := w }) rfl e fun y hy => (get_insert hi).2 y (by rintro rfl; exact hx hy)]
        show SubS False ((evalExprT cfg st e).into { st with vars := w } _) _
        refine live_near (evalExprT cfg st e) fun a => ?_
        dsimp only
        rw [insert_twice x v a hi]
        cases st.vars.insert x a with
        | error f => exact .inr ⟨f, _, rfl⟩
        | ok u => exact .inl (Along.refl _)

/-! ### where that does not hold -/

/-- it ended well -/
def okRes : IRes → Bool
  | .ok => true
  | _ => false

/-- the number in a variable at the end -/
def numberAt (p : List Stmt) (x : Str) : Option Int :=
  match ((evalStmtsT demo p (RState.new demo none).ev).live 10 (Live.steady demo.host) 0).result.1.vars.get x with
  | some (.int i) => some i
  | _ => none

theorem numberAt_same {p p' : List Stmt} (h : SameEffect p p') (x : Str) : numberAt p' x = numberAt p x := by
  unfold numberAt
  rw [h.evaluated demo _ (usual_new _ _)]

/-- **C106** Not where `x` has been assigned to meanwhile. -/
theorem C106_not_assigned : ¬ SameEffect
    [.assign (.ident ['x']) (.int 1), .assign (.ident ['x']) (.int 2), .assign (.ident ['z']) (.ident ['x'])]
    [.assign (.ident ['x']) (.int 1), .assign (.ident ['x']) (.int 2), .assign (.ident ['z']) (.int 1)] := by
  intro h
  have := numberAt_same h ['z']
  revert this
  decide +kernel

/-- **C106** Nor where a variable in `c` has. -/
theorem C106_not_source : ¬ SameEffect
    [.assign (.ident ['y']) (.int 1), .assign (.ident ['x']) (.bin .plus (.ident ['y']) (.int 1)), .assign (.ident ['y']) (.int 5),
      .assign (.ident ['z']) (.ident ['x'])]
    [.assign (.ident ['y']) (.int 1), .assign (.ident ['x']) (.bin .plus (.ident ['y']) (.int 1)), .assign (.ident ['y']) (.int 5),
      .assign (.ident ['z']) (.bin .plus (.ident ['y']) (.int 1))] := by
  intro h
  have := numberAt_same h ['z']
  revert this
  decide +kernel

/-- **C106** Nor where `c` reads `x` itself. -/
theorem C106_not_itself : ¬ SameEffect
    [.assign (.ident ['x']) (.int 1), .assign (.ident ['x']) (.bin .plus (.ident ['x']) (.int 1)), .assign (.ident ['z']) (.ident ['x'])]
    [.assign (.ident ['x']) (.int 1), .assign (.ident ['x']) (.bin .plus (.ident ['x']) (.int 1)),
      .assign (.ident ['z']) (.bin .plus (.ident ['x']) (.int 1))] := by
  intro h
  have := numberAt_same h ['z']
  revert this
  decide +kernel

/-- **C106** And an assignment can not be left out before one that reads the variable. -/
theorem C106_not_overwritten : ¬ StandsIn
    [.assign (.ident ['x']) (.int 1), .assign (.ident ['x']) (.bin .plus (.ident ['x']) (.int 1))]
    [.assign (.ident ['x']) (.bin .plus (.ident ['x']) (.int 1))] := by
  intro h
  have h1 := h.evaluated demo _ (usual_new demo none) 10 (Live.steady demo.host) 0 (by
    intro f hf
    have : okRes ((evalStmtsT demo [.assign (.ident ['x']) (.int 1), .assign (.ident ['x']) (.bin .plus (.ident ['x']) (.int 1))]
      (RState.new demo none).ev).live 10 (Live.steady demo.host) 0).result.2 = true := by decide +kernel
    rw [hf] at this
    cases this)
  have : numberAt [.assign (.ident ['x']) (.bin .plus (.ident ['x']) (.int 1))] ['x'] =
      numberAt [.assign (.ident ['x']) (.int 1), .assign (.ident ['x']) (.bin .plus (.ident ['x']) (.int 1))] ['x'] := by
    unfold numberAt
    rw [h1]
  revert this
  decide +kernel

/-! ### the hypotheses can be met -/

set_option maxRecDepth 100000 in
/-- two programs: a limit in a variable that is read in a loop, and the limit in its place -/
theorem limit_spelled : ∃ p p',
    Spells s!' "a = 2; x = (a + 3); i = 0; while i < x { i = i + 1; print x - i; }" p ∧
    Spells s!' "a = 2; x = (a + 3); i = 0; while i < (a + 3) { i = i + 1; print (a + 3) - i; }" p' ∧
    RewrittenProg SameEffect SameEffect p p' := by
  refine ⟨[.assign (.ident ['a']) (.int 2), .assign (.ident ['x']) (.paren (.bin .plus (.ident ['a']) (.int 3))), .assign (.ident ['i']) (.int 0),
      .while (.bin .lt (.ident ['i']) (.ident ['x'])) [.assign (.ident ['i']) (.bin .plus (.ident ['i']) (.int 1)),
        .print (.bin .minus (.ident ['x']) (.ident ['i']))]],
    [.assign (.ident ['a']) (.int 2), .assign (.ident ['x']) (.paren (.bin .plus (.ident ['a']) (.int 3))), .assign (.ident ['i']) (.int 0),
      .while (.bin .lt (.ident ['i']) (.paren (.bin .plus (.ident ['a']) (.int 3)))) [.assign (.ident ['i']) (.bin .plus (.ident ['i']) (.int 1)),
        .print (.bin .minus (.paren (.bin .plus (.ident ['a']) (.int 3))) (.ident ['i']))]],
    spells_iff.2 (by with_unfolding_all rfl), spells_iff.2 (by with_unfolding_all rfl), ?_⟩
  refine .cons (.same _) (.here (p := [_, _, _]) (p' := [_, _, _]) (q := []) (q' := []) (C106_propagate ['x'] _ ?_ ?_ _ _ ?_ ?_ ?_) .nil)
  · simp [Simple]
  · simp [Expr.uses]
  · simp [UntouchedAll, Untouched, root]
  · simp [UntouchedAll, Untouched, root, Expr.uses]
  · exact .cons (.same _) (.cons (.while (.bin _ (.same _) (.here ⟨rfl, rfl⟩)) (.cons (.same _)
      (.cons (.print (.bin _ (.here ⟨rfl, rfl⟩) (.same _))) .nil))) .nil)

example (cfg : Cfg) (ω : Live) :
    scriptMainL cfg none ω (some (encoded s!' "a = 2; x = (a + 3); i = 0; while i < (a + 3) { i = i + 1; print (a + 3) - i; }")) =
      scriptMainL cfg none ω (some (encoded s!' "a = 2; x = (a + 3); i = 0; while i < x { i = i + 1; print x - i; }")) := by
  obtain ⟨p, p', h1, h2, h3⟩ := limit_spelled
  have e1 : stripComments s!' "a = 2; x = (a + 3); i = 0; while i < x { i = i + 1; print x - i; }" =
      s!' "a = 2; x = (a + 3); i = 0; while i < x { i = i + 1; print x - i; }" := by decide +kernel
  have e2 : stripComments s!' "a = 2; x = (a + 3); i = 0; while i < (a + 3) { i = i + 1; print (a + 3) - i; }" =
      s!' "a = 2; x = (a + 3); i = 0; while i < (a + 3) { i = i + 1; print (a + 3) - i; }" := by decide +kernel
  exact C104_script cfg none ω _ _ p p' (by rw [e1]; exact h1) (by rw [e2]; exact h2) h3

/-- an assignment that is overwritten -/
example : StandsIn [.assign (.ident ['x']) (.bin .plus (.ident ['y']) (.int 1)), .assign (.ident ['x']) (.call (.ident s!' "len") [.ident ['y']])]
    [.assign (.ident ['x']) (.call (.ident s!' "len") [.ident ['y']])] :=
  C106_overwritten ['x'] _ _ (by simp [Simple]) (by simp [Expr.uses, usesL])

end Btrd
