/-
The rules of `Spec/Rules` leave no choice.
-/
import Verif.Lemmas.RulesStmt

namespace Btrd
open Spec

theorem assigns_unique {x : Str} {v : Value} {vs a b : Vars Value} (h : Assigns x v vs a) (h' : Assigns x v vs b) :
    a = b := by
  have h1 := insert_iff.2 h
  rw [insert_iff.2 h', Except.ok.injEq] at h1
  exact h1.symm

theorem stores_unique {cfg : Cfg} {σ : State} {l : Expr} {v : Value} {a b : Vars Value}
    (h : Stores (world cfg) σ l v a) (h' : Stores (world cfg) σ l v b) : a = b := by
  cases h with
  | var h =>
    cases h' with
    | var h' => exact assigns_unique h h'
    | part hl => exact absurd rfl (hl _)
  | part hl h1 h2 h3 h4 =>
    cases h' with
    | var => exact absurd rfl (hl _)
    | part _ h1' h2' h3' h4' =>
      obtain ⟨n, hn⟩ := rule_lhs h1 h2 (through_const.2 h3) h4
      obtain ⟨n', hn'⟩ := rule_lhs h1' h2' (through_const.2 h3') h4'
      have := hn (max n n') (by omega)
      rw [hn' _ (by omega), Except.ok.injEq] at this
      exact this.symm

theorem outputs_unique {t : Str} {σ a b : State} {o o' : Outcome} (h : Outputs t σ a o) (h' : Outputs t σ b o') :
    a = b ∧ o = o' := by
  obtain ⟨h1, h2⟩ := rule_write h
  obtain ⟨h3, h4⟩ := rule_write h'
  exact ⟨h1.symm.trans h3, h2.symm.trans h4⟩

theorem prints_unique {cfg : Cfg} {v : Value} {s t : Str} (h : Prints (world cfg) v s) (h' : Prints (world cfg) v t) :
    s = t := by
  obtain ⟨n, hn⟩ := rule_print h
  obtain ⟨n', hn'⟩ := rule_print h'
  have := hn (max n n') (by omega)
  rw [hn' _ (by omega), Except.ok.injEq] at this
  exact this.symm

theorem shows_unique {cfg : Cfg} {v : Value} {s t : Str} (h : (world cfg).shows v s) (h' : (world cfg).shows v t) :
    s = t := by
  have h : v.display = .ok s := h
  have h' : v.display = .ok t := h'
  rw [h, Except.ok.injEq] at h'
  exact h'

theorem bool_unique {cfg : Cfg} {σ : State} {c : Expr} {a b : Bool} (h : Ev (world cfg) σ c (.bool a))
    (h' : Ev (world cfg) σ c (.bool b)) : a = b := by
  have := ev_unique h h'
  simpa using this

mutual
theorem runs_unique {cfg : Cfg} : ∀ {s : Stmt} {σ a b : State} {o o' : Outcome}, Runs (world cfg) s σ a o →
    Runs (world cfg) s σ b o' → a = b ∧ o = o'
  | _, _, _, _, _, _, .assign x0 x1, h' => by
    cases h' with
    | assign he' hs' =>
      rw [ev_unique he' x0] at hs'
      rw [stores_unique x1 hs']
      exact ⟨rfl, rfl⟩
    | assignFails h =>
      exact absurd x1 (h _ _ x0)
  | _, _, _, _, _, _, .assignFails x0, h' => by
    cases h' with
    | assign he hs =>
      exact absurd hs (x0 _ _ he)
    | assignFails _ =>
      exact ⟨rfl, rfl⟩
  | _, _, _, _, _, _, .ifTrue x0 x1 x2, h' => by
    cases h' with
    | ifTrue _ hr' hc' =>
      obtain ⟨rfl, rfl⟩ := runsAll_unique x1 hr'
      exact ⟨closes_unique x2 hc', rfl⟩
    | ifFalse he' _ _ =>
      have := bool_unique x0 he'; simp at this
    | ifFails h =>
      exact absurd x0 (h _)
  | _, _, _, _, _, _, .ifFalse x0 x1 x2, h' => by
    cases h' with
    | ifFalse _ hr' hc' =>
      obtain ⟨rfl, rfl⟩ := runsAll_unique x1 hr'
      exact ⟨closes_unique x2 hc', rfl⟩
    | ifTrue he' _ _ =>
      have := bool_unique x0 he'; simp at this
    | ifFails h =>
      exact absurd x0 (h _)
  | _, _, _, _, _, _, .ifFails x0, h' => by
    cases h' with
    | ifTrue he _ _ =>
      exact absurd he (x0 _)
    | ifFalse he _ _ =>
      exact absurd he (x0 _)
    | ifFails _ =>
      exact ⟨rfl, rfl⟩
  | _, _, _, _, _, _, .while x0 x1, h' => by
    cases h' with
    | «while» hl' hc' =>
      obtain ⟨rfl, rfl⟩ := loops_unique x0 hl'
      exact ⟨closes_unique x1 hc', rfl⟩
  | _, _, _, _, _, _, .for x0 x1 x2, h' => by
    cases h' with
    | «for» he' hv' hc' =>
      have := ev_unique x0 he'
      simp only [Value.array.injEq] at this
      rw [← this.1] at hv'
      obtain ⟨rfl, rfl⟩ := visits_unique x1 hv'
      exact ⟨closes_unique x2 hc', rfl⟩
    | forFails h =>
      exact absurd x0 (h _ _)
    | forNoName h =>
      exact absurd rfl (h _)
  | _, _, _, _, _, _, .forFails x0, h' => by
    cases h' with
    | «for» he _ _ =>
      exact absurd he (x0 _ _)
    | forFails _ =>
      exact ⟨rfl, rfl⟩
    | forNoName _ =>
      exact ⟨rfl, rfl⟩
  | _, _, _, _, _, _, .forNoName x0, h' => by
    cases h' with
    | «for» _ _ _ =>
      exact absurd rfl (x0 _)
    | forFails _ =>
      exact ⟨rfl, rfl⟩
    | forNoName _ =>
      exact ⟨rfl, rfl⟩
  | _, _, _, _, _, _, .brk, h' => by
    cases h' with
    | brk  =>
      exact ⟨rfl, rfl⟩
  | _, _, _, _, _, _, .cont, h' => by
    cases h' with
    | cont  =>
      exact ⟨rfl, rfl⟩
  | _, _, _, _, _, _, .quit, h' => by
    cases h' with
    | quit  =>
      exact ⟨rfl, rfl⟩
  | _, _, _, _, _, _, .help x0, h' => by
    cases h' with
    | help h' =>
      exact outputs_unique x0 h'
  | _, _, _, _, _, _, .filesystem x0 x1, h' => by
    cases h' with
    | filesystem he' ho' =>
      have := ev_unique x0 he'
      simp only [Value.str.injEq] at this
      subst this
      have e1 := show Fs.new _ _ = _ from x1
      have e2 := show Fs.new _ _ = _ from ho'
      rw [e1, Except.ok.injEq] at e2
      rw [e2]
      exact ⟨rfl, rfl⟩
    | filesystemFails h =>
      exact absurd x1 (h _ _ x0)
  | _, _, _, _, _, _, .filesystemFails x0, h' => by
    cases h' with
    | filesystem he ho =>
      exact absurd ho (x0 _ _ he)
    | filesystemFails _ =>
      exact ⟨rfl, rfl⟩
  | _, _, _, _, _, _, .print x0 x1 x2, h' => by
    cases h' with
    | print he' hp' ho' =>
      rw [ev_unique he' x0] at hp'
      rw [prints_unique hp' x1] at ho'
      exact outputs_unique x2 ho'
    | printFails h =>
      exact absurd x1 (h _ _ x0)
  | _, _, _, _, _, _, .printFails x0, h' => by
    cases h' with
    | print he hp _ =>
      exact absurd hp (x0 _ _ he)
    | printFails _ =>
      exact ⟨rfl, rfl⟩
  | _, _, _, _, _, _, .shown x0 x1 x2 x3, h' => by
    cases h' with
    | shown _ he' ht' ho' =>
      rw [ev_unique he' x1] at ht'
      rw [shows_unique ht' x2] at ho'
      exact outputs_unique x3 ho'
    | silent hi' _ =>
      exact absurd x0 hi'
    | exprFails h =>
      exact absurd x1 (h _)
  | _, _, _, _, _, _, .silent x0 x1, h' => by
    cases h' with
    | shown hi _ _ _ =>
      have hi' := x0
      exact absurd hi hi'
    | silent _ _ =>
      exact ⟨rfl, rfl⟩
    | exprFails h =>
      exact absurd x1 (h _)
  | _, _, _, _, _, _, .exprFails x0, h' => by
    cases h' with
    | shown _ he _ _ =>
      exact absurd he (x0 _)
    | silent _ he =>
      exact absurd he (x0 _)
    | exprFails _ =>
      exact ⟨rfl, rfl⟩
termination_by structural _ _ _ _ _ _ h _ => h
theorem runsAll_unique {cfg : Cfg} : ∀ {p : List Stmt} {σ a b : State} {o o' : Outcome},
    RunsAll (world cfg) p σ a o → RunsAll (world cfg) p σ b o' → a = b ∧ o = o'
  | _, _, _, _, _, _, .nil, h' => by
    cases h' with
    | nil  =>
      exact ⟨rfl, rfl⟩
  | _, _, _, _, _, _, .next x0 x1, h' => by
    cases h' with
    | next h1' h2' =>
      obtain ⟨e, -⟩ := runs_unique x0 h1'
      rw [← e] at h2'
      exact runsAll_unique x1 h2'
    | stop h1' ho =>
      exact absurd (runs_unique x0 h1').2.symm ho
  | _, _, _, _, _, _, .stop x0 x1, h' => by
    cases h' with
    | next h1' _ =>
      exact absurd (runs_unique x0 h1').2 x1
    | stop h1' _ =>
      exact runs_unique x0 h1'
termination_by structural _ _ _ _ _ _ h _ => h
theorem loops_unique {cfg : Cfg} : ∀ {c : Expr} {p : List Stmt} {σ a b : State} {o o' : Outcome},
    Loops (world cfg) c p σ a o → Loops (world cfg) c p σ b o' → a = b ∧ o = o'
  | _, _, _, _, _, _, _, .over x0, h' => by
    cases h' with
    | over _ =>
      exact ⟨rfl, rfl⟩
    | again he' _ _ _ =>
      have := bool_unique x0 he'; simp at this
    | broken he' _ =>
      have := bool_unique x0 he'; simp at this
    | ended he' _ _ =>
      have := bool_unique x0 he'; simp at this
    | condFails h =>
      exact absurd x0 (h _)
  | _, _, _, _, _, _, _, .condFails x0, h' => by
    cases h' with
    | over he =>
      exact absurd he (x0 _)
    | again he _ _ _ =>
      exact absurd he (x0 _)
    | broken he _ =>
      exact absurd he (x0 _)
    | ended he _ _ =>
      exact absurd he (x0 _)
    | condFails _ =>
      exact ⟨rfl, rfl⟩
  | _, _, _, _, _, _, _, .again x0 x1 x2 x3, h' => by
    cases h' with
    | over he =>
      have he' := x0
      have := bool_unique he he'; simp at this
    | again _ hb' _ hl' =>
      obtain ⟨e, -⟩ := runsAll_unique x1 hb'
      rw [← e] at hl'
      exact loops_unique x3 hl'
    | broken _ hb' =>
      obtain ⟨-, rfl⟩ := runsAll_unique x1 hb'; simp at x2
    | ended _ hb' ho' =>
      obtain ⟨-, rfl⟩ := runsAll_unique x1 hb'; rcases x2 with rfl | rfl <;> simp at ho'
    | condFails h =>
      exact absurd x0 (h _)
  | _, _, _, _, _, _, _, .broken x0 x1, h' => by
    cases h' with
    | over he =>
      have he' := x0
      have := bool_unique he he'; simp at this
    | again _ hb' ho _ =>
      obtain ⟨-, rfl⟩ := runsAll_unique x1 hb'; simp at ho
    | broken _ hb' =>
      exact ⟨(runsAll_unique x1 hb').1, rfl⟩
    | ended _ hb' ho =>
      obtain ⟨-, rfl⟩ := runsAll_unique x1 hb'; simp at ho
    | condFails h =>
      exact absurd x0 (h _)
  | _, _, _, _, _, _, _, .ended x0 x1 x2, h' => by
    cases h' with
    | over he =>
      have he' := x0
      have := bool_unique he he'; simp at this
    | again _ hb' ho' _ =>
      obtain ⟨-, rfl⟩ := runsAll_unique x1 hb'; rcases x2 with rfl | rfl <;> simp at ho'
    | broken _ hb' =>
      obtain ⟨-, rfl⟩ := runsAll_unique x1 hb'; simp at x2
    | ended _ hb' _ =>
      exact runsAll_unique x1 hb'
    | condFails h =>
      exact absurd x0 (h _)
termination_by structural _ _ _ _ _ _ _ h _ => h
theorem visits_unique {cfg : Cfg} : ∀ {x : Str} {p : List Stmt} {xs : List Value} {σ a b : State} {o o' : Outcome},
    Visits (world cfg) x p xs σ a o → Visits (world cfg) x p xs σ b o' → a = b ∧ o = o'
  | _, _, _, _, _, _, _, _, .over, h' => by
    cases h' with
    | over  =>
      exact ⟨rfl, rfl⟩
  | _, _, _, _, _, _, _, _, .again x0 x1 x2 x3, h' => by
    cases h' with
    | again ha' hb' _ hv' =>
      rw [← assigns_unique x0 ha'] at hb'
      obtain ⟨e, -⟩ := runsAll_unique x1 hb'
      rw [← e] at hv'
      exact visits_unique x3 hv'
    | broken ha' hb' =>
      rw [← assigns_unique x0 ha'] at hb'
      obtain ⟨-, rfl⟩ := runsAll_unique x1 hb'; simp at x2
    | ended ha' hb' ho' =>
      rw [← assigns_unique x0 ha'] at hb'
      obtain ⟨-, rfl⟩ := runsAll_unique x1 hb'; rcases x2 with rfl | rfl <;> simp at ho'
  | _, _, _, _, _, _, _, _, .broken x0 x1, h' => by
    cases h' with
    | again ha' hb' ho _ =>
      rw [← assigns_unique x0 ha'] at hb'
      obtain ⟨-, rfl⟩ := runsAll_unique x1 hb'; simp at ho
    | broken ha' hb' =>
      rw [← assigns_unique x0 ha'] at hb'
      exact ⟨(runsAll_unique x1 hb').1, rfl⟩
    | ended ha' hb' ho =>
      rw [← assigns_unique x0 ha'] at hb'
      obtain ⟨-, rfl⟩ := runsAll_unique x1 hb'; simp at ho
  | _, _, _, _, _, _, _, _, .ended x0 x1 x2, h' => by
    cases h' with
    | again ha' hb' ho' _ =>
      rw [← assigns_unique x0 ha'] at hb'
      obtain ⟨-, rfl⟩ := runsAll_unique x1 hb'; rcases x2 with rfl | rfl <;> simp at ho'
    | broken ha' hb' =>
      rw [← assigns_unique x0 ha'] at hb'
      obtain ⟨-, rfl⟩ := runsAll_unique x1 hb'; simp at x2
    | ended ha' hb' _ =>
      rw [← assigns_unique x0 ha'] at hb'
      exact runsAll_unique x1 hb'
termination_by structural _ _ _ _ _ _ _ _ h _ => h
end

end Btrd
