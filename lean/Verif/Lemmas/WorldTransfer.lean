/-
The rules of the language in two worlds that agree on the values that can arise (C85).
-/
import Verif.Lemmas.WorldFs
import Verif.Lemmas.WorldSearch
import Verif.Lemmas.WorldHist
import Verif.Props.Forever
import Verif.Lemmas.Complaints
import Verif.Spec.Session

namespace Btrd
open Spec

/-- the integer literals of the expression are in range -/
abbrev Lits (e : Expr) : Prop := ∀ i ∈ e.literals, Fits i

/-- two worlds that agree on the values that can arise -/
structure Alike (W₁ W₂ : World) : Prop where
  search : W₁.search = W₂.search
  cast : W₁.cast = W₂.cast
  opens : W₁.opens = W₂.opens
  wraps : W₁.wraps = W₂.wraps
  interactive : W₁.interactive = W₂.interactive
  diagram : ∀ {xs}, Good (.array xs true) → ∀ t, W₁.diagram xs t ↔ W₂.diagram xs t
  shows : ∀ {v}, Good v → ∀ t, W₁.shows v t ↔ W₂.shows v t
  evGood : ∀ {σ e v}, GoodVars σ.vars → Lits e → Ev W₁ σ e v → Ev W₂ σ e v → Good v
  runsGood : ∀ {s σ σ₁ o}, GoodVars σ.vars → s.AllE Lits → Runs W₁ s σ σ₁ o → Runs W₂ s σ σ₁ o → o ≠ .failed →
    GoodVars σ₁.vars
  allGood : ∀ {p σ σ₁ o}, GoodVars σ.vars → allE Lits p → RunsAll W₁ p σ σ₁ o → RunsAll W₂ p σ σ₁ o → o ≠ .failed →
    GoodVars σ₁.vars

theorem Alike.symm {W₁ W₂ : World} (h : Alike W₁ W₂) : Alike W₂ W₁ where
  search := h.search.symm
  cast := h.cast.symm
  opens := h.opens.symm
  wraps := h.wraps.symm
  interactive := h.interactive.symm
  diagram hg t := (h.diagram hg t).symm
  shows hg t := (h.shows hg t).symm
  evGood hg hl h1 h2 := h.evGood hg hl h2 h1
  runsGood hg hl h1 h2 := h.runsGood hg hl h2 h1
  allGood hg hl h1 h2 := h.allGood hg hl h2 h1

section
variable {W₁ W₂ : World}

theorem lits_app {e : Expr} {a b : List Int} (he : e.literals = a ++ b) (h : Lits e) :
    (∀ i ∈ a, Fits i) ∧ ∀ i ∈ b, Fits i := by
  unfold Lits at h
  rw [he] at h
  exact ⟨fun i hi => h i (List.mem_append_left _ hi), fun i hi => h i (List.mem_append_right _ hi)⟩

theorem lits_args {f : Expr} {args : List Expr} (h : Lits (.call f args)) : Lits f ∧ ∀ e ∈ args, Lits e := by
  obtain ⟨h1, h2⟩ := lits_app rfl h
  refine ⟨h1, ?_⟩
  clear h h1
  induction args with
  | nil => simp
  | cons e es ih =>
    rw [literalsL] at h2
    intro x hx
    rcases List.mem_cons.1 hx with rfl | hx
    · exact fun i hi => h2 i (List.mem_append_left _ hi)
    · exact ih (fun i hi => h2 i (List.mem_append_right _ hi)) x hx

theorem ev_alike (A : Alike W₁ W₂) {σ : State} (hg : GoodVars σ.vars) {e : Expr} {v : Value} (h : Ev W₁ σ e v) :
    Lits e → Ev W₂ σ e v := by
  induction h with
  | var h => exact fun _ => .var h
  | int i => exact fun _ => .int i
  | bool b => exact fun _ => .bool b
  | str s => exact fun _ => .str s
  | paren _ ih => exact fun hl => .paren (ih hl)
  | field _ h ih => exact fun hl => .field (ih hl) h
  | index _ _ h1 h2 ih1 ih2 => exact fun hl => .index (ih1 (lits_app rfl hl).1) (ih2 (lits_app rfl hl).2) h1 h2
  | ints _ _ h ih1 ih2 => exact fun hl => .ints (ih1 (lits_app rfl hl).1) (ih2 (lits_app rfl hl).2) h
  | append _ _ ih1 ih2 => exact fun hl => .append (ih1 (lits_app rfl hl).1) (ih2 (lits_app rfl hl).2)
  | concat _ _ ih1 ih2 => exact fun hl => .concat (ih1 (lits_app rfl hl).1) (ih2 (lits_app rfl hl).2)
  | same _ _ ih1 ih2 => exact fun hl => .same (ih1 (lits_app rfl hl).1) (ih2 (lits_app rfl hl).2)
  | differ _ _ h ih1 ih2 => exact fun hl => .differ (ih1 (lits_app rfl hl).1) (ih2 (lits_app rfl hl).2) h
  | notSame _ _ ih1 ih2 => exact fun hl => .notSame (ih1 (lits_app rfl hl).1) (ih2 (lits_app rfl hl).2)
  | notEq _ _ h ih1 ih2 => exact fun hl => .notEq (ih1 (lits_app rfl hl).1) (ih2 (lits_app rfl hl).2) h
  | orTrue _ ih => exact fun hl => .orTrue (ih (lits_app rfl hl).1)
  | orFalse _ _ ih1 ih2 => exact fun hl => .orFalse (ih1 (lits_app rfl hl).1) (ih2 (lits_app rfl hl).2)
  | andFalse _ ih => exact fun hl => .andFalse (ih (lits_app rfl hl).1)
  | andTrue _ _ ih1 ih2 => exact fun hl => .andTrue (ih1 (lits_app rfl hl).1) (ih2 (lits_app rfl hl).2)
  | bitNot _ h1 h2 ih => exact fun hl => .bitNot (ih hl) h1 h2
  | notInt _ ih => exact fun hl => .notInt (ih hl)
  | notBool _ ih => exact fun hl => .notBool (ih hl)
  | neg _ h ih => exact fun hl => .neg (ih hl) h
  | negMin h _ ih => exact fun hl => .negMin (A.wraps ▸ h) (ih hl)
  | cast _ h ih => exact fun hl => .cast (ih hl) (A.cast ▸ h)
  | key _ _ _ _ _ ih0 ih1 ih2 ih3 ih4 =>
    intro hl
    obtain ⟨hf, ha⟩ := lits_args hl
    exact .key (ih0 hf) (ih1 (ha _ (by simp))) (ih2 (ha _ (by simp))) (ih3 (ha _ (by simp))) (ih4 (ha _ (by simp)))
  | search _ _ _ h ih0 ih1 ih2 =>
    intro hl
    obtain ⟨hf, ha⟩ := lits_args hl
    exact .search (ih0 hf) (ih1 (ha _ (by simp))) (ih2 (ha _ (by simp))) (A.search ▸ h)
  | typeOf _ _ h ih0 ih1 => exact fun hl => .typeOf (ih0 (lits_args hl).1) (ih1 ((lits_args hl).2 _ (by simp))) h
  | keyOf _ _ ih0 ih1 => exact fun hl => .keyOf (ih0 (lits_args hl).1) (ih1 ((lits_args hl).2 _ (by simp)))
  | len _ _ h ih0 ih1 => exact fun hl => .len (ih0 (lits_args hl).1) (ih1 ((lits_args hl).2 _ (by simp))) h
  | hist _ ih => exact fun hl => .hist (ih (lits_args hl).1)
  | strStr _ _ ih0 ih1 => exact fun hl => .strStr (ih0 (lits_args hl).1) (ih1 ((lits_args hl).2 _ (by simp)))
  | strOther _ he hn h ih0 ih1 =>
    intro hl
    obtain ⟨hf, ha⟩ := lits_args hl
    have h' := ih1 (ha _ (by simp))
    exact .strOther (ih0 hf) h' hn ((A.shows (A.evGood hg (ha _ (by simp)) he h') _).1 h)

theorem ev_alike_iff (A : Alike W₁ W₂) {σ : State} (hg : GoodVars σ.vars) {e : Expr} (hl : Lits e) {v : Value} :
    Ev W₁ σ e v ↔ Ev W₂ σ e v :=
  ⟨fun h => ev_alike A hg h hl, fun h => ev_alike A.symm hg h hl⟩

theorem ev_good (A : Alike W₁ W₂) {σ : State} (hg : GoodVars σ.vars) {e : Expr} (hl : Lits e) {v : Value}
    (h : Ev W₁ σ e v) : Good v :=
  A.evGood hg hl h (ev_alike A hg h hl)

theorem target_alike (A : Alike W₁ W₂) {σ : State} (hg : GoodVars σ.vars) {e : Expr} {x : Str} {p : List Step}
    (h : Target W₁ σ e x p) : Lits e → Target W₂ σ e x p := by
  induction h with
  | var x => exact fun _ => .var x
  | field f _ ih => exact fun hl => .field f (ih hl)
  | index _ hi hn ih =>
    exact fun hl => .index (ih (lits_app rfl hl).1) (ev_alike A hg hi (lits_app rfl hl).2) hn

theorem stores_alike (A : Alike W₁ W₂) {σ : State} (hg : GoodVars σ.vars) {l : Expr} (hl : Lits l) {v : Value}
    {vs : Vars Value} (h : Stores W₁ σ l v vs) : Stores W₂ σ l v vs := by
  cases h with
  | var h => exact .var h
  | part hn ht ho hr hb => exact .part hn (target_alike A hg ht hl) ho hr hb

theorem prints_alike (A : Alike W₁ W₂) {v : Value} (hv : Good v) {t : Str} (h : Prints W₁ v t) : Prints W₂ v t := by
  cases h with
  | diagram h => exact .diagram ((A.diagram hv _).1 h)
  | string s => exact .string s
  | other h1 h2 h => exact .other h1 h2 ((A.shows hv _).1 h)

theorem goodVars_opened {σ : State} (h : GoodVars σ.vars) : GoodVars (opened σ).vars :=
  GoodVars.cons.2 ⟨by simp, h⟩

theorem goodVars_bind1 {s : Scope Value} {x : Str} {v : Value} (hv : Good v) (hs : ∀ y w, s y = some w → Good w) :
    ∀ y w, bind1 s x v y = some w → Good w := by
  intro y w h
  unfold bind1 at h
  split at h
  · cases h; exact hv
  · exact hs y w h

theorem goodVars_rebinds {x : Str} {v : Value} (hv : Good v) {vs vs' : Vars Value} (h : Rebinds x v vs vs') :
    GoodVars vs → GoodVars vs' := by
  induction h with
  | here _ =>
    intro hg
    rw [GoodVars.cons] at hg ⊢
    exact ⟨goodVars_bind1 hv hg.1, hg.2⟩
  | outer _ _ ih =>
    intro hg
    rw [GoodVars.cons] at hg ⊢
    exact ⟨hg.1, ih hg.2⟩

theorem goodVars_assigns {x : Str} {v : Value} (hv : Good v) {vs vs' : Vars Value} (h : Assigns x v vs vs')
    (hg : GoodVars vs) : GoodVars vs' := by
  cases h with
  | old h => exact goodVars_rebinds hv h hg
  | new _ =>
    rw [GoodVars.cons] at hg ⊢
    exact ⟨goodVars_bind1 hv hg.1, hg.2⟩

theorem cast_fn2 {α β : Type} {f g : α → β → Prop} (h : f = g) {a : α} {b : β} (hf : f a b) : g a b := h ▸ hf

mutual
theorem runs_alike (A : Alike W₁ W₂) : ∀ {s : Stmt} {σ σ' : State} {o : Outcome}, Runs W₁ s σ σ' o →
    GoodVars σ.vars → s.AllE Lits → Runs W₂ s σ σ' o
  | _, _, _, _, .assign he hs => fun hg hl => by
    rw [Stmt.AllE] at hl
    exact .assign (ev_alike A hg he hl.2) (stores_alike A hg hl.1 hs)
  | _, _, _, _, .assignFails h => fun hg hl => by
    rw [Stmt.AllE] at hl
    exact .assignFails fun v vs he hs => h v vs (ev_alike A.symm hg he hl.2) (stores_alike A.symm hg hl.1 hs)
  | _, _, _, _, .ifTrue he hr hc => fun hg hl => by
    rw [Stmt.AllE] at hl
    exact .ifTrue (ev_alike A (goodVars_opened hg) he hl.1) (runsAll_alike A hr (goodVars_opened hg) hl.2.1) hc
  | _, _, _, _, .ifFalse he hr hc => fun hg hl => by
    rw [Stmt.AllE] at hl
    exact .ifFalse (ev_alike A (goodVars_opened hg) he hl.1) (runsAll_alike A hr (goodVars_opened hg) hl.2.2) hc
  | _, _, _, _, .ifFails h => fun hg hl => by
    rw [Stmt.AllE] at hl
    exact .ifFails fun b he => h b (ev_alike A.symm (goodVars_opened hg) he hl.1)
  | _, _, _, _, .while hr hc => fun hg hl => by
    rw [Stmt.AllE] at hl
    exact .while (loops_alike A hr (goodVars_opened hg) hl.1 hl.2) hc
  | _, _, _, _, .for he hr hc => fun hg hl => by
    rw [Stmt.AllE] at hl
    exact .for (ev_alike A (goodVars_opened hg) he hl.2.1)
      (visits_alike A hr (goodVars_opened hg) hl.2.2 (good_array.1 (ev_good A (goodVars_opened hg) hl.2.1 he))) hc
  | _, _, _, _, .forFails h => fun hg hl => by
    rw [Stmt.AllE] at hl
    exact .forFails fun xs k he => h xs k (ev_alike A.symm (goodVars_opened hg) he hl.2.1)
  | _, _, _, _, .forNoName h => fun _ _ => .forNoName h
  | _, _, _, _, .brk => fun _ _ => .brk
  | _, _, _, _, .cont => fun _ _ => .cont
  | _, _, _, _, .quit => fun _ _ => .quit
  | _, _, _, _, .help h => fun _ _ => .help h
  | _, _, _, _, .filesystem he ho => fun hg hl => by
    rw [Stmt.AllE] at hl
    exact .filesystem (ev_alike A hg he hl) (cast_fn2 A.opens ho)
  | _, _, _, _, .filesystemFails h => fun hg hl => by
    rw [Stmt.AllE] at hl
    exact .filesystemFails fun s fs he ho => h s fs (ev_alike A.symm hg he hl) (cast_fn2 A.opens.symm ho)
  | _, _, _, _, .print he hp ho => fun hg hl => by
    rw [Stmt.AllE] at hl
    exact .print (ev_alike A hg he hl) (prints_alike A (ev_good A hg hl he) hp) ho
  | _, _, _, _, .printFails h => fun hg hl => by
    rw [Stmt.AllE] at hl
    exact .printFails fun v t he hp =>
      h v t (ev_alike A.symm hg he hl) (prints_alike A.symm (ev_good A.symm hg hl he) hp)
  | _, _, _, _, .shown hi he hp ho => fun hg hl => by
    rw [Stmt.AllE] at hl
    exact .shown (A.interactive.mp hi) (ev_alike A hg he hl) ((A.shows (ev_good A hg hl he) _).1 hp) ho
  | _, _, _, _, .silent hi he => fun hg hl => by
    rw [Stmt.AllE] at hl
    exact .silent (fun h => hi (A.interactive.mpr h)) (ev_alike A hg he hl)
  | _, _, _, _, .exprFails h => fun hg hl => by
    rw [Stmt.AllE] at hl
    exact .exprFails fun v he => h v (ev_alike A.symm hg he hl)
termination_by structural _ _ _ _ h => h
theorem runsAll_alike (A : Alike W₁ W₂) : ∀ {p : List Stmt} {σ σ' : State} {o : Outcome}, RunsAll W₁ p σ σ' o →
    GoodVars σ.vars → allE Lits p → RunsAll W₂ p σ σ' o
  | _, _, _, _, .nil => fun _ _ => .nil
  | _, _, _, _, .next h1 h2 => fun hg hl => by
    rw [allE] at hl
    have h' := runs_alike A h1 hg hl.1
    exact .next h' (runsAll_alike A h2 (A.runsGood hg hl.1 h1 h' (by simp)) hl.2)
  | _, _, _, _, .stop h ho => fun hg hl => by
    rw [allE] at hl
    exact .stop (runs_alike A h hg hl.1) ho
termination_by structural _ _ _ _ h => h
theorem loops_alike (A : Alike W₁ W₂) : ∀ {c : Expr} {b : List Stmt} {σ σ' : State} {o : Outcome}, Loops W₁ c b σ σ' o →
    GoodVars σ.vars → Lits c → allE Lits b → Loops W₂ c b σ σ' o
  | _, _, _, _, _, .over h => fun hg hc _ => .over (ev_alike A hg h hc)
  | _, _, _, _, _, .again h h1 ho h2 => fun hg hc hl =>
    have h' := runsAll_alike A h1 hg hl
    .again (ev_alike A hg h hc) h' ho (loops_alike A h2 (A.allGood hg hl h1 h' (not_failed ho)) hc hl)
  | _, _, _, _, _, .broken h h1 => fun hg hc hl => .broken (ev_alike A hg h hc) (runsAll_alike A h1 hg hl)
  | _, _, _, _, _, .ended h h1 ho => fun hg hc hl => .ended (ev_alike A hg h hc) (runsAll_alike A h1 hg hl) ho
  | _, _, _, _, _, .condFails h => fun hg hc _ => .condFails fun t he => h t (ev_alike A.symm hg he hc)
termination_by structural _ _ _ _ _ h => h
theorem visits_alike (A : Alike W₁ W₂) : ∀ {x : Str} {b : List Stmt} {xs : List Value} {σ σ' : State} {o : Outcome},
    Visits W₁ x b xs σ σ' o → GoodVars σ.vars → allE Lits b → (∀ v ∈ xs, Good v) → Visits W₂ x b xs σ σ' o
  | _, _, _, _, _, _, .over => fun _ _ _ => .over
  | _, _, _, _, _, _, .again ha h1 ho h2 => fun hg hl hx =>
    have hg' := goodVars_assigns (hx _ List.mem_cons_self) ha hg
    have h' := runsAll_alike A h1 hg' hl
    .again ha h' ho (visits_alike A h2 (A.allGood hg' hl h1 h' (not_failed ho)) hl fun v hv => hx v (List.mem_cons_of_mem _ hv))
  | _, _, _, _, _, _, .broken ha h1 => fun hg hl hx =>
    .broken ha (runsAll_alike A h1 (goodVars_assigns (hx _ List.mem_cons_self) ha hg) hl)
  | _, _, _, _, _, _, .ended ha h1 ho => fun hg hl hx =>
    .ended ha (runsAll_alike A h1 (goodVars_assigns (hx _ List.mem_cons_self) ha hg) hl) ho
termination_by structural _ _ _ _ _ _ h => h
end

theorem runsAll_alike_iff (A : Alike W₁ W₂) {p : List Stmt} {σ σ' : State} {o : Outcome} (hg : GoodVars σ.vars)
    (hl : allE Lits p) : RunsAll W₁ p σ σ' o ↔ RunsAll W₂ p σ σ' o :=
  ⟨fun h => runsAll_alike A h hg hl, fun h => runsAll_alike A.symm h hg hl⟩

end

/-! ### messages -/

/-- two sets of messages that agree where they are asked for -/
structure AlikeC (C₁ C₂ : Complaints) : Prop where
  search : ∀ x a k fs m, C₁.search x a (.struct s!' "_btrfs_ioctl_search_key" k fs) m ↔
    C₂.search x a (.struct s!' "_btrfs_ioctl_search_key" k fs) m
  cast : ∀ x name p m, C₁.cast x name p m ↔ C₂.cast x name p m
  opens : ∀ path m, C₁.opens path m ↔ C₂.opens path m

theorem AlikeC.symm {C₁ C₂ : Complaints} (h : AlikeC C₁ C₂) : AlikeC C₂ C₁ :=
  ⟨fun x a k fs m => (h.search x a k fs m).symm, fun x n p m => (h.cast x n p m).symm, fun p m => (h.opens p m).symm⟩

/-- literals of a part -/
macro "lits " h:term : tactic =>
  `(tactic| first | exact $h | exact (lits_app rfl $h).1 | exact (lits_app rfl $h).2 | exact (lits_args $h).1 |
    exact (lits_args $h).2 _ (by simp))

section
variable {W₁ W₂ : World} {C₁ C₂ : Complaints}

theorem complains_alike (A : Alike W₁ W₂) (D : AlikeC C₁ C₂) {σ : State} (hg : GoodVars σ.vars) {e : Expr} {m : Option Str}
    (h : Complains W₁ C₁ σ e m) : Lits e → Complains W₂ C₂ σ e m := by
  induction h with
  | var p0 => exact fun _ => .var p0
  | paren _ i0 => exact fun hl => .paren (i0 (by lits hl))
  | fieldOf _ i0 => exact fun hl => .fieldOf (i0 (by lits hl))
  | fieldKind p0 p1 => exact fun hl => .fieldKind (ev_alike A hg p0 (by lits hl)) p1
  | fieldNone p0 p1 => exact fun hl => .fieldNone (ev_alike A hg p0 (by lits hl)) p1
  | fieldName p0 p1 => exact fun hl => .fieldName (ev_alike A hg p0 (by lits hl)) p1
  | indexOf _ i0 => exact fun hl => .indexOf (i0 (by lits hl))
  | indexKind p0 p1 => exact fun hl => .indexKind (ev_alike A hg p0 (by lits hl)) p1
  | index p0 _ i1 => exact fun hl => .index (ev_alike A hg p0 (by lits hl)) (i1 (by lits hl))
  | indexInt p0 p1 p2 => exact fun hl => .indexInt (ev_alike A hg p0 (by lits hl)) (ev_alike A hg p1 (by lits hl)) p2
  | indexFar p0 p1 p2 => exact fun hl => .indexFar (ev_alike A hg p0 (by lits hl)) (ev_alike A hg p1 (by lits hl)) p2
  | indexNone p0 p1 p2 p3 => exact fun hl => .indexNone (ev_alike A hg p0 (by lits hl)) (ev_alike A hg p1 (by lits hl)) p2 p3
  | left _ i0 => exact fun hl => .left (i0 (by lits hl))
  | leftInt p0 p1 p2 => exact fun hl => .leftInt p0 (ev_alike A hg p1 (by lits hl)) p2
  | rightOfInt p0 p1 _ i2 => exact fun hl => .rightOfInt p0 (ev_alike A hg p1 (by lits hl)) (i2 (by lits hl))
  | rightInt p0 p1 p2 p3 => exact fun hl => .rightInt p0 (ev_alike A hg p1 (by lits hl)) (ev_alike A hg p2 (by lits hl)) p3
  | ints p0 p1 p2 => exact fun hl => .ints (ev_alike A hg p0 (by lits hl)) (ev_alike A hg p1 (by lits hl)) p2
  | rightOfAny p0 p1 _ i2 => exact fun hl => .rightOfAny p0 (ev_alike A hg p1 (by lits hl)) (i2 (by lits hl))
  | add p0 p1 p2 p3 p4 => exact fun hl => .add (ev_alike A hg p0 (by lits hl)) (ev_alike A hg p1 (by lits hl)) p2 p3 p4
  | leftBool p0 p1 p2 => exact fun hl => .leftBool p0 (ev_alike A hg p1 (by lits hl)) p2
  | rightOfOr p0 _ i1 => exact fun hl => .rightOfOr (ev_alike A hg p0 (by lits hl)) (i1 (by lits hl))
  | rightOfAnd p0 _ i1 => exact fun hl => .rightOfAnd (ev_alike A hg p0 (by lits hl)) (i1 (by lits hl))
  | orBool p0 p1 p2 => exact fun hl => .orBool (ev_alike A hg p0 (by lits hl)) (ev_alike A hg p1 (by lits hl)) p2
  | andBool p0 p1 p2 => exact fun hl => .andBool (ev_alike A hg p0 (by lits hl)) (ev_alike A hg p1 (by lits hl)) p2
  | operand _ i0 => exact fun hl => .operand (i0 (by lits hl))
  | bitNot p0 p1 => exact fun hl => .bitNot (ev_alike A hg p0 (by lits hl)) p1
  | minus p0 p1 => exact fun hl => .minus (ev_alike A hg p0 (by lits hl)) p1
  | not p0 p1 p2 => exact fun hl => .not (ev_alike A hg p0 (by lits hl)) p1 p2
  | castOf _ i0 => exact fun hl => .castOf (i0 (by lits hl))
  | castInt p0 p1 => exact fun hl => .castInt (ev_alike A hg p0 (by lits hl)) p1
  | castNegative p0 p1 => exact fun hl => .castNegative (ev_alike A hg p0 (by lits hl)) p1
  | castNoFs p0 p1 p2 p3 => exact fun hl => .castNoFs p0 (ev_alike A hg p1 (by lits hl)) p2 p3
  | cast p0 p1 p2 => exact fun hl => .cast (ev_alike A hg p0 (by lits hl)) p1 ((D.cast _ _ _ _).1 p2)
  | callee _ i0 => exact fun hl => .callee (i0 (by lits hl))
  | calleeKind p0 p1 => exact fun hl => .calleeKind (ev_alike A hg p0 (by lits hl)) p1
  | keyCount p0 p1 => exact fun hl => .keyCount (ev_alike A hg p0 (by lits hl)) p1
  | keyArg p0 p1 p2 _ i3 => exact fun hl => .keyArg (ev_alike A hg p0 (by lits hl)) p1 (fun x hx => (p2 x hx).elim fun a h => ⟨a, ev_alike A hg h ((lits_args hl).2 _ (by simp [hx]))⟩) (i3 (by lits hl))
  | keyInt p0 p1 p2 p3 p4 => exact fun hl => .keyInt (ev_alike A hg p0 (by lits hl)) p1 (fun x hx => (p2 x hx).elim fun a h => ⟨a, ev_alike A hg h ((lits_args hl).2 _ (by simp [hx]))⟩) (ev_alike A hg p3 (by lits hl)) p4
  | searchCount p0 p1 => exact fun hl => .searchCount (ev_alike A hg p0 (by lits hl)) p1
  | searchTree p0 _ i1 => exact fun hl => .searchTree (ev_alike A hg p0 (by lits hl)) (i1 (by lits hl))
  | searchInt p0 p1 p2 => exact fun hl => .searchInt (ev_alike A hg p0 (by lits hl)) (ev_alike A hg p1 (by lits hl)) p2
  | searchKey p0 p1 _ i2 => exact fun hl => .searchKey (ev_alike A hg p0 (by lits hl)) (ev_alike A hg p1 (by lits hl)) (i2 (by lits hl))
  | searchStruct p0 p1 p2 p3 => exact fun hl => .searchStruct (ev_alike A hg p0 (by lits hl)) (ev_alike A hg p1 (by lits hl)) (ev_alike A hg p2 (by lits hl)) p3
  | searchKind p0 p1 p2 p3 => exact fun hl => .searchKind (ev_alike A hg p0 (by lits hl)) (ev_alike A hg p1 (by lits hl)) (ev_alike A hg p2 (by lits hl)) p3
  | searchNoFs p0 p1 p2 p3 => exact fun hl => .searchNoFs (ev_alike A hg p0 (by lits hl)) (ev_alike A hg p1 (by lits hl)) (ev_alike A hg p2 (by lits hl)) p3
  | search p0 p1 p2 p3 p4 => exact fun hl => .search (ev_alike A hg p0 (by lits hl)) (ev_alike A hg p1 (by lits hl)) (ev_alike A hg p2 (by lits hl)) p3 ((D.search _ _ _ _ _).1 p4)
  | oneCount p0 p1 p2 => exact fun hl => .oneCount (ev_alike A hg p0 (by lits hl)) p1 p2
  | oneArg p0 p1 _ i2 => exact fun hl => .oneArg (ev_alike A hg p0 (by lits hl)) p1 (i2 (by lits hl))
  | keyOfStruct p0 p1 p2 => exact fun hl => .keyOfStruct (ev_alike A hg p0 (by lits hl)) (ev_alike A hg p1 (by lits hl)) p2
  | keyOfNone p0 p1 => exact fun hl => .keyOfNone (ev_alike A hg p0 (by lits hl)) (ev_alike A hg p1 (by lits hl))
  | lenArray p0 p1 p2 => exact fun hl => .lenArray (ev_alike A hg p0 (by lits hl)) (ev_alike A hg p1 (by lits hl)) p2
  | lenHuge p0 p1 p2 => exact fun hl => .lenHuge (ev_alike A hg p0 (by lits hl)) (ev_alike A hg p1 (by lits hl)) p2
  | histCount p0 p1 => exact fun hl => .histCount (ev_alike A hg p0 (by lits hl)) p1

theorem points_alike (A : Alike W₁ W₂) {σ : State} (hg : GoodVars σ.vars) {e : Expr} {x : Str} {p : List (Str ⊕ Int)}
    (h : Points W₁ σ e x p) : Lits e → Points W₂ σ e x p := by
  induction h with
  | var x => exact fun _ => .var x
  | field f _ ih => exact fun hl => .field f (ih hl)
  | index _ hi ih => exact fun hl => .index (ih (by lits hl)) (ev_alike A hg hi (by lits hl))

theorem noTarget_alike (A : Alike W₁ W₂) (D : AlikeC C₁ C₂) {σ : State} (hg : GoodVars σ.vars) {e : Expr} {m : Option Str}
    (h : NoTarget W₁ C₁ σ e m) : Lits e → NoTarget W₂ C₂ σ e m := by
  induction h with
  | var h => exact fun _ => .var h
  | fieldName h => exact fun _ => .fieldName h
  | field _ ih => exact fun hl => .field (ih hl)
  | index h => exact fun hl => .index (complains_alike A D hg h (by lits hl))
  | indexInt h hn => exact fun hl => .indexInt (ev_alike A hg h (by lits hl)) hn
  | indexOf h _ ih => exact fun hl => .indexOf (ev_alike A hg h (by lits hl)) (ih (by lits hl))
  | call => exact fun _ => .call
  | bin => exact fun _ => .bin
  | un => exact fun _ => .un
  | cast => exact fun _ => .cast
  | int => exact fun _ => .int
  | bool => exact fun _ => .bool
  | str => exact fun _ => .str
  | paren => exact fun _ => .paren

theorem storeFails_alike (A : Alike W₁ W₂) (D : AlikeC C₁ C₂) {σ : State} (hg : GoodVars σ.vars) {l : Expr} (hl : Lits l)
    {m : Option Str} (h : StoreFails W₁ C₁ σ l m) : StoreFails W₂ C₂ σ l m := by
  cases h with
  | target h1 h2 => exact .target h1 (noTarget_alike A D hg h2 hl)
  | blocked h1 h2 h3 => exact .blocked (points_alike A hg h1 hl) h2 h3

theorem condFails_alike (A : Alike W₁ W₂) (D : AlikeC C₁ C₂) {σ : State} (hg : GoodVars σ.vars) {c : Expr} (hl : Lits c)
    {m : Option Str} (h : CondFails W₁ C₁ σ c m) : CondFails W₂ C₂ σ c m := by
  cases h with
  | fails h => exact .fails (complains_alike A D hg h hl)
  | kind h hn => exact .kind (ev_alike A hg h hl) hn

mutual
theorem fails_alike (A : Alike W₁ W₂) (D : AlikeC C₁ C₂) : ∀ {s : Stmt} {σ : State} {m : Option Str}, Fails W₁ C₁ s σ m →
    GoodVars σ.vars → s.AllE Lits → Fails W₂ C₂ s σ m
  | _, _, _, .assignFrom h => fun hg hl => by
    rw [Stmt.AllE] at hl
    exact .assignFrom (complains_alike A D hg h hl.2)
  | _, _, _, .assignTo h h1 => fun hg hl => by
    rw [Stmt.AllE] at hl
    exact .assignTo (ev_alike A hg h hl.2) (storeFails_alike A D hg hl.1 h1)
  | _, _, _, .ifCond h => fun hg hl => by
    rw [Stmt.AllE] at hl
    exact .ifCond (condFails_alike A D (goodVars_opened hg) hl.1 h)
  | _, _, _, .ifTrue h h1 => fun hg hl => by
    rw [Stmt.AllE] at hl
    exact .ifTrue (ev_alike A (goodVars_opened hg) h hl.1) (failsAll_alike A D h1 (goodVars_opened hg) hl.2.1)
  | _, _, _, .ifFalse h h1 => fun hg hl => by
    rw [Stmt.AllE] at hl
    exact .ifFalse (ev_alike A (goodVars_opened hg) h hl.1) (failsAll_alike A D h1 (goodVars_opened hg) hl.2.2)
  | _, _, _, .while h => fun hg hl => by
    rw [Stmt.AllE] at hl
    exact .while (loopFails_alike A D h (goodVars_opened hg) hl.1 hl.2)
  | _, _, _, .forNoName h => fun _ _ => .forNoName h
  | _, _, _, .forRange h => fun hg hl => by
    rw [Stmt.AllE] at hl
    exact .forRange (complains_alike A D (goodVars_opened hg) h hl.2.1)
  | _, _, _, .forKind h hn => fun hg hl => by
    rw [Stmt.AllE] at hl
    exact .forKind (ev_alike A (goodVars_opened hg) h hl.2.1) hn
  | _, _, _, .forBody h h1 => fun hg hl => by
    rw [Stmt.AllE] at hl
    exact .forBody (ev_alike A (goodVars_opened hg) h hl.2.1) (visitFails_alike A D h1 (goodVars_opened hg) hl.2.2
      (good_array.1 (ev_good A (goodVars_opened hg) hl.2.1 h)))
  | _, _, _, .help h => fun _ _ => .help h
  | _, _, _, .filesystemOf h => fun hg hl => by
    rw [Stmt.AllE] at hl
    exact .filesystemOf (complains_alike A D hg h hl)
  | _, _, _, .filesystemKind h hn => fun hg hl => by
    rw [Stmt.AllE] at hl
    exact .filesystemKind (ev_alike A hg h hl) hn
  | _, _, _, .filesystem h ho => fun hg hl => by
    rw [Stmt.AllE] at hl
    exact .filesystem (ev_alike A hg h hl) ((D.opens _ _).1 ho)
  | _, _, _, .printOf h => fun hg hl => by
    rw [Stmt.AllE] at hl
    exact .printOf (complains_alike A D hg h hl)
  | _, _, _, .printNoDiagram h h1 h2 => fun hg hl => by
    rw [Stmt.AllE] at hl
    exact .printNoDiagram (ev_alike A hg h hl) h1 h2
  | _, _, _, .printFull h hp ho => fun hg hl => by
    rw [Stmt.AllE] at hl
    exact .printFull (ev_alike A hg h hl) (prints_alike A (ev_good A hg hl h) hp) ho
  | _, _, _, .exprOf h => fun hg hl => by
    rw [Stmt.AllE] at hl
    exact .exprOf (complains_alike A D hg h hl)
  | _, _, _, .exprFull hi h hp ho => fun hg hl => by
    rw [Stmt.AllE] at hl
    exact .exprFull (A.interactive.mp hi) (ev_alike A hg h hl) ((A.shows (ev_good A hg hl h) _).1 hp) ho
termination_by structural _ _ _ h => h
theorem failsAll_alike (A : Alike W₁ W₂) (D : AlikeC C₁ C₂) : ∀ {p : List Stmt} {σ : State} {m : Option Str},
    FailsAll W₁ C₁ p σ m → GoodVars σ.vars → allE Lits p → FailsAll W₂ C₂ p σ m
  | _, _, _, .here h => fun hg hl => by
    rw [allE] at hl
    exact .here (fails_alike A D h hg hl.1)
  | _, _, _, .later h h1 => fun hg hl => by
    rw [allE] at hl
    have h' := runs_alike A h hg hl.1
    exact .later h' (failsAll_alike A D h1 (A.runsGood hg hl.1 h h' (by simp)) hl.2)
termination_by structural _ _ _ h => h
theorem loopFails_alike (A : Alike W₁ W₂) (D : AlikeC C₁ C₂) : ∀ {c : Expr} {b : List Stmt} {σ : State} {m : Option Str},
    LoopFails W₁ C₁ c b σ m → GoodVars σ.vars → Lits c → allE Lits b → LoopFails W₂ C₂ c b σ m
  | _, _, _, _, .cond h => fun hg hc _ => .cond (condFails_alike A D hg hc h)
  | _, _, _, _, .body h h1 => fun hg hc hl => .body (ev_alike A hg h hc) (failsAll_alike A D h1 hg hl)
  | _, _, _, _, .later h h1 ho h2 => fun hg hc hl =>
    have h' := runsAll_alike A h1 hg hl
    .later (ev_alike A hg h hc) h' ho (loopFails_alike A D h2 (A.allGood hg hl h1 h' (not_failed ho)) hc hl)
termination_by structural _ _ _ _ h => h
theorem visitFails_alike (A : Alike W₁ W₂) (D : AlikeC C₁ C₂) : ∀ {x : Str} {b : List Stmt} {xs : List Value} {σ : State}
    {m : Option Str}, VisitFails W₁ C₁ x b xs σ m → GoodVars σ.vars → allE Lits b → (∀ v ∈ xs, Good v) →
    VisitFails W₂ C₂ x b xs σ m
  | _, _, _, _, _, .body ha h => fun hg hl hx =>
    .body ha (failsAll_alike A D h (goodVars_assigns (hx _ List.mem_cons_self) ha hg) hl)
  | _, _, _, _, _, .later ha h1 ho h2 => fun hg hl hx =>
    have hg' := goodVars_assigns (hx _ List.mem_cons_self) ha hg
    have h' := runsAll_alike A h1 hg' hl
    .later ha h' ho (visitFails_alike A D h2 (A.allGood hg' hl h1 h' (not_failed ho)) hl
      fun v hv => hx v (List.mem_cons_of_mem _ hv))
termination_by structural _ _ _ _ _ h => h
end

theorem failsAll_alike_iff (A : Alike W₁ W₂) (D : AlikeC C₁ C₂) {p : List Stmt} {σ : State} {m : Option Str}
    (hg : GoodVars σ.vars) (hl : allE Lits p) : FailsAll W₁ C₁ p σ m ↔ FailsAll W₂ C₂ p σ m :=
  ⟨fun h => failsAll_alike A D h hg hl, fun h => failsAll_alike A.symm D.symm h hg hl⟩

end

/-! ### sessions -/

section
variable {W₁ W₂ : World}

theorem goodVars_closes {σ σ' : State} (hc : Closes σ σ') (h : GoodVars σ.vars) : GoodVars σ'.vars := by
  obtain ⟨s, hs, -, -⟩ := hc
  rw [hs, GoodVars.cons] at h
  exact h.2

theorem outputs_vars {t : Str} {σ σ' : State} {o : Outcome} (h : Outputs t σ σ' o) : σ'.vars = σ.vars := by
  cases h <;> rfl

mutual
theorem runs_good (A : Alike W₁ W₂) : ∀ {s : Stmt} {σ σ' : State} {o : Outcome}, Runs W₁ s σ σ' o →
    GoodVars σ.vars → s.AllE Lits → GoodVars σ'.vars
  | _, _, _, _, .assign he hs => fun hg hl =>
    have h : Runs W₁ _ _ _ _ := .assign he hs
    A.runsGood hg hl h (runs_alike A h hg hl) (by simp)
  | _, _, _, _, .assignFails _ => fun hg _ => hg
  | _, _, _, _, .ifTrue _ hr hc => fun hg hl => by
    rw [Stmt.AllE] at hl
    exact goodVars_closes hc (runsAll_good A hr (goodVars_opened hg) hl.2.1)
  | _, _, _, _, .ifFalse _ hr hc => fun hg hl => by
    rw [Stmt.AllE] at hl
    exact goodVars_closes hc (runsAll_good A hr (goodVars_opened hg) hl.2.2)
  | _, _, _, _, .ifFails _ => fun hg _ => hg
  | _, _, _, _, .while hr hc => fun hg hl => by
    rw [Stmt.AllE] at hl
    exact goodVars_closes hc (loops_good A hr (goodVars_opened hg) hl.2)
  | _, _, _, _, .for he hr hc => fun hg hl => by
    rw [Stmt.AllE] at hl
    exact goodVars_closes hc (visits_good A hr (goodVars_opened hg) hl.2.2
      (good_array.1 (ev_good A (goodVars_opened hg) hl.2.1 he)))
  | _, _, _, _, .forFails _ => fun hg _ => hg
  | _, _, _, _, .forNoName _ => fun hg _ => hg
  | _, _, _, _, .brk => fun hg _ => hg
  | _, _, _, _, .cont => fun hg _ => hg
  | _, _, _, _, .quit => fun hg _ => hg
  | _, _, _, _, .help h => fun hg _ => by rw [outputs_vars h]; exact hg
  | _, _, _, _, .filesystem _ _ => fun hg _ => hg
  | _, _, _, _, .filesystemFails _ => fun hg _ => hg
  | _, _, _, _, .print _ _ h => fun hg _ => by rw [outputs_vars h]; exact hg
  | _, _, _, _, .printFails _ => fun hg _ => hg
  | _, _, _, _, .shown _ _ _ h => fun hg _ => by rw [outputs_vars h]; exact hg
  | _, _, _, _, .silent _ _ => fun hg _ => hg
  | _, _, _, _, .exprFails _ => fun hg _ => hg
termination_by structural _ _ _ _ h => h
theorem runsAll_good (A : Alike W₁ W₂) : ∀ {p : List Stmt} {σ σ' : State} {o : Outcome}, RunsAll W₁ p σ σ' o →
    GoodVars σ.vars → allE Lits p → GoodVars σ'.vars
  | _, _, _, _, .nil => fun hg _ => hg
  | _, _, _, _, .next h1 h2 => fun hg hl => by
    rw [allE] at hl
    exact runsAll_good A h2 (runs_good A h1 hg hl.1) hl.2
  | _, _, _, _, .stop h _ => fun hg hl => by
    rw [allE] at hl
    exact runs_good A h hg hl.1
termination_by structural _ _ _ _ h => h
theorem loops_good (A : Alike W₁ W₂) : ∀ {c : Expr} {b : List Stmt} {σ σ' : State} {o : Outcome}, Loops W₁ c b σ σ' o →
    GoodVars σ.vars → allE Lits b → GoodVars σ'.vars
  | _, _, _, _, _, .over _ => fun hg _ => hg
  | _, _, _, _, _, .again _ h1 _ h2 => fun hg hl => loops_good A h2 (runsAll_good A h1 hg hl) hl
  | _, _, _, _, _, .broken _ h1 => fun hg hl => runsAll_good A h1 hg hl
  | _, _, _, _, _, .ended _ h1 _ => fun hg hl => runsAll_good A h1 hg hl
  | _, _, _, _, _, .condFails _ => fun hg _ => hg
termination_by structural _ _ _ _ _ h => h
theorem visits_good (A : Alike W₁ W₂) : ∀ {x : Str} {b : List Stmt} {xs : List Value} {σ σ' : State} {o : Outcome},
    Visits W₁ x b xs σ σ' o → GoodVars σ.vars → allE Lits b → (∀ v ∈ xs, Good v) → GoodVars σ'.vars
  | _, _, _, _, _, _, .over => fun hg _ _ => hg
  | _, _, _, _, _, _, .again ha h1 _ h2 => fun hg hl hx =>
    visits_good A h2 (runsAll_good A h1 (goodVars_assigns (hx _ List.mem_cons_self) ha hg) hl) hl
      fun v hv => hx v (List.mem_cons_of_mem _ hv)
  | _, _, _, _, _, _, .broken ha h1 => fun hg hl hx =>
    runsAll_good A h1 (goodVars_assigns (hx _ List.mem_cons_self) ha hg) hl
  | _, _, _, _, _, _, .ended ha h1 _ => fun hg hl hx =>
    runsAll_good A h1 (goodVars_assigns (hx _ List.mem_cons_self) ha hg) hl
termination_by structural _ _ _ _ _ _ h => h
end

theorem talks_alike (A : Alike W₁ W₂) {program : Str → Option (List Stmt)} (hp : ∀ s p, program s = some p → allE Lits p)
    {D D' : Names} {σ σ' : State} {es : List ReplEvent} {r : ReplStatus} (h : Talks W₁ program D σ es D' σ' r) :
    GoodVars σ.vars → Talks W₂ program D σ es D' σ' r := by
  induction h with
  | waits => exact fun _ => .waits
  | noise h _ ih => exact fun hg => .noise h (ih hg)
  | eof => exact fun _ => .eof
  | unreadable h _ ih => exact fun hg => .unreadable h (ih hg)
  | refused h1 h2 h3 _ ih => exact fun hg => .refused h1 h2 h3 (ih hg)
  | runs h1 h2 h3 h4 h5 _ ih =>
    exact fun hg => .runs h1 h2 h3 (runsAll_alike A h4 hg (hp _ _ h1)) h5 (ih (runsAll_good A h4 hg (hp _ _ h1)))
  | quits h1 h2 h3 h4 => exact fun hg => .quits h1 h2 h3 (runsAll_alike A h4 hg (hp _ _ h1))

end

/-! ### the world of the code and the world of the manual -/

/-- a build wraps around if it has no overflow checks -/
abbrev Cfg.wraps (cfg : Cfg) : Prop := cfg.build.ovfChecks = false

/-- the manual's world of a run -/
abbrev manual (cfg : Cfg) : World := theWorld cfg.host cfg.wraps (cfg.interactive = true)

/-- the manual's messages -/
abbrev manualC (cfg : Cfg) : Complaints := theComplaints cfg.host cfg.wraps

theorem alike (cfg : Cfg) : Alike (world cfg) (manual cfg) where
  search := by funext fs tree key v; exact propext (search_iff cfg fs tree key v)
  cast := by funext fs name p v; exact propext (cast_iff cfg.build fs name p v)
  opens := by funext path fs; exact propext (opens_iff cfg.host path fs)
  wraps := rfl
  interactive := rfl
  diagram hg t := drawn_iff cfg.build _ (fun i hi => good_int.1 (good_array.1 hg _ hi)) t
  shows hg t := C78_shows cfg _ hg.2 t
  evGood hg hl h _ := by
    obtain ⟨n, hn⟩ := ev_gives h
    exact evalExpr_good _ _ hg _ hl _ (hn n (Nat.le_refl n))
  runsGood hg hl h _ ho := runs_inv (fun n => good_closed (cfg.steps n)) hl h ho hg
  allGood hg hl h _ ho := runsAll_inv (fun n => good_closed (cfg.steps n)) hl h ho hg

theorem alikeC (cfg : Cfg) : AlikeC (complaints cfg) (manualC cfg) where
  search x a k fs m := search_fails_iff cfg x a k fs m
  cast x name p m := cast_fails_iff cfg.build x name p m
  opens path m := open_fails_iff cfg.host path m

end Btrd
