/-
C79: what can run forever.
-/
import Verif.Lemmas.ForeverStmt
import Verif.Lemmas.ForeverWait
import Verif.Lemmas.Changing
import Verif.Props.Ioctl
import Verif.Props.Good
import Verif.Props.Rules
import Verif.Props.Scripts

namespace Btrd
open Spec

theorem program_diverge {cfg : Cfg} {p : List Stmt} {σ : State} :
    (evalProgram cfg p σ).2 = .fail .diverge ↔ (evalStmts cfg p σ).2 = .fail .diverge := by
  unfold evalProgram
  generalize evalStmts cfg p σ = r
  obtain ⟨τ, r⟩ := r
  cases r <;> simp [IRes.toEvalResult]

/-- **C79** Evaluating an expression takes more steps than any bound if and only if it gets to a search that never
answers; which one it gets to is a matter of the rules of the language. -/
theorem C79_expression (cfg : Cfg) (σ : State) (e : Expr) :
    (∀ n, evalExpr (cfg.steps n) σ e = .error .diverge) ↔ EvHangs (world cfg) (waits cfg) σ e :=
  hang_iff

/-- **C79** A program takes more steps than any bound if and only if, by the rules of the language, it gets to a
statement that never ends for a reason of its own: a loop with no end of complete iterations, an expression that
never ends, or a diagram that is never finished. -/
theorem C79_program (cfg : Cfg) (p : List Stmt) (σ : State) :
    (∀ n, (evalProgram (cfg.steps n) p σ).2 = .fail .diverge) ↔
      ∃ s τ, ReachesAll (world cfg) p σ s τ ∧ Stuck (world cfg) (waits cfg) s τ := by
  rw [← allHang_iff]
  exact ⟨fun h n => program_diverge.1 (h n), fun h n => program_diverge.2 (h n)⟩

/-- **C79** Every other program ends: from some bound on it has one and the same effect and result, the one the
rules give. -/
theorem C79_ends (cfg : Cfg) (p : List Stmt) (σ : State)
    (h : ¬ ∃ s τ, ReachesAll (world cfg) p σ s τ ∧ Stuck (world cfg) (waits cfg) s τ) :
    ∃ n σ' r o, (∀ m, n ≤ m → evalProgram (cfg.steps m) p σ = (σ', r)) ∧ r ≠ .fail .diverge ∧
      RunsAll (world cfg) p σ σ' o ∧ Ends r o := by
  rw [← allHang_iff] at h
  obtain ⟨n, σ', r, hr, hm, hall⟩ := ends_of_not_hang h
  refine ⟨n, σ', r.toEvalResult, kind r, fun m hnm => ?_, ?_, hall, ends_kind hr⟩
  · unfold evalProgram
    rw [hm m hnm]
  · cases r <;> simp_all [IRes.toEvalResult]

/-- **C79** A search never answers only if the filesystem is mounted and the kernel keeps answering with items,
call after call without end, to requests that differ only in the smallest key they ask for. -/
theorem C79_search (cfg : Cfg) (fs : Option Fs) (tree : Int) (k : Value) (h : (waits cfg).search fs tree k) :
    ∃ (kernel : Kernel) (a : SearchArgs), fs = some (.mounted kernel) ∧ ((a.treeId : Nat) : Int) = tree ∧
      ∀ i, ∃ nr buf o t f, kernel i { a with minObjectid := o, minType := t, minOffset := f } = .data nr buf ∧ 0 < nr := by
  obtain ⟨kernel, key, sa, hfs, hkey, hsa, h⟩ := search_waits h
  refine ⟨kernel, sa, hfs, ?_, fun i => ?_⟩
  · unfold searchArgs at hsa
    obtain ⟨t, ht, hsa⟩ := bind_ok hsa
    iterate 8 obtain ⟨_, -, hsa⟩ := bind_ok hsa
    cases hsa
    exact (tryUnsigned_inv ht).1.symm
  · have := searchLoop_hangs kernel true (i + 1) 0 sa [] 0 (h (i + 1)) i (by omega)
    rwa [Nat.zero_add] at this

/-- **C79** So it does answer, be it with an error, if the kernel keeps its promise. -/
theorem C79_honest_search (cfg : Cfg) (fs : Option Fs) (hh : HonestFs fs) (tree : Int) (k : Value) :
    ¬ (waits cfg).search fs tree k := by
  intro h
  obtain ⟨kernel, key, sa, rfl, hkey, hsa, h⟩ := search_waits h
  obtain ⟨trees, hw, hk⟩ := hh kernel rfl
  have hr := C90_requests_in_range tree key sa hsa
  simp only [InRange, List.mem_cons, List.not_mem_nil, or_false, forall_eq_or_imp, forall_eq] at hr
  exact searchLoop_each hk hw sa hr.1.2.1 hr.2.1 hr.1.2.2.2.1 _ (Nat.lt_succ_self _) (h _)

/-- **C79** Printing a histogram never ends exactly if there is a value above `2^125` (in a build with overflow
checks, it may panic first). -/
theorem C79_diagram (cfg : Cfg) (xs : List Value) (hf : ∀ i, Value.int i ∈ xs → Fits i) :
    (waits cfg).diagram xs ↔ Unfinished cfg.build.ovfChecks xs :=
  diagram_iff cfg.build xs hf

/-! ### honest systems -/

theorem honest_hangs {cfg : Cfg} {σ : State} (hh : HonestFs σ.fs) {e : Expr} :
    ¬ EvHangs (world cfg) (waits cfg) σ e := by
  intro h
  induction h with
  | search _ _ _ h => exact C79_honest_search cfg σ.fs hh _ _ h
  | _ => assumption

theorem honest_target {cfg : Cfg} {σ : State} (hh : HonestFs σ.fs) {e : Expr} :
    ¬ TargetHangs (world cfg) (waits cfg) σ e := by
  intro h
  induction h with
  | index h => exact honest_hangs hh h
  | base _ _ ih => exact ih
  | field _ ih => exact ih

/-- what is known about the states of a session on an honest system -/
def HonestState (σ : State) : Prop := GoodVars σ.vars ∧ HonestFs σ.fs

theorem honest_new {h : Host} (hh : HonestHost h) {path : Str} {fs : Fs} (hn : Fs.new h path = .ok fs) :
    HonestFs (some fs) := by
  intro k hk
  cases hk
  unfold Fs.new at hn
  split at hn
  · rename_i d hd
    unfold Fs.newMounted at hn
    split at hn
    · cases hn
    · split at hn
      · cases hn; exact hh path d hd
      · cases hn
  · split at hn
    · unfold Fs.newUnmounted at hn
      split at hn
      · cases hn
      · split at hn <;> cases hn
    · cases hn

theorem write_fs (st : State) (s : Str) : (st.write s).1.fs = st.fs := by
  unfold State.write
  split <;> rfl

theorem assign_fs (cfg : Cfg) (st : State) (l r : Expr) : (evalAssign cfg st l r).1.fs = st.fs := by
  unfold evalAssign
  split
  · rfl
  · split
    · split <;> rfl
    · split <;> rfl

theorem honest_closed (cfg : Cfg) (hh : HonestHost cfg.host) :
    InvClosed cfg (fun e => ∀ i ∈ e.literals, Fits i) HonestState where
  push st h := ⟨(good_closed cfg).push st h.1, h.2⟩
  pop st vs h hp := ⟨(good_closed cfg).pop st vs h.1 hp, h.2⟩
  assign st l r hl hr h := ⟨(good_closed cfg).assign st l r hl hr h.1, by rw [assign_fs]; exact h.2⟩
  filesystem st e he h := by
    refine ⟨(good_closed cfg).filesystem st e he h.1, ?_⟩
    unfold evalFilesystem
    split
    · exact h.2
    · split
      · exact h.2
      · split
        · exact h.2
        · rename_i hn; exact honest_new hh hn
  write st s h := ⟨(good_closed cfg).write st s h.1, by rw [write_fs]; exact h.2⟩
  bind st e items k he h hev v hv st' name vs h' hi := ⟨(good_closed cfg).bind st e items k he h.1 hev v hv st' name vs h'.1 hi, h'.2⟩

section
variable {cfg : Cfg} {PE : Expr → Prop} {I : State → Prop}

/-- what the rules run keeps what every bounded run keeps -/
theorem runs_inv (h : ∀ n, InvClosed (cfg.steps n) PE I) {s : Stmt} (hs : s.AllE PE) {σ σ₁ : State} {o : Outcome}
    (hr : Runs (world cfg) s σ σ₁ o) (ho : o ≠ .failed) (hi : I σ) : I σ₁ := by
  obtain ⟨n, hn⟩ := (meets_stmt hr).2 ho
  have := evalStmt_inv (h n) s hs σ hi
  have h' := (hn n (Nat.le_refl n)).1
  dsimp only at h'
  rwa [h'] at this

theorem runsAll_inv (h : ∀ n, InvClosed (cfg.steps n) PE I) {p : List Stmt} (hs : allE PE p) {σ σ₁ : State} {o : Outcome}
    (hr : RunsAll (world cfg) p σ σ₁ o) (ho : o ≠ .failed) (hi : I σ) : I σ₁ := by
  obtain ⟨n, hn⟩ := (meets_stmts hr).2 ho
  have := evalStmts_inv (h n) p hs σ hi
  have h' := (hn n (Nat.le_refl n)).1
  dsimp only at h'
  rwa [h'] at this

theorem not_failed {o : Outcome} (ho : o = .done ∨ o = .cont) : o ≠ .failed := by
  rcases ho with rfl | rfl <;> simp

theorem turns_inv (h : ∀ n, InvClosed (cfg.steps n) PE I) {c : Expr} {b : List Stmt} (hs : allE PE b) {k : Nat}
    {σ σ₁ : State} (ht : Turns (world cfg) c b k σ σ₁) : I σ → I σ₁ := by
  induction ht with
  | zero => exact id
  | succ _ hr ho _ ih => exact fun hi => ih (runsAll_inv h hs hr (not_failed ho) hi)

theorem visited_inv (h : ∀ n, InvClosed (cfg.steps n) PE I) {x : Str} {b : List Stmt} (hs : allE PE b)
    {before : List Value} {σ σ₁ : State} (hb : ∀ v ∈ before, ∀ st vs, I st → Assigns x v st.vars vs → I { st with vars := vs })
    (hv : Visited (world cfg) x b before σ σ₁) : I σ → I σ₁ := by
  induction hv with
  | nil => exact id
  | cons ha hr ho _ ih =>
    exact fun hi => ih (fun v hv => hb v (by simp [hv])) (runsAll_inv h hs hr (not_failed ho) (hb _ (by simp) _ _ hi ha))

mutual
theorem reaches_inv (h : ∀ n, InvClosed (cfg.steps n) PE I) {t : Stmt} {τ : State} : ∀ {s : Stmt} {σ : State},
    Reaches (world cfg) s σ t τ → s.AllE PE → I σ → t.AllE PE ∧ I τ
  | _, _, .self, hs, hi => ⟨hs, hi⟩
  | .ite _ _ _, σ, .thenBranch _ hr, hs, hi => reachesAll_inv h hr hs.2.1 ((h 0).push σ hi)
  | .ite _ _ _, σ, .elseBranch _ hr, hs, hi => reachesAll_inv h hr hs.2.2 ((h 0).push σ hi)
  | .while _ _, σ, .whileBody ht _ hr, hs, hi => reachesAll_inv h hr hs.2 (turns_inv h hs.2 ht ((h 0).push σ hi))
  | .for (.ident x) e b, σ, .forBody (before := before) (v := v) (after := after) (h := k) hv hvis ha hr, hs, hi => by
    have key : ∀ w ∈ before ++ v :: after, ∀ st vs, I st → Assigns x w st.vars vs → I { st with vars := vs } := by
      obtain ⟨n, hn⟩ := ev_gives hv
      have hn := hn n (Nat.le_refl n)
      exact fun w hw st vs hi' ha => (h n).bind _ _ _ _ hs.2.1 ((h n).push σ hi) hn w hw st x vs hi' (insert_iff.2 ha)
    exact reachesAll_inv h hr hs.2.2 (key v (by simp) _ _
      (visited_inv h hs.2.2 (fun w hw => key w (by simp [hw])) hvis ((h 0).push σ hi)) ha)
theorem reachesAll_inv (h : ∀ n, InvClosed (cfg.steps n) PE I) {t : Stmt} {τ : State} : ∀ {p : List Stmt} {σ : State},
    ReachesAll (world cfg) p σ t τ → allE PE p → I σ → t.AllE PE ∧ I τ
  | _ :: _, _, .head hr, hs, hi => reaches_inv h hr hs.1 hi
  | _ :: _, _, .tail hrun hr, hs, hi => reachesAll_inv h hr hs.2 (runs_inv h hs.1 hrun (by simp) hi)
end

mutual
theorem reaches_noWhile {t : Stmt} {τ : State} {W : World} : ∀ {s : Stmt} {σ : State},
    Reaches W s σ t τ → NoWhile s → NoWhile t
  | _, _, .self, hs => hs
  | .ite _ _ _, _, .thenBranch _ hr, hs => reachesAll_noWhile hr (by rw [NoWhile] at hs; exact hs.1)
  | .ite _ _ _, _, .elseBranch _ hr, hs => reachesAll_noWhile hr (by rw [NoWhile] at hs; exact hs.2)
  | .while _ _, _, .whileBody _ _ _, hs => by rw [NoWhile] at hs; exact hs.elim
  | .for (.ident _) _ _, _, .forBody _ _ _ hr, hs => reachesAll_noWhile hr (by rw [NoWhile] at hs; exact hs)
theorem reachesAll_noWhile {t : Stmt} {τ : State} {W : World} : ∀ {p : List Stmt} {σ : State},
    ReachesAll W p σ t τ → NoWhiles p → NoWhile t
  | _ :: _, _, .head hr, hs => reaches_noWhile hr (by rw [NoWhiles] at hs; exact hs.1)
  | _ :: _, _, .tail _ hr, hs => reachesAll_noWhile hr (by rw [NoWhiles] at hs; exact hs.2)
end
end

/-- what is printed has good integers -/
theorem printed_fits {cfg : Cfg} {σ : State} (hg : GoodVars σ.vars) {e : Expr} (he : ∀ i ∈ e.literals, Fits i)
    {xs : List Value} {h : Bool} (hv : Ev (world cfg) σ e (.array xs h)) : ∀ i, Value.int i ∈ xs → Fits i := by
  obtain ⟨n, hn⟩ := ev_gives hv
  have g := evalExpr_good (cfg.steps n) σ hg e he _ (hn n (Nat.le_refl n))
  exact fun i hi => good_int.1 (good_array.1 g _ hi)

/-- **C79** On an honest system, a program never ends if and only if it gets to a `while` loop with no end of
complete iterations, or prints a histogram with a value above `2^125`. -/
theorem C79_honest_program (cfg : Cfg) (hh : HonestHost cfg.host) (p : List Stmt)
    (hp : allE (fun e => ∀ i ∈ e.literals, Fits i) p) (σ : State) (hg : GoodVars σ.vars) (hf : HonestFs σ.fs) :
    (∀ n, (evalProgram (cfg.steps n) p σ).2 = .fail .diverge) ↔
      ∃ s τ, ReachesAll (world cfg) p σ s τ ∧
        ((∃ c b, s = .while c b ∧ ∀ k, ∃ τ', Turns (world cfg) c b k (opened τ) τ') ∨
         (∃ e xs, s = .print e ∧ Ev (world cfg) τ e (.array xs true) ∧ Unfinished cfg.build.ovfChecks xs)) := by
  rw [C79_program]
  constructor
  · rintro ⟨s, τ, hr, hs⟩
    obtain ⟨he, hg', hf'⟩ := reachesAll_inv (fun n => honest_closed (cfg.steps n) hh) hr hp ⟨hg, hf⟩
    refine ⟨s, τ, hr, ?_⟩
    cases hs with
    | assign h => exact absurd h (honest_hangs hf')
    | target _ h => exact absurd h (honest_target hf')
    | cond h => exact absurd h (honest_hangs (σ := opened τ) hf')
    | whileCond ht h =>
      rename_i c b k σ₁
      have := turns_inv (fun n => honest_closed (cfg.steps n) hh) he.2 ht ((honest_closed (cfg.steps 0) hh).push τ ⟨hg', hf'⟩)
      exact absurd h (honest_hangs this.2)
    | endless h => exact .inl ⟨_, _, rfl, h⟩
    | range h => exact absurd h (honest_hangs (σ := opened τ) hf')
    | filesystem h => exact absurd h (honest_hangs hf')
    | print h => exact absurd h (honest_hangs hf')
    | diagram hv h => exact .inr ⟨_, _, rfl, hv, (C79_diagram cfg _ (printed_fits hg' he hv)).1 h⟩
    | expr h => exact absurd h (honest_hangs hf')
  · rintro ⟨s, τ, hr, h⟩
    obtain ⟨he, hg', hf'⟩ := reachesAll_inv (fun n => honest_closed (cfg.steps n) hh) hr hp ⟨hg, hf⟩
    refine ⟨s, τ, hr, ?_⟩
    rcases h with ⟨c, b, rfl, h⟩ | ⟨e, xs, rfl, hv, h⟩
    · exact .endless h
    · exact .diagram hv ((C79_diagram cfg _ (printed_fits hg' he hv)).2 h)

/-- **C79** A program without `while` loops ends, on an honest system, unless it prints such a histogram. -/
theorem C79_no_while (cfg : Cfg) (hh : HonestHost cfg.host) (p : List Stmt) (hw : NoWhiles p)
    (hp : allE (fun e => ∀ i ∈ e.literals, Fits i) p) (σ : State) (hg : GoodVars σ.vars) (hf : HonestFs σ.fs)
    (hd : ∀ e τ xs, ReachesAll (world cfg) p σ (.print e) τ → Ev (world cfg) τ e (.array xs true) →
      ∀ i, Value.int i ∈ xs → i ≤ 2 ^ 125) :
    ∃ n σ' r, r ≠ .fail .diverge ∧ ∀ m, n ≤ m → evalProgram (cfg.steps m) p σ = (σ', r) := by
  have h : ¬ ∀ n, (evalProgram (cfg.steps n) p σ).2 = .fail .diverge := by
    rw [C79_honest_program cfg hh p hp σ hg hf]
    rintro ⟨s, τ, hr, ⟨c, b, rfl, -⟩ | ⟨e, xs, rfl, hv, vals, rfl, v, hv', hlt, -⟩⟩
    · exact reachesAll_noWhile hr hw
    · have := hd e τ _ hr hv v (List.mem_map.2 ⟨v, hv', rfl⟩)
      omega
  obtain ⟨n, hn⟩ := Classical.not_forall.1 h
  exact ⟨n, _, _, hn, fun m hm => C67_more_steps cfg n m hm p σ hn⟩

/-! ### lines and scripts -/

/-- reading and checking a line always ends -/
theorem line_diverge (cfg : Cfg) (rs : RState) (hs : rs.sem.vars ≠ []) (cmd : Str) :
    (runtimeEval cfg rs cmd).2 = .fail .diverge ↔
      ∃ p, parse cmd = some p ∧ (analyzeStmts p rs.sem).2 = .ok () ∧ (evalProgram cfg p rs.ev).2 = .fail .diverge := by
  rcases runtimeEval_cases cfg rs cmd with ⟨hp, he⟩ | ⟨p, e, hp, her, he⟩ | ⟨p, hp, hok, he⟩ <;> rw [he]
  · simp [hp]
  · obtain ⟨x, rfl, hx⟩ := (analyzed_stmts p rs.sem hs).err e her
    simp [hp, her]
  · simp [hp, hok]

/-- how a program runs for ever on an honest system -/
def Spec.RunsForever (W : World) (checked : Bool) (p : List Stmt) (σ : State) : Prop :=
  ∃ s τ, ReachesAll W p σ s τ ∧
    ((∃ c b, s = .while c b ∧ ∀ k, ∃ τ', Turns W c b k (opened τ) τ') ∨
     (∃ e xs, s = .print e ∧ Ev W τ e (.array xs true) ∧ Unfinished checked xs))

theorem initial_honest {cfg : Cfg} (hh : HonestHost cfg.host) (room : Option Nat) : HonestFs (State.new cfg room).fs := by
  unfold State.new
  cases hc : cfg.host.cwd with
  | none => intro k hk; cases hk
  | some cwd =>
    simp only
    cases hn : Fs.new cfg.host cwd with
    | ok fs => exact honest_new hh hn
    | error e => intro k hk; cases hk

theorem runtimeEval_honest (cfg : Cfg) (hh : HonestHost cfg.host) (rs : RState) (cmd : Str) (h : HonestState rs.ev) :
    HonestState (runtimeEval cfg rs cmd).1.ev := by
  rcases runtimeEval_cases cfg rs cmd with ⟨-, he⟩ | ⟨p, e, -, -, he⟩ | ⟨p, hp, -, he⟩ <;> rw [he]
  · exact h
  · exact h
  · exact evalStmts_inv (honest_closed cfg hh) p (parse_literals hp) rs.ev h

theorem session_honest (cfg : Cfg) (hh : HonestHost cfg.host) (room : Option Nat) (events : List ReplEvent) :
    HonestState (replRun cfg (RState.new cfg room) events).1.ev :=
  replRun_inv cfg (fun rs => HonestState rs.ev) (fun rs cmd h => runtimeEval_honest cfg hh rs cmd h) events _
    ⟨initial_good, initial_honest hh room⟩

/-- **C79** In a session on an honest system, after any inputs: a line never ends if and only if it is an accepted
program that gets to an endless `while` loop or prints a histogram with a value above `2^125`. -/
theorem C79_line (cfg : Cfg) (hh : HonestHost cfg.host) (room : Option Nat) (events : List ReplEvent) (cmd : Str)
    (rs : RState) (hrs : rs = (replRun cfg (RState.new cfg room) events).1) :
    (∀ n, (runtimeEval (cfg.steps n) rs cmd).2 = .fail .diverge) ↔
      ∃ p, parse cmd = some p ∧ (analyzeStmts p rs.sem).2 = .ok () ∧
        RunsForever (world cfg) cfg.build.ovfChecks p rs.ev := by
  have hs : rs.sem.vars ≠ [] := by rw [hrs]; exact (session cfg room events).semNe
  obtain ⟨hg, hf⟩ : HonestState rs.ev := by rw [hrs]; exact session_honest cfg hh room events
  constructor
  · intro h
    obtain ⟨p, hp, hok, -⟩ := (line_diverge (cfg.steps 0) rs hs cmd).1 (h 0)
    refine ⟨p, hp, hok, (C79_honest_program cfg hh p (parse_literals hp) rs.ev hg hf).1 fun n => ?_⟩
    obtain ⟨q, hq, -, hd⟩ := (line_diverge (cfg.steps n) rs hs cmd).1 (h n)
    rw [hp] at hq
    cases hq
    exact hd
  · rintro ⟨p, hp, hok, h⟩ n
    exact (line_diverge (cfg.steps n) rs hs cmd).2
      ⟨p, hp, hok, (C79_honest_program cfg hh p (parse_literals hp) rs.ev hg hf).2 h n⟩

/-- **C79** The same for a script. -/
theorem C79_script (cfg : Cfg) (hh : HonestHost cfg.host) (room : Option Nat) (contents : Str) :
    (∀ n, (scriptRun (cfg.steps n) room contents).2 = .fail .diverge) ↔
      ∃ p, parse (stripComments contents) = some p ∧
        AcceptedL (fun x => x ∈ constants.map (·.1) ∨ x ∈ functions.map Function.display) False p ∧
        RunsForever (world { cfg with interactive := false }) cfg.build.ovfChecks p (State.new cfg room) := by
  have hb : (fun x => x ∈ constants.map (·.1) ∨ x ∈ functions.map Function.display) =
      fun x => AState.new.vars.get x ≠ none := by
    funext x
    exact propext (builtins_defined x).symm
  have hv := fun p => C18_accepts_iff p AState.new (by simp [AState.new])
  rw [show (0 < AState.new.loopDepth) = False by simp [AState.new]] at hv
  rw [hb]
  have key := C79_line { cfg with interactive := false } hh room [] (stripComments contents) _ rfl
  refine Iff.trans ?_ (key.trans ?_)
  · exact Iff.rfl
  · constructor
    · rintro ⟨p, h1, h2, h3⟩
      exact ⟨p, h1, (hv p).1 h2, h3⟩
    · rintro ⟨p, h1, h2, h3⟩
      exact ⟨p, h1, (hv p).2 h2, h3⟩

/-- **C79** So a script without `while` that prints no such histogram comes to an end. -/
theorem C79_script_ends (cfg : Cfg) (hh : HonestHost cfg.host) (room : Option Nat) (contents : Str)
    (hw : ∀ p, parse (stripComments contents) = some p → NoWhiles p)
    (hd : ∀ p e τ xs, parse (stripComments contents) = some p →
      ReachesAll (world { cfg with interactive := false }) p (State.new cfg room) (.print e) τ →
      Ev (world { cfg with interactive := false }) τ e (.array xs true) → ∀ i, Value.int i ∈ xs → i ≤ 2 ^ 125) :
    ∃ n, ∀ m, n ≤ m → (scriptRun (cfg.steps m) room contents).2 ≠ .fail .diverge ∧
      scriptRun (cfg.steps m) room contents = scriptRun (cfg.steps n) room contents := by
  have h : ¬ ∀ n, (scriptRun (cfg.steps n) room contents).2 = .fail .diverge := by
    rw [C79_script cfg hh room contents]
    rintro ⟨p, hp, -, s, τ, hr, ⟨c, b, rfl, -⟩ | ⟨e, xs, rfl, hv, vals, rfl, v, hv', hlt, -⟩⟩
    · exact reachesAll_noWhile hr (hw p hp)
    · have := hd p e τ _ hp hr hv v (List.mem_map.2 ⟨v, hv', rfl⟩)
      omega
  obtain ⟨n, hn⟩ := Classical.not_forall.1 h
  refine ⟨n, fun m hm => ?_⟩
  have := C67_script cfg n m hm room contents hn
  exact ⟨by rw [this]; exact hn, this⟩

/-! ### each of these happens -/

/-- a loop that does nothing, for ever -/
theorem idle_turns (W : World) (σ : State) : ∀ k, ∃ σ', Turns W (.bool true) [] k σ σ'
  | 0 => ⟨σ, .zero⟩
  | k + 1 => by
    obtain ⟨σ', h⟩ := idle_turns W σ k
    exact ⟨σ', .succ (.bool true) .nil (.inl rfl) h⟩

/-- a script that runs for ever -/
theorem idle_script (n : Nat) : (scriptRun (demo.steps n) none s!' "while true { }").2 = .fail .diverge := by
  refine (C79_script demo (by intro _ _ h; cases h) none _).2 ⟨[.while (.bool true) []], ?_, ?_,
    .while (.bool true) [], State.new demo none, .head .self, .inl ⟨_, _, rfl, idle_turns _ _⟩⟩ n
  · with_unfolding_all rfl
  · simp only [AcceptedL, Accepted, Reads, Expr.Sound, Expr.uses]
    simp

/-- a histogram that is never finished -/
example : Unfinished false [.int 3, .int (2 ^ 126)] :=
  ⟨[3, 2 ^ 126], rfl, 2 ^ 126, by simp, by decide, by simp⟩

/-- a state in which `h` is that histogram; printing it never ends -/
example (n : Nat) : (evalProgram (demo.steps n) [.print (.ident s!' "h")]
    ⟨⟨[], none⟩, [bind1 (fun _ => none) s!' "h" (.array [.int 3, .int (2 ^ 126)] true)], none⟩).2 = .fail .diverge := by
  refine (C79_program demo _ _).2 ⟨_, _, .head .self, .diagram (xs := [.int 3, .int (2 ^ 126)]) (.var (.here ?_)) ?_⟩ n
  · simp [bind1]
  · refine (C79_diagram demo _ ?_).2 ⟨[3, 2 ^ 126], rfl, 2 ^ 126, by simp, by decide, by simp [demo]⟩
    intro i hi
    simp only [List.mem_cons, Value.int.injEq, List.not_mem_nil, or_false] at hi
    rcases hi with rfl | rfl <;> decide

/-- an honest filesystem with items in it -/
example : HonestFs (some (.mounted (batchKernel sampleTrees (fun _ => 0)))) := by
  intro k hk
  cases hk
  exact ⟨fun _ => sampleTrees, fun _ => sampleTrees_ok.1, batchKernel_honours _ sampleTrees_ok.2 _⟩

/-- an honest filesystem in which an item with a growing offset is written between any two calls -/
example : HonestFs (some (.mounted (fun i => batchKernel (fun t => if t = 5 then
    [(⟨7, 256, i % 2 ^ 64, 1, 1⟩, [9])] else []) (fun _ => 0) i))) := by
  intro k hk
  cases hk
  refine ⟨fun i t => if t = 5 then [(⟨7, 256, i % 2 ^ 64, 1, 1⟩, [9])] else [], ?_, fun i a => batchKernel_honours _ ?_ _ i a⟩
  · intro i t
    by_cases h : t = 5
    · simp only [if_pos h]; simp
    · simp only [if_neg h]; simp
  · intro t it hit
    split at hit
    · rw [List.mem_singleton] at hit
      subst hit
      have : i % 2 ^ 64 < 2 ^ 64 := Nat.mod_lt _ (by decide)
      simp only [Storable]
      exact ⟨by decide, by decide, this, by decide, by decide, by decide, by decide⟩
    · cases hit

/-- a kernel that gives the same item over and over again -/
def stutter : Kernel := fun _ _ => .data 1 fun _ => 0

theorem stutter_loop : ∀ (n i : Nat) (a : SearchArgs) (ret : List Item) (c : Nat),
    ret = [] ∨ ret = [(⟨0, 0, 0, 0, 0⟩, [])] → searchLoop stutter true n i a ret c = .error .diverge := by
  intro n
  induction n with
  | zero => intro i a ret c _; rfl
  | succ n ih =>
    intro i a ret c h
    rcases h with rfl | rfl
    · rw [searchLoop]
      exact ih _ _ _ _ (.inr rfl)
    · rw [searchLoop]
      exact ih _ _ _ _ (.inr rfl)

/-- a bounded search key -/
def smallKey : List (Str × Value) :=
  [(s!' "min_objectid", .int 0), (s!' "max_objectid", .int 10), (s!' "min_type", .int 0), (s!' "max_type", .int 10),
   (s!' "min_offset", .int 0), (s!' "max_offset", .int 10), (s!' "min_transid", .int 0), (s!' "max_transid", .int 10)]

set_option maxRecDepth 100000 in
/-- with it, searching never ends -/
theorem stutter_waits : (waits demo).search (some (.mounted stutter)) 5
    (.struct s!' "_btrfs_ioctl_search_key" none smallKey) := by
  intro n
  have hs : Fs.search n (.mounted stutter) ⟨5, 0, 10, 0, 10, 0, 10, 0, 10⟩ = .error .diverge := by
    rw [search_bounded n stutter _ (by unfold Bounded; decide), stutter_loop n 0 _ [] 0 (.inl rfl)]
  have : searchFn (demo.steps n) (some (.mounted stutter))
      [.ok (.int 5), .ok (.struct s!' "_btrfs_ioctl_search_key" none smallKey)] =
      (Fs.search n (.mounted stutter) ⟨5, 0, 10, 0, 10, 0, 10, 0, 10⟩ >>= fun chunks =>
        decodeItems demo.build chunks >>= fun vs => .ok (.array vs false)) := rfl
  rw [this, hs]
  rfl

end Btrd
