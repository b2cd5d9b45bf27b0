/-
C16-C21: semantic analysis. C65, C66: sessions and scripts. C70: release builds never panic.
-/
import Verif.Lemmas.Accepted
import Verif.Lemmas.ParserRes
import Verif.Lemmas.Runtime
import Verif.Props.Good
import Verif.Props.Cast

namespace Btrd
open Spec

/-! ### the invariant of a session -/

theorem foldl_set_defined {α T T' : Type} (key : α → Str) (val : α → T) (val' : α → T') :
    ∀ (l : List α) (s : Scope T) (s' : Scope T'), (∀ x, s x ≠ none ↔ s' x ≠ none) → ∀ x,
    (l.foldl (fun s a => s.set (key a) (val a)) s) x ≠ none ↔
    (l.foldl (fun s a => s.set (key a) (val' a)) s') x ≠ none := by
  intro l
  induction l with
  | nil => intro s s' h x; exact h x
  | cons a l ih =>
    intro s s' h x
    simp only [List.foldl_cons]
    refine ih _ _ (fun x => ?_) x
    simp only [Scope.set]
    split
    · simp
    · exact h x

theorem initialScope_defined {T T' : Type} (f : Int → T) (g : Function → T) (f' : Int → T') (g' : Function → T')
    (x : Str) : initialScope f g x ≠ none ↔ initialScope f' g' x ≠ none :=
  foldl_set_defined _ _ _ functions _ _
    (foldl_set_defined (fun c : Str × Int => c.1) (fun c => f c.2) (fun c => f' c.2) constants _ _
      (fun x => by simp [Scope.empty])) x

theorem defined_single {T : Type} (s : Scope T) (x : Str) : defined [s] x ↔ s x ≠ none := by
  simp only [defined, Vars.get]
  cases s x <;> simp

theorem foldl_set_names {α T : Type} (key : α → Str) (val : α → T) : ∀ (l : List α) (s : Scope T) (x : Str),
    (l.foldl (fun s a => s.set (key a) (val a)) s) x ≠ none ↔ s x ≠ none ∨ x ∈ l.map key := by
  intro l
  induction l with
  | nil => intro s x; simp
  | cons a l ih =>
    intro s x
    simp only [List.foldl_cons, ih, List.map_cons, List.mem_cons, Scope.set]
    split
    · rename_i h; simp [h]
    · rename_i h; simp [h]

/-- the names of a fresh interpreter are the constants and the functions -/
theorem builtins_defined (x : Str) :
    AState.new.vars.get x ≠ none ↔ x ∈ constants.map (·.1) ∨ x ∈ functions.map Function.display := by
  change defined [initialScope (fun _ => ()) (fun _ => ())] x ↔ _
  rw [defined_single]
  unfold initialScope
  rw [foldl_set_names, foldl_set_names]
  simp [Scope.empty]

/-- what holds of the two halves of the runtime between any two lines -/
structure Sess (rs : RState) : Prop where
  one : rs.sem.vars.length = 1
  depth : rs.sem.loopDepth = 0
  ne : rs.ev.vars ≠ []
  good : GoodVars rs.ev.vars
  known : ∀ x, defined rs.ev.vars x → defined rs.sem.vars x

theorem Sess.semNe {rs : RState} (h : Sess rs) : rs.sem.vars ≠ [] := by
  intro hn; have := h.one; rw [hn] at this; simp at this

theorem sess_initial (cfg : Cfg) (room : Option Nat) : Sess (RState.new cfg room) where
  one := rfl
  depth := rfl
  ne := by simp [RState.new, State.new]
  good := initial_good
  known := fun x h => by
    change defined [initialScope Value.int Value.func] x at h
    change defined [initialScope (fun _ => ()) (fun _ => ())] x
    rw [defined_single] at h ⊢
    exact (initialScope_defined _ _ _ _ x).1 h

theorem gained_length {T : Type} {a b : Vars T} (h : Gained a b) : b.length = a.length := by
  cases a with
  | nil => cases b with
    | nil => rfl
    | cons _ _ => simp [Gained] at h
  | cons s r => cases b with
    | nil => simp [Gained] at h
    | cons s' r' => simp only [List.length_cons]; rw [h.2.length]

theorem sess_step (cfg : Cfg) (rs : RState) (cmd : Str) (h : Sess rs) : Sess (runtimeEval cfg rs cmd).1 := by
  rcases runtimeEval_cases cfg rs cmd with ⟨-, he⟩ | ⟨p, e, -, -, he⟩ | ⟨p, hp, hok, he⟩ <;> rw [he]
  · exact h
  · have ha := analyzed_stmts p rs.sem h.semNe
    exact ⟨(gained_length ha.gained).trans h.one, ha.depth.trans h.depth, h.ne, h.good,
      fun x hx => gained_defined ha.gained (h.known x hx)⟩
  · have ha := analyzed_stmts p rs.sem h.semNe
    refine ⟨(gained_length ha.gained).trans h.one, ha.depth.trans h.depth,
      gained_ne_nil (evalStmts_rel (gained_closed cfg) p (allT_true p) rs.ev) h.ne,
      evalStmts_inv (good_closed cfg) p (parse_literals hp) rs.ev h.good, fun x hx => ?_⟩
    change defined (evalStmts cfg p rs.ev).1.vars x at hx
    change defined (analyzeStmts p rs.sem).1.vars x
    rw [ha.ok hok]
    exact (evalStmts_creates cfg p rs.ev x hx).imp_left (h.known x)

theorem session (cfg : Cfg) (room : Option Nat) (events : List ReplEvent) :
    Sess (replRun cfg (RState.new cfg room) events).1 :=
  replRun_inv cfg Sess (fun rs cmd h => sess_step cfg rs cmd h) events _ (sess_initial cfg room)

/-! ### C18: the analyzer's state -/

/-- **C18** What the analyzer accepts, exactly: a program is accepted iff every expression is well formed
and reads known variables, jumps stand in loops, `for` has an identifier and `filesystem` a string
(`Spec.AcceptedL`). -/
theorem C18_accepts_iff (p : List Stmt) (a : AState) (ha : a.vars ≠ []) :
    (analyzeStmts p a).2 = .ok () ↔ AcceptedL (fun x => a.vars.get x ≠ none) (0 < a.loopDepth) p :=
  (analyzed_stmts p a ha).verdict

/-- **C18** Accepted or rejected, and wherever in the program the rejection happened: the loop depth and
the number of scopes are back, every known variable is still known, and the only new ones are variables
assigned at the outermost level of the program. -/
theorem C18_state_survives (p : List Stmt) (a : AState) (ha : a.vars ≠ []) :
    (analyzeStmts p a).1.loopDepth = a.loopDepth ∧
    (analyzeStmts p a).1.vars.length = a.vars.length ∧
    (∀ x, a.vars.get x ≠ none → (analyzeStmts p a).1.vars.get x ≠ none) ∧
    (∀ x, (analyzeStmts p a).1.vars.get x ≠ none → a.vars.get x ≠ none ∨ x ∈ gainsL p) := by
  have h := analyzed_stmts p a ha
  exact ⟨h.depth, gained_length h.gained, fun x hx => gained_defined h.gained hx, h.atMost⟩

/-- **C18** After an accepted program, exactly the variables assigned at its outermost level are new. -/
theorem C18_accepted_gains (p : List Stmt) (a : AState) (ha : a.vars ≠ []) (hok : (analyzeStmts p a).2 = .ok ())
    (x : Str) : (analyzeStmts p a).1.vars.get x ≠ none ↔ a.vars.get x ≠ none ∨ x ∈ gainsL p := by
  have h := (analyzed_stmts p a ha).ok hok
  have := congrFun h x
  simp only [defined, Names.with] at this
  rw [this]

/-- **C18** In every session the analyzer is at loop depth 0 with one scope between lines. -/
theorem C18_session (cfg : Cfg) (room : Option Nat) (events : List ReplEvent) :
    (replRun cfg (RState.new cfg room) events).1.sem.loopDepth = 0 ∧
    (replRun cfg (RState.new cfg room) events).1.sem.vars.length = 1 :=
  ⟨(session cfg room events).depth, (session cfg room events).one⟩

/-- **C18** So in every session the verdict on a line depends only on the known variables: -/
theorem C18_session_verdict (cfg : Cfg) (room : Option Nat) (events : List ReplEvent) (p : List Stmt) :
    (analyzeStmts p (replRun cfg (RState.new cfg room) events).1.sem).2 = .ok () ↔
      AcceptedL (fun x => (replRun cfg (RState.new cfg room) events).1.sem.vars.get x ≠ none) False p := by
  have h := session cfg room events
  rw [C18_accepts_iff p _ h.semNe, h.depth]
  simp

theorem sem_grows (cfg : Cfg) (rs : RState) (cmd : Str) (h : Sess rs) (x : Str) (hx : defined rs.sem.vars x) :
    defined (runtimeEval cfg rs cmd).1.sem.vars x := by
  rcases runtimeEval_cases cfg rs cmd with ⟨-, he⟩ | ⟨p, e, -, -, he⟩ | ⟨p, hp, hok, he⟩ <;> rw [he]
  · exact hx
  · exact gained_defined (analyzed_stmts p rs.sem h.semNe).gained hx
  · exact gained_defined (analyzed_stmts p rs.sem h.semNe).gained hx

theorem replRun_grows (cfg : Cfg) (rs : RState) (h : Sess rs) (x : Str) (hx : defined rs.sem.vars x)
    (events : List ReplEvent) : defined (replRun cfg rs events).1.sem.vars x :=
  (replRun_inv cfg (fun rs => Sess rs ∧ defined rs.sem.vars x)
    (fun rs cmd h => ⟨sess_step cfg rs cmd h.1, sem_grows cfg rs cmd h.1 x h.2⟩) events rs ⟨h, hx⟩).2

/-! ### C65: the loop of the REPL -/

/-- **C65** A session is read from left to right: what follows is read in the state left by what came
before, and only if the session has not ended. -/
theorem C65_append (cfg : Cfg) (e₁ e₂ : List ReplEvent) (rs : RState) :
    replRun cfg rs (e₁ ++ e₂) =
      match replRun cfg rs e₁ with
      | (rs', .running) => replRun cfg rs' e₂
      | r => r := by
  induction e₁ generalizing rs with
  | nil => simp [replRun]
  | cons e es ih =>
    simp only [List.cons_append, replRun]
    generalize replStep cfg rs e = r
    obtain ⟨rs', r⟩ := r
    cases r with
    | running => exact ih rs'
    | exited => rfl
    | crashed f => rfl

/-- **C18** A line the analyzer accepts at some point of a session is accepted at every later point. -/
theorem C18_accepted_stays (cfg : Cfg) (room : Option Nat) (e₁ e₂ : List ReplEvent) (p : List Stmt)
    (h : (analyzeStmts p (replRun cfg (RState.new cfg room) e₁).1.sem).2 = .ok ()) :
    (analyzeStmts p (replRun cfg (RState.new cfg room) (e₁ ++ e₂)).1.sem).2 = .ok () := by
  rw [C18_session_verdict] at h ⊢
  refine acceptedL_mono (fun x hx => ?_) p h
  have hs := session cfg room e₁
  rw [C65_append]
  generalize replRun cfg (RState.new cfg room) e₁ = r at hs hx
  obtain ⟨rs', r⟩ := r
  cases r with
  | running => exact replRun_grows cfg rs' hs x hx e₂
  | exited => exact hx
  | crashed f => exact hx

/-! ### C16: jumps -/

/-- failures other than an unhandled jump -/
theorem ordinary_noJump : Ordinary fun f => f ≠ .err .controlFlow where
  err := by intro e he h; injection h with h; rw [h] at he; simp at he
  diverge := by simp

/-- **C16** If the program is one the analyzer accepts outside a loop, whatever variables are known,
running it from any state with a scope does not end in an unhandled `break` or `continue`. -/
theorem C16_no_leaked_jump (cfg : Cfg) (p : List Stmt) (D : Names) (hp : AcceptedL D False p) (st : State)
    (hst : st.vars ≠ []) : (evalProgram cfg p st).2 ≠ .fail (.err .controlFlow) := by
  have h1 := acceptedL_no_jump cfg p D st hp
  have h2 := onlyI_stmts (cfg := cfg) ordinary_noJump (.inl (by simp)) p (fun _ => True) st
    (allE_mono (Q := fun _ => True) (fun e _ => .inl (by simp)) p
      (allE_mono (Q := Expr.Sound) (fun _ _ => trivial) p (acceptedL_sound D False p hp)))
    (strictL_all p) ⟨fun x _ => .inr (by simp), .inl (by simp), hst⟩
  simp only [evalProgram]
  generalize (evalStmts cfg p st).2 = r at h1 h2
  cases r with
  | ok => simp [IRes.toEvalResult]
  | quit => simp [IRes.toEvalResult]
  | brk => exact absurd rfl h1.1
  | cont => exact absurd rfl h1.2
  | fail f => simpa [IRes.toEvalResult] using h2 f rfl

/-- **C16** In every session no line ever ends in an unhandled jump, whatever came before it. -/
theorem C16_session (cfg : Cfg) (room : Option Nat) (events : List ReplEvent) (cmd : Str) :
    (runtimeEval cfg (replRun cfg (RState.new cfg room) events).1 cmd).2 ≠ .fail (.err .controlFlow) := by
  have h := session cfg room events
  generalize (replRun cfg (RState.new cfg room) events).1 = rs at h
  rcases runtimeEval_cases cfg rs cmd with ⟨-, he⟩ | ⟨p, e, -, her, he⟩ | ⟨p, hp, hok, he⟩ <;> rw [he]
  · obtain ⟨pos, c, hf⟩ := parseError_form cmd
    simp [hf]
  · obtain ⟨x, rfl, hx⟩ := (analyzed_stmts p rs.sem h.semNe).err e her
    simpa using hx
  · have hacc := (analyzed_stmts p rs.sem h.semNe).verdict.1 hok
    rw [h.depth] at hacc
    exact C16_no_leaked_jump cfg p _ (by simpa using hacc) rs.ev h.ne

/-- without analysis a jump does leak: the analysis is what prevents it -/
example (cfg : Cfg) (st : State) : (evalProgram cfg [.brk] st).2 = .fail (.err .controlFlow) := rfl

/-- the hypothesis is met by a program with both jumps in nested loops -/
example : AcceptedL (fun x => x = s!' "x") False
    [.while (.bool true) [.for (.ident s!' "i") (.ident s!' "x") [.ite (.bool true) [.brk] [.cont]], .brk]] := by
  simp [AcceptedL, Accepted, Reads, Expr.Sound, Expr.uses, Names.with]

/-! ### C17, C70: panics -/

theorem ordinary_noPanic : Ordinary fun f => f ≠ .panic where
  err := by simp
  diverge := by simp

theorem plain_noPanic (D : Names) (loop : Prop) (p : List Stmt) (hp : AcceptedL D loop p)
    (hl : allE (fun e => ∀ i ∈ e.literals, Fits i) p) : allE (Plain fun f => f ≠ .panic) p := by
  have h1 := acceptedL_sound D loop p hp
  have : allE (fun e => e.Sound ∧ ∀ i ∈ e.literals, Fits i) p := allE_and p h1 hl
  exact allE_mono (fun e h => .inr h) p this

/-- **C17, C70** In a build without overflow checks, an accepted program whose integer literals fit 128
bits never panics: not on a type cast nor anywhere else, from any state whose values are as the
interpreter builds them (integers of 128 bits, plain field names). -/
theorem C17_release_no_panic (cfg : Cfg) (hb : cfg.build.ovfChecks = false) (p : List Stmt) (D : Names)
    (hp : AcceptedL D False p) (hl : allE (fun e => ∀ i ∈ e.literals, Fits i) p) (st : State)
    (hst : st.vars ≠ []) (hg : ∀ scope ∈ st.vars, ∀ x v, scope x = some v → AllInts Fits v ∧ PlainNames v) :
    (evalProgram cfg p st).2 ≠ .fail .panic := by
  have h2 := onlyI_stmts (cfg := cfg) ordinary_noPanic (.inr hb) p (fun _ => True) st
    (plain_noPanic D False p hp hl) (strictL_all p) ⟨fun x _ => .inr (by simp), .inr hg, hst⟩
  simp only [evalProgram]
  generalize (evalStmts cfg p st).2 = r at h2
  cases r <;> simp [IRes.toEvalResult]
  intro h; subst h
  exact h2 _ rfl rfl

theorem runtimeEval_no_panic (cfg : Cfg) (hb : cfg.build.ovfChecks = false) (rs : RState) (h : Sess rs) (cmd : Str) :
    (runtimeEval cfg rs cmd).2 ≠ .fail .panic := by
  rcases runtimeEval_cases cfg rs cmd with ⟨-, he⟩ | ⟨p, e, -, her, he⟩ | ⟨p, hp, hok, he⟩ <;> rw [he]
  · simp
  · obtain ⟨x, rfl, hx⟩ := (analyzed_stmts p rs.sem h.semNe).err e her
    simp
  · have hacc := (analyzed_stmts p rs.sem h.semNe).verdict.1 hok
    rw [h.depth] at hacc
    exact C17_release_no_panic cfg hb p _ (by simpa using hacc) (parse_literals hp) rs.ev h.ne h.good

/-- **C70** In every session of a build without overflow checks, no line panics. -/
theorem C70_session_no_panic (cfg : Cfg) (hb : cfg.build.ovfChecks = false) (room : Option Nat)
    (events : List ReplEvent) (cmd : Str) :
    (runtimeEval cfg (replRun cfg (RState.new cfg room) events).1 cmd).2 ≠ .fail .panic :=
  runtimeEval_no_panic cfg hb _ (session cfg room events) cmd

/-- **C70** Nor does a script. -/
theorem C70_script_no_panic (cfg : Cfg) (hb : cfg.build.ovfChecks = false) (room : Option Nat) (contents : Str) :
    (scriptRun cfg room contents).2 ≠ .fail .panic :=
  runtimeEval_no_panic { cfg with interactive := false } hb _ (sess_initial cfg room) _

/-- **C17** In every build, a type cast to a known struct panics only if its operand does or, with
overflow checks, if the position plus the number of bytes to read exceeds 64 bits: never because the type
could not be found or decoded. -/
theorem C17_cast_panic (cfg : Cfg) (st : State) (ty e : Expr) (hs : (Expr.cast ty e).Sound)
    (h : evalExpr cfg st (.cast ty e) = .error .panic) :
    evalExpr cfg st e = .error .panic ∨
    (cfg.build.ovfChecks = true ∧ ∃ i s, evalExpr cfg st e = .ok (.int i) ∧ s ∈ structs ∧ ty = .ident s.name ∧
      2 ^ 64 ≤ asUsize i + (if s.size = 0 then 1024 else s.size)) := by
  by_cases hq : evalExpr cfg st e = .error .panic ∨
      (cfg.build.ovfChecks = true ∧ ∃ i s, evalExpr cfg st e = .ok (.int i) ∧ s ∈ structs ∧ ty = .ident s.name ∧
        2 ^ 64 ≤ asUsize i + (if s.size = 0 then 1024 else s.size))
  · exact hq
  · exfalso
    have := only_castOp' (P := fun f => f ≠ .panic) (b := cfg.build) ordinary_noPanic st.fs (ty := ty) (.inr hs.1)
      (r := evalExpr cfg st e) (fun f hf hp => hq (.inl (by rw [hf, hp])))
      (fun i s h1 h2 h3 h4 f hf hp => hq (.inr ?_))
    · rw [evalExpr] at h
      exact this _ h rfl
    · subst hp
      generalize hz : (if s.size = 0 then 1024 else s.size) = z at hf
      unfold usizeAdd at hf
      split at hf
      · simp at hf
      · split at hf
        · rename_i h5 h6
          exact ⟨h6, i, s, h1, h3, h4, by omega⟩
        · simp at hf

theorem structs_1024 (s : StructDef) (hs : s ∈ structs) : s.size ≤ 1024 := by
  have : structs.all (fun s => decide (s.size ≤ 1024)) = true := by decide
  simpa using List.all_eq_true.1 this s hs

/-- **C17** In particular an accepted cast of a position below `2^64 - 1024` never panics unless its
operand does. -/
theorem C17_cast_ordinary_position (cfg : Cfg) (st : State) (ty e : Expr) (hs : (Expr.cast ty e).Sound) (i : Int)
    (he : evalExpr cfg st e = .ok (.int i)) (h1 : i < 2 ^ 64 - 1024) :
    evalExpr cfg st (.cast ty e) ≠ .error .panic := by
  intro h
  rcases C17_cast_panic cfg st ty e hs h with h | ⟨-, j, s, hj, hs', -, hle⟩
  · rw [he] at h; simp at h
  · rw [he] at hj
    injection hj with hj; injection hj with hj
    subst hj
    by_cases h0 : i < 0
    · have := C58_negative_position cfg st ty e i he h0
      rw [this] at h; simp at h
    · have : asUsize i = i.toNat := by
        unfold asUsize
        have : i % 2 ^ 64 = i := Int.emod_eq_of_lt (by omega) (by omega)
        rw [this]
      have h4 := structs_1024 s hs'
      rw [this] at hle
      split at hle <;> omega

/-- without analysis a cast to an unknown type does panic, in every build -/
example (cfg : Cfg) (st : State) : evalExpr cfg st (.cast (.ident s!' "nosuch") (.int 0)) = .error .panic := rfl

/-- a cast that meets the hypothesis -/
example : (Expr.cast (.ident s!' "btrfs_header") (.int 65536)).Sound :=
  ⟨⟨_, rfl, struct_btrfs_header, by unfold structs; simp, rfl⟩, trivial⟩

/-! ### C19: definition before use -/

theorem ordinary_noUnknown : Ordinary fun f => ∀ x, f ≠ .err (.unknownVar x) where
  err := by intro e he x h; injection h with h; rw [h] at he; simp at he
  diverge := by simp

/-- the result of evaluating the program is an unknown variable -/
def EvalResult.Unknown (r : EvalResult) : Prop := ∃ x, r = .fail (.err (.unknownVar x))

/-- **C19, partial**: if the program assigns every variable before it reads it (on every path,
`Spec.StrictL`), given the variables that exist, no evaluation of it fails with "unknown variable".
Missing: the analyzer accepts programs that are not of this kind, see below. -/
theorem C19_strict_partial (cfg : Cfg) (p : List Stmt) (st : State) (hst : st.vars ≠ [])
    (hp : StrictL (fun x => st.vars.get x ≠ none) p) : ¬ (evalProgram cfg p st).2.Unknown := by
  have h2 := onlyI_stmts (cfg := cfg) ordinary_noUnknown (.inl (by simp)) p _ st
    (allE_mono (fun e _ => .inl (by simp)) p (allE_true p)) hp ⟨fun x hx => .inl hx, .inl (by simp), hst⟩
  rintro ⟨x, hx⟩
  simp only [evalProgram] at hx
  generalize (evalStmts cfg p st).2 = r at h2 hx
  cases r <;> simp [IRes.toEvalResult] at hx
  subst hx
  exact h2 _ rfl x rfl

/-- **C19, partial**: an accepted line never fails with "unknown variable" if it does not use the three
gaps of the analyzer (`Spec.NoGapsL`) and every variable it reads that the analyzer knows exists. -/
theorem C19_accepted_partial (cfg : Cfg) (rs : RState) (p : List Stmt) (hsem : rs.sem.vars ≠ [])
    (hev : rs.ev.vars ≠ []) (hok : (analyzeStmts p rs.sem).2 = .ok ()) (hg : NoGapsL p)
    (hag : ∀ x ∈ readsL p, rs.sem.vars.get x ≠ none → rs.ev.vars.get x ≠ none) :
    ¬ (evalProgram cfg p rs.ev).2.Unknown :=
  C19_strict_partial cfg p rs.ev hev
    (acceptedL_strict p _ _ hag ((C18_accepts_iff p rs.sem hsem).1 hok) hg)

/-- **C19, partial**: analyzer and evaluator agree on the variables of a fresh session, and a line that
runs to its end, or does not parse, keeps the agreement. -/
theorem C19_agreement_partial (cfg : Cfg) (room : Option Nat) :
    (∀ x, (RState.new cfg room).sem.vars.get x ≠ none ↔ (RState.new cfg room).ev.vars.get x ≠ none) ∧
    ∀ (events : List ReplEvent) (cmd : Str) (rs : RState), rs = (replRun cfg (RState.new cfg room) events).1 →
      (∀ x, rs.sem.vars.get x ≠ none ↔ rs.ev.vars.get x ≠ none) →
      (runtimeEval cfg rs cmd).2 = .ok ∨ parse cmd = none →
      ∀ x, (runtimeEval cfg rs cmd).1.sem.vars.get x ≠ none ↔ (runtimeEval cfg rs cmd).1.ev.vars.get x ≠ none := by
  constructor
  · intro x
    change defined [initialScope (fun _ => ()) (fun _ => ())] x ↔ defined [initialScope Value.int Value.func] x
    rw [defined_single, defined_single]
    exact initialScope_defined _ _ _ _ x
  · intro events cmd rs hrs hag hr x
    have h := session cfg room events
    rw [← hrs] at h
    rcases runtimeEval_cases cfg rs cmd with ⟨-, he⟩ | ⟨p, e, hp, -, he⟩ | ⟨p, hp, hok, he⟩
    · rw [he]; exact hag x
    · rw [he, hp] at hr; simp at hr
    · rw [he, hp] at hr
      simp only [reduceCtorEq, or_false] at hr
      rw [he]
      have h1 := (analyzed_stmts p rs.sem h.semNe).ok hok
      have h2 := evalStmts_defined cfg p rs.ev (by
        simp only [evalProgram] at hr
        generalize (evalStmts cfg p rs.ev).2 = r at hr
        cases r <;> simp [IRes.toEvalResult] at hr
        rfl)
      have e1 := congrFun h1 x
      have e2 := congrFun h2 x
      simp only [defined, Names.with] at e1 e2
      change (analyzeStmts p rs.sem).1.vars.get x ≠ none ↔ (evalStmts cfg p rs.ev).1.vars.get x ≠ none
      rw [e1, e2, hag x]

/-- **C19, partial**: a script whose statements do not use the three gaps never fails with "unknown
variable" once it is accepted. -/
theorem C19_script_partial (cfg : Cfg) (room : Option Nat) (p : List Stmt)
    (hok : (analyzeStmts p (RState.new cfg room).sem).2 = .ok ()) (hg : NoGapsL p) :
    ¬ (evalProgram cfg p (RState.new cfg room).ev).2.Unknown :=
  C19_accepted_partial cfg _ p (sess_initial cfg room).semNe (sess_initial cfg room).ne hok hg
    fun x _ => ((C19_agreement_partial cfg room).1 x).1

/-- the interpreter of the examples: release build, no filesystem, interactive -/
def demo : Cfg := ⟨⟨false⟩, ⟨fun _ => none, fun _ => none, none⟩, true, 10⟩

/-- the last line of a session is accepted by the analyzer and then fails with an unknown variable -/
def slipsThrough (lines : List Str) (last : Str) : Bool :=
  let rs := (replRun demo (RState.new demo none) (lines.map .line)).1
  match parse last with
  | none => false
  | some p =>
    match (analyzeStmts p rs.sem).2, (evalProgram demo p rs.ev).2 with
    | .ok _, .fail (.err (.unknownVar _)) => true
    | _, _ => false

/-- **C19 is false**: the variable being assigned counts as known on the right-hand side. -/
theorem C19_false_self : slipsThrough [] s!' "x = x;" = true := by decide +kernel

/-- **C19 is false**: what the first branch assigns counts as known in the second. -/
theorem C19_false_else : slipsThrough [] s!' "if false { x = 1; } else { print x; }" = true := by decide +kernel

/-- **C19 is false**: the loop variable counts as known in the range. -/
theorem C19_false_for : slipsThrough [] s!' "for x in x { }" = true := by decide +kernel

/-- **C19 is false**: a variable whose assignment failed counts as known afterwards. -/
theorem C19_false_failed_line : slipsThrough [s!' "x = 1 / 0"] s!' "x;" = true := by decide +kernel

/-- **C19 is false**: so does a variable of a line that was rejected. -/
theorem C19_false_rejected_line : slipsThrough [s!' "x = y"] s!' "x;" = true := by decide +kernel

/-- a program with branches, loops and assignments that meets the hypothesis of `C19_strict_partial` -/
example : StrictL (fun x => x = s!' "hist")
    [.assign (.ident s!' "n") (.int 0),
     .while (.bin .lt (.ident s!' "n") (.int 3)) [.assign (.ident s!' "n") (.bin .plus (.ident s!' "n") (.int 1))],
     .for (.ident s!' "i") (.call (.ident s!' "hist") []) [.print (.ident s!' "i")],
     .print (.ident s!' "n")] := by
  simp [StrictL, Strict, Expr.uses, usesL, Names.with, Stmt.gains]

/-! ### C20, C21 -/

/-- **C20** In every session, at every point, each variable the evaluator has is known to the analyzer. -/
theorem C20_existing_is_known (cfg : Cfg) (room : Option Nat) (events : List ReplEvent) (x : Str)
    (h : (replRun cfg (RState.new cfg room) events).1.ev.vars.get x ≠ none) :
    (replRun cfg (RState.new cfg room) events).1.sem.vars.get x ≠ none :=
  (session cfg room events).known x h

/-- **C20** and stays known for the rest of the session: a line that only reads such variables, and is
otherwise well formed, is accepted. -/
theorem C20_never_unknown (cfg : Cfg) (room : Option Nat) (e₁ e₂ : List ReplEvent) (e : Expr) (hs : e.Sound)
    (h : ∀ x ∈ e.uses, (replRun cfg (RState.new cfg room) e₁).1.ev.vars.get x ≠ none) :
    (analyzeStmts [.expr e] (replRun cfg (RState.new cfg room) (e₁ ++ e₂)).1.sem).2 = .ok () := by
  apply C18_accepted_stays
  rw [C18_session_verdict]
  simp only [AcceptedL, Accepted, Reads, and_true]
  exact ⟨hs, fun x hx => C20_existing_is_known cfg room e₁ x (h x hx)⟩

/-- **C21** A line that does not parse changes nothing at all. -/
theorem C21_parse_failure (cfg : Cfg) (rs : RState) (cmd : Str) (h : parse cmd = none) :
    runtimeEval cfg rs cmd = (rs, .fail (.err (parseError cmd))) := by
  unfold runtimeEval; rw [h]

/-- **C21** A line that the analyzer rejects prints nothing, changes no variable and no filesystem, and
is reported as an error. -/
theorem C21_rejected (cfg : Cfg) (rs : RState) (cmd : Str) (p : List Stmt) (hp : parse cmd = some p)
    (f : Fail) (h : (analyzeStmts p rs.sem).2 = .error f) :
    (runtimeEval cfg rs cmd).1.ev = rs.ev ∧ (runtimeEval cfg rs cmd).2 = .fail f := by
  rcases runtimeEval_cases cfg rs cmd with ⟨h1, he⟩ | ⟨p', e, h1, h2, he⟩ | ⟨p', h1, h2, he⟩
  · rw [h1] at hp; simp at hp
  · rw [h1] at hp; injection hp with hp; subst hp
    rw [h] at h2; injection h2 with h2; subst h2
    rw [he]; exact ⟨rfl, rfl⟩
  · rw [h1] at hp; injection hp with hp; subst hp
    rw [h] at h2; simp at h2

/-- **C21** In every session: whether a line reaches the evaluator is decided by parsing and analysis
alone, and if it does not, the output, the variables and the filesystem are those from before. -/
theorem C21_session (cfg : Cfg) (room : Option Nat) (events : List ReplEvent) (cmd : Str) (rs : RState)
    (hrs : rs = (replRun cfg (RState.new cfg room) events).1)
    (h : ∀ p, parse cmd = some p → ¬ AcceptedL (fun x => rs.sem.vars.get x ≠ none) False p) :
    (runtimeEval cfg rs cmd).1.ev = rs.ev ∧ ∃ e, (runtimeEval cfg rs cmd).2 = .fail (.err e) := by
  have hs := session cfg room events
  rw [← hrs] at hs
  rcases runtimeEval_cases cfg rs cmd with ⟨h1, he⟩ | ⟨p', e, h1, h2, he⟩ | ⟨p', h1, h2, he⟩
  · rw [he]; exact ⟨rfl, _, rfl⟩
  · rw [he]
    obtain ⟨x, rfl, -⟩ := (analyzed_stmts p' rs.sem hs.semNe).err e h2
    exact ⟨rfl, x, rfl⟩
  · refine absurd ?_ (h p' h1)
    have := (analyzed_stmts p' rs.sem hs.semNe).verdict.1 h2
    rw [hs.depth, show (0 < 0) = False by simp] at this
    exact this

/-- rejected lines exist: `print y;` in a fresh session -/
example : (analyzeStmts [.print (.ident s!' "y")] AState.new).2 = .error (.err (.unknownVar s!' "y")) := rfl

/-! ### C65: sessions (continued) -/

/-- **C65** An erroneous line leaves the session running, in the state evaluation left. -/
theorem C65_errors_keep_running (cfg : Cfg) (rs : RState) (s : Str) (e : Err) (events : List ReplEvent)
    (h : (runtimeEval cfg rs (fixupInput (stripComments s))).2 = .fail (.err e)) :
    replRun cfg rs (.line s :: events) =
      replRun cfg (runtimeEval cfg rs (fixupInput (stripComments s))).1 events := by
  rw [replRun]
  unfold replStep
  simp only
  generalize runtimeEval cfg rs (fixupInput (stripComments s)) = r at h
  obtain ⟨rs', r⟩ := r
  simp only at h
  subst h
  rfl

/-- what one event does to the status -/
theorem replStep_status (cfg : Cfg) (rs : RState) (e : ReplEvent) :
    ((replStep cfg rs e).2 = .exited ↔
      e = .eof ∨ ∃ s, e = .line s ∧ (runtimeEval cfg rs (fixupInput (stripComments s))).2 = .quit) ∧
    (∀ f, (replStep cfg rs e).2 = .crashed f →
      ∃ s, e = .line s ∧ (runtimeEval cfg rs (fixupInput (stripComments s))).2 = .fail f) := by
  cases e with
  | line s =>
    unfold replStep
    simp only [reduceCtorEq, false_or, ReplEvent.line.injEq, exists_eq_left']
    generalize runtimeEval cfg rs (fixupInput (stripComments s)) = r
    obtain ⟨rs', r⟩ := r
    cases r with
    | ok => simp
    | quit => simp
    | fail f => cases f <;> simp
  | interrupted => simp [replStep]
  | eof => simp [replStep]
  | otherError => simp [replStep]

theorem replRun_snoc (cfg : Cfg) (rs : RState) (pre : List ReplEvent) (e : ReplEvent) (post : List ReplEvent)
    (h : (replRun cfg rs pre).2 = .running) :
    replRun cfg rs (pre ++ e :: post) =
      match replStep cfg (replRun cfg rs pre).1 e with
      | (rs', .running) => replRun cfg rs' post
      | r => r := by
  rw [C65_append]
  generalize replRun cfg rs pre = r at h
  obtain ⟨rs', r⟩ := r
  simp only at h
  subst h
  simp only [replRun]
  generalize replStep cfg rs' e = r
  obtain ⟨rs'', r⟩ := r
  cases r <;> rfl

/-- **C65** A session ends normally exactly at the first end of input or the first line that quits: some
event is one of these, and before it the session was still running. -/
theorem C65_exits_iff (cfg : Cfg) (rs : RState) (events : List ReplEvent) :
    (replRun cfg rs events).2 = .exited ↔
      ∃ pre e post, events = pre ++ e :: post ∧ (replRun cfg rs pre).2 = .running ∧
        (e = .eof ∨ ∃ s, e = .line s ∧
          (runtimeEval cfg (replRun cfg rs pre).1 (fixupInput (stripComments s))).2 = .quit) := by
  constructor
  · intro h
    induction events generalizing rs with
    | nil => simp [replRun] at h
    | cons e es ih =>
      rw [replRun] at h
      have hst := replStep_status cfg rs e
      cases hr : replStep cfg rs e with
      | mk rs' r =>
        rw [hr] at h hst
        cases r with
        | running =>
          obtain ⟨pre, e', post, h1, h2, h3⟩ := ih rs' h
          refine ⟨e :: pre, e', post, by rw [h1]; rfl, ?_⟩
          have : replRun cfg rs (e :: pre) = replRun cfg rs' pre := by rw [replRun, hr]
          rw [this]
          exact ⟨h2, h3⟩
        | exited =>
          exact ⟨[], e, es, rfl, rfl, hst.1.1 rfl⟩
        | crashed f => simp at h
  · rintro ⟨pre, e, post, rfl, h2, h3⟩
    rw [replRun_snoc cfg rs pre e post h2]
    have := (replStep_status cfg (replRun cfg rs pre).1 e).1.2 h3
    generalize replStep cfg (replRun cfg rs pre).1 e = r at this
    obtain ⟨rs', r⟩ := r
    simp only at this
    subst this
    rfl

/-- **C65** At the end of input the session is left in exactly the state of the lines before, and nothing
after is read. -/
theorem C65_end_of_input (cfg : Cfg) (rs : RState) (pre post : List ReplEvent)
    (h : (replRun cfg rs pre).2 = .running) :
    replRun cfg rs (pre ++ .eof :: post) = ((replRun cfg rs pre).1, .exited) := by
  rw [replRun_snoc cfg rs pre _ post h]
  rfl

/-- **C65** Interrupts and other read errors change nothing. -/
theorem C65_other_events (cfg : Cfg) (rs : RState) (pre post : List ReplEvent) (e : ReplEvent)
    (he : e = .interrupted ∨ e = .otherError) : replRun cfg rs (pre ++ e :: post) = replRun cfg rs (pre ++ post) := by
  rw [C65_append, C65_append]
  generalize replRun cfg rs pre = r
  obtain ⟨rs', r⟩ := r
  cases r with
  | running => rcases he with rfl | rfl <;> rfl
  | exited => rfl
  | crashed f => rfl

/-- **C65** A session never ends any other way in a release build, except by a line whose evaluation never
returns. -/
theorem C65_release_never_dies (cfg : Cfg) (hb : cfg.build.ovfChecks = false) (room : Option Nat)
    (events : List ReplEvent) : (replRun cfg (RState.new cfg room) events).2 ≠ .crashed .panic := by
  have main : ∀ (events : List ReplEvent) (rs : RState), Sess rs → (replRun cfg rs events).2 ≠ .crashed .panic := by
    intro events
    induction events with
    | nil => intro rs _; simp [replRun]
    | cons e es ih =>
      intro rs hs
      rw [replRun]
      have h3 := (replStep_status cfg rs e).2 .panic
      have h4 : ∀ cmd, (runtimeEval cfg rs cmd).2 ≠ .fail .panic := fun cmd => runtimeEval_no_panic cfg hb rs hs cmd
      have h5 : Sess (replStep cfg rs e).1 := by
        rcases replStep_state cfg rs e with h | ⟨s, -, h⟩ <;> rw [h]
        · exact hs
        · exact sess_step cfg rs _ hs
      generalize replStep cfg rs e = r at h3 h5
      obtain ⟨rs', r⟩ := r
      cases r with
      | running => exact ih rs' h5
      | exited => simp
      | crashed f =>
        intro h
        obtain ⟨s, -, h⟩ := h3 h
        exact h4 _ h
  exact main events _ (sess_initial cfg room)

/-- a session with an error in the middle that goes on and quits -/
example : (replRun demo (RState.new demo none)
    [.line s!' "x = 1", .line s!' "x +", .interrupted, .line s!' "y", .line s!' "print x", .line s!' "quit",
     .line s!' "print 2"]).1.ev.sink.out = s!' "1\n" := by decide +kernel
example : (replRun demo (RState.new demo none)
    [.line s!' "x = 1", .line s!' "x +", .interrupted, .line s!' "y", .line s!' "print x", .line s!' "quit",
     .line s!' "print 2"]).2 = .exited := by decide +kernel

/-! ### C66: scripts -/

/-- **C66** A script succeeds exactly if it parses, the analyzer accepts it knowing the built-in names
only, and its evaluation runs to the end or quits. -/
theorem C66_success_iff (cfg : Cfg) (room : Option Nat) (contents : Str) :
    scriptSucceeded (scriptRun cfg room contents).2 = true ↔
      ∃ p, parse (stripComments contents) = some p ∧
        AcceptedL (fun x => x ∈ constants.map (·.1) ∨ x ∈ functions.map Function.display) False p ∧
        ((evalProgram { cfg with interactive := false } p (State.new cfg room)).2 = .ok ∨
         (evalProgram { cfg with interactive := false } p (State.new cfg room)).2 = .quit) := by
  have hb : (fun x => x ∈ constants.map (·.1) ∨ x ∈ functions.map Function.display) =
      fun x => AState.new.vars.get x ≠ none := by
    funext x
    exact propext (builtins_defined x).symm
  rw [hb]
  have hv := fun p => C18_accepts_iff p AState.new (by simp [AState.new])
  unfold scriptRun
  rcases runtimeEval_cases { cfg with interactive := false } (RState.new cfg room) (stripComments contents) with
    ⟨h1, he⟩ | ⟨p, e, h1, h2, he⟩ | ⟨p, h1, h2, he⟩ <;> rw [he, h1]
  · simp [scriptSucceeded]
  · simp only [scriptSucceeded, Bool.false_eq_true, Option.some.injEq, false_iff]
    rintro ⟨q, rfl, hq, -⟩
    rw [show (0 < AState.new.loopDepth) = False by simp [AState.new]] at hv
    have h2 : (analyzeStmts p AState.new).2 = .error e := h2
    rw [(hv p).2 hq] at h2
    simp at h2
  · rw [show (0 < AState.new.loopDepth) = False by simp [AState.new]] at hv
    have h2 := (hv p).1 h2
    simp only [Option.some.injEq, exists_eq_left', h2, true_and]
    change scriptSucceeded (evalProgram { cfg with interactive := false } p (State.new cfg room)).2 = true ↔ _
    cases (evalProgram { cfg with interactive := false } p (State.new cfg room)).2 <;> simp [scriptSucceeded]

/-- **C66** Otherwise it fails: with the error of parsing, of analysis or of evaluation. -/
theorem C66_failure_iff (cfg : Cfg) (room : Option Nat) (contents : Str) :
    scriptSucceeded (scriptRun cfg room contents).2 = false ↔ ∃ f, (scriptRun cfg room contents).2 = .fail f := by
  cases (scriptRun cfg room contents).2 <;> simp [scriptSucceeded]

/-- one script of each kind -/
example : scriptSucceeded (scriptRun demo none s!' "x = 1; # set\nprint x;\n").2 = true := by decide +kernel
example : scriptSucceeded (scriptRun demo none s!' "quit; print 1 / 0;").2 = true := by decide +kernel
example : scriptSucceeded (scriptRun demo none s!' "print 1 / 0;").2 = false := by decide +kernel
example : scriptSucceeded (scriptRun demo none s!' "print y;").2 = false := by decide +kernel
example : scriptSucceeded (scriptRun demo none s!' "print 1").2 = false := by decide +kernel

end Btrd
