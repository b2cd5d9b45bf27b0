/-
Everything a run does (`Model/Trace`), compared with `Model/Live`, which has the output only as a whole.
-/
import Verif.Spec.Trace
import Verif.Lemmas.Live

namespace Btrd
open Spec

/-! ### without the output -/

/-- the same computation without what it writes -/
def W.mute {α : Type} : W α → T α
  | .ret a => .ret a
  | .wrote _ k => k.mute
  | .warn w k => .warn w k.mute
  | .search fs a k => .search fs a fun r => (k r).mute
  | .bytes fs i j k => .bytes fs i j fun r => (k r).mute
  | .opens p k => .opens p fun r => (k r).mute

theorem mute_bind {α β : Type} (f : α → W β) : ∀ x : W α, (x.bind f).mute = x.mute.bind fun a => (f a).mute
  | .ret a => rfl
  | .wrote s k => mute_bind f k
  | .warn w k => by simp only [W.bind, W.mute, T.bind, mute_bind f k]
  | .search fs a k => by simp only [W.bind, W.mute, T.bind, mute_bind f]
  | .bytes fs i j k => by simp only [W.bind, W.mute, T.bind, mute_bind f]
  | .opens p k => by simp only [W.bind, W.mute, T.bind, mute_bind f]

theorem mute_asW {α : Type} : ∀ x : T α, x.asW.mute = x
  | .ret a => rfl
  | .warn w k => by simp only [T.asW, W.mute, mute_asW k]
  | .search fs a k => by simp only [T.asW, W.mute, mute_asW]
  | .bytes fs i j k => by simp only [T.asW, W.mute, mute_asW]
  | .opens p k => by simp only [T.asW, W.mute, mute_asW]

theorem asW_bind {α β : Type} (f : α → T β) : ∀ x : T α, (x.bind f).asW = x.asW.bind fun a => (f a).asW
  | .ret a => rfl
  | .warn w k => by simp only [W.bind, T.asW, T.bind, asW_bind f k]
  | .search fs a k => by simp only [W.bind, T.asW, T.bind, asW_bind f]
  | .bytes fs i j k => by simp only [W.bind, T.asW, T.bind, asW_bind f]
  | .opens p k => by simp only [W.bind, T.asW, T.bind, asW_bind f]

theorem mute_into {α : Type} (x : E α) (st : State) (k : α → W (State × IRes)) :
    (x.intoW st k).mute = x.into st fun a => (k a).mute := by
  refine (mute_bind (α := R α) _ _).trans ?_
  have h : (T.asW (α := R α) x).mute = x := mute_asW (α := R α) x
  refine (congrArg (T.bind _) h).trans ?_
  show T.bind _ _ = T.bind _ _
  congr 1
  funext r
  cases r <;> rfl

theorem asW_into {α : Type} (x : E α) (st : State) (k : α → T (State × IRes)) :
    (x.into st k).asW = x.intoW st fun a => (k a).asW := by
  refine (asW_bind (α := R α) _ _).trans ?_
  show W.bind _ _ = W.bind _ _
  congr 1
  funext r
  cases r <;> rfl

theorem mute_scope (st : State) (body : State → W (State × IRes)) :
    (inScopeW st body).mute = inScopeT st fun st => (body st).mute := by
  unfold inScopeW inScopeT
  rw [mute_bind]
  rfl

theorem mute_while (c : State → E Bool) (body : State → W (State × IRes)) : ∀ (n : Nat) (st : State),
    (whileLoopW c body n st).mute = whileLoopT c (fun st => (body st).mute) n st
  | 0, st => rfl
  | n + 1, st => by
    rw [whileLoopW, whileLoopT, mute_into]
    congr 1
    funext b
    cases b
    · rfl
    · simp only [if_true]
      rw [mute_bind]
      congr 1
      funext r
      obtain ⟨st', r⟩ := r
      cases r with
      | ok => exact mute_while c body n st'
      | cont => exact mute_while c body n st'
      | _ => rfl

theorem mute_for (name : Str) (body : State → W (State × IRes)) : ∀ (vs : List Value) (st : State),
    (forLoopW name body vs st).mute = forLoopT name (fun st => (body st).mute) vs st
  | [], st => rfl
  | v :: vs, st => by
    rw [forLoopW, forLoopT, mute_into]
    congr 1
    funext w
    rw [mute_bind]
    congr 1
    funext r
    obtain ⟨st', r⟩ := r
    cases r with
    | ok => exact mute_for name body vs st'
    | cont => exact mute_for name body vs st'
    | _ => rfl

theorem mute_evalFor (cfg : Cfg) (x range : Expr) (body : State → W (State × IRes)) (st : State) :
    (evalForW cfg x range body st).mute = evalForT cfg x range (fun st => (body st).mute) st := by
  unfold evalForW evalForT
  cases x with
  | ident name =>
    dsimp only
    rw [mute_into]
    congr 1
    funext v
    rw [mute_into]
    congr 1
    funext vs
    exact mute_for name body vs st
  | _ => rfl

mutual
theorem mute_stmt (cfg : Cfg) : ∀ (s : Stmt) (st : State), (evalStmtW cfg s st).mute = evalStmtT cfg s st
  | .assign l r, st => by rw [evalStmtW, evalStmtT, mute_asW]
  | .ite c t f, st => by
    rw [evalStmtW, evalStmtT, mute_scope]
    congr 1
    funext st
    rw [mute_into]
    congr 1
    funext b
    cases b
    · exact mute_stmts cfg f st
    · exact mute_stmts cfg t st
  | .while c body, st => by
    rw [evalStmtW, evalStmtT, mute_scope]
    congr 1
    funext st
    rw [mute_while]
    congr 1
    funext st
    exact mute_stmts cfg body st
  | .for x r body, st => by
    rw [evalStmtW, evalStmtT, mute_scope]
    congr 1
    funext st
    rw [mute_evalFor]
    congr 1
    funext st
    exact mute_stmts cfg body st
  | .brk, st => by rw [evalStmtW, evalStmtT]; rfl
  | .cont, st => by rw [evalStmtW, evalStmtT]; rfl
  | .help, st => by rw [evalStmtW, evalStmtT]; rfl
  | .quit, st => by rw [evalStmtW, evalStmtT]; rfl
  | .filesystem e, st => by rw [evalStmtW, evalStmtT, mute_asW]
  | .print e, st => by
    rw [evalStmtW, evalStmtT]
    unfold evalPrintW evalPrintT
    rw [mute_into]
    congr 1
    funext v
    rw [mute_into]
    rfl
  | .expr e, st => by
    rw [evalStmtW, evalStmtT]
    unfold evalExprStmtW evalExprStmtT
    rw [mute_into]
    congr 1
    funext v
    cases cfg.interactive
    · rfl
    · simp only [if_true]
      rw [mute_into]
      rfl
theorem mute_stmts (cfg : Cfg) : ∀ (ss : List Stmt) (st : State), (evalStmtsW cfg ss st).mute = evalStmtsT cfg ss st
  | [], st => by rw [evalStmtsW, evalStmtsT]; rfl
  | s :: ss, st => by
    rw [evalStmtsW, evalStmtsT, mute_bind, mute_stmt cfg s st]
    congr 1
    funext r
    obtain ⟨st', r⟩ := r
    cases r with
    | ok => exact mute_stmts cfg ss st'
    | _ => rfl
end

theorem mute_runtime (cfg : Cfg) (rs : RState) (cmd : Str) : (runtimeEvalW cfg rs cmd).mute = runtimeEvalT cfg rs cmd := by
  unfold runtimeEvalW runtimeEvalT
  cases parse cmd with
  | none => rfl
  | some p =>
    dsimp only
    generalize analyzeStmts p rs.sem = r
    obtain ⟨sem, r⟩ := r
    cases r with
    | error e => rfl
    | ok _ =>
      dsimp only
      rw [mute_bind, mute_stmts]
      rfl

/-! ### what is seen of a sequence of acts -/

@[simp] theorem outOf_append : ∀ a b : List Act, outOf (a ++ b) = outOf a ++ outOf b
  | [], b => rfl
  | x :: a, b => by cases x <;> simp [outOf, outOf_append a b]

@[simp] theorem errOf_append : ∀ a b : List Act, errOf (a ++ b) = errOf a ++ errOf b
  | [], b => rfl
  | x :: a, b => by cases x <;> simp [errOf, errOf_append a b]

@[simp] theorem answersOf_append : ∀ a b : List Act, answersOf (a ++ b) = answersOf a ++ answersOf b
  | [], b => rfl
  | x :: a, b => by cases x <;> simp [answersOf, answersOf_append a b]

@[simp] theorem after_acts {α : Type} (l : List Act) (x : Traced α) : (x.after l).acts = l ++ x.acts := rfl
@[simp] theorem after_clock' {α : Type} (l : List Act) (x : Traced α) : (x.after l).clock = x.clock := rfl
@[simp] theorem after_result' {α : Type} (l : List Act) (x : Traced α) : (x.after l).result = x.result := rfl

@[simp] theorem outOf_answer (e : Event) : outOf e.answer = [] := by
  unfold Event.answer; split <;> rfl

@[simp] theorem errOf_answer (e : Event) : errOf e.answer = [] := by
  unfold Event.answer; split <;> rfl

/-- what a computation does, as in `Model/Live` -/
theorem live_mute {α : Type} (fuel : Nat) (ω : Live) : ∀ (x : W α) (t : Nat),
    (x.live fuel ω t).clock = (x.mute.live fuel ω t).clock ∧ (x.live fuel ω t).result = (x.mute.live fuel ω t).result ∧
      errOf (x.live fuel ω t).acts = warningLines (x.mute.live fuel ω t).log ∧
      answersOf (x.live fuel ω t).acts = answered (x.mute.live fuel ω t).log
  | .ret a, t => ⟨rfl, rfl, rfl, rfl⟩
  | .wrote s k, t => live_mute fuel ω k t
  | .warn w k, t => by
    obtain ⟨h1, h2, h3, h4⟩ := live_mute fuel ω k t
    refine ⟨h1, h2, ?_, ?_⟩
    · simp only [W.live, W.mute, T.live, after_acts, after_log, errOf_append, h3]; rfl
    · simp only [W.live, W.mute, T.live, after_acts, after_log, answersOf_append, h4]; rfl
  | .search fs a k, t => by
    obtain ⟨h1, h2, h3, h4⟩ := live_mute fuel ω (k ((ω.drift t fs).search fuel a)) (t + 1)
    refine ⟨h1, h2, ?_, ?_⟩
    · simp only [W.live, W.mute, T.live, after_acts, after_log, errOf_append, h3, errOf, errOf_answer]; rfl
    · simp only [W.live, W.mute, T.live, after_acts, after_log, answersOf_append, h4, answersOf, Event.answer]
      cases (ω.drift t fs).search fuel a with
      | ok _ => rfl
      | error f => cases f <;> rfl
  | .bytes fs i j k, t => by
    obtain ⟨h1, h2, h3, h4⟩ := live_mute fuel ω (k ((ω.drift t fs).getBytes i j)) (t + 1)
    refine ⟨h1, h2, ?_, ?_⟩
    · simp only [W.live, W.mute, T.live, after_acts, after_log, errOf_append, h3, errOf, errOf_answer]; rfl
    · simp only [W.live, W.mute, T.live, after_acts, after_log, answersOf_append, h4, answersOf, Event.answer]
      rfl
  | .opens p k, t => by
    obtain ⟨h1, h2, h3, h4⟩ := live_mute fuel ω (k (Fs.new (ω.host t) p)) (t + 1)
    refine ⟨h1, h2, ?_, ?_⟩
    · simp only [W.live, W.mute, T.live, after_acts, after_log, errOf_append, h3, errOf, errOf_answer]; rfl
    · simp only [W.live, W.mute, T.live, after_acts, after_log, answersOf_append, h4, answersOf, Event.answer]
      rfl

/-- one computation after the other -/
theorem trace_bind {α β : Type} (fuel : Nat) (ω : Live) (f : α → W β) : ∀ (x : W α) (t : Nat),
    (x.bind f).live fuel ω t =
      ⟨((f (x.live fuel ω t).result).live fuel ω (x.live fuel ω t).clock).clock,
       (x.live fuel ω t).acts ++ ((f (x.live fuel ω t).result).live fuel ω (x.live fuel ω t).clock).acts,
       ((f (x.live fuel ω t).result).live fuel ω (x.live fuel ω t).clock).result⟩
  | .ret a, t => by simp [W.bind, W.live]
  | .wrote s k, t => by simp only [W.bind, W.live, trace_bind fuel ω f k t]; rfl
  | .warn w k, t => by simp only [W.bind, W.live, trace_bind fuel ω f k t]; rfl
  | .search fs a k, t => by
    simp only [W.bind, W.live]; rw [trace_bind fuel ω f _ _]; simp [Traced.after]
  | .bytes fs i j k, t => by
    simp only [W.bind, W.live]; rw [trace_bind fuel ω f _ _]; simp [Traced.after]
  | .opens p k, t => by
    simp only [W.bind, W.live]; rw [trace_bind fuel ω f _ _]; simp [Traced.after]

/-! ### the output -/

/-- a computation that starts with this output: what is there at its end is that and what it wrote -/
inductive Puts {α : Type} (out : α → Str) : Str → W α → Prop
  | ret {s a} : out a = s → Puts out s (.ret a)
  | wrote {s} (u) {k} : Puts out (s ++ u) k → Puts out s (.wrote u k)
  | warn {s} (w) {k} : Puts out s k → Puts out s (.warn w k)
  | search {s} (fs a) {k} : (∀ r, Puts out s (k r)) → Puts out s (.search fs a k)
  | bytes {s} (fs i j) {k} : (∀ r, Puts out s (k r)) → Puts out s (.bytes fs i j k)
  | opens {s} (p) {k} : (∀ r, Puts out s (k r)) → Puts out s (.opens p k)

theorem Puts.live {α : Type} {out : α → Str} (fuel : Nat) (ω : Live) {s : Str} {x : W α} (h : Puts out s x) :
    ∀ t, out (x.live fuel ω t).result = s ++ outOf (x.live fuel ω t).acts := by
  induction h with
  | ret h => intro t; simp [W.live, outOf, h]
  | wrote u _ ih => intro t; have := ih t; simp [W.live, outOf, this]
  | warn w _ ih => intro t; have := ih t; simp [W.live, outOf, this]
  | search fs a _ ih => intro t; have := ih ((ω.drift t fs).search fuel a) (t + 1); simp [W.live, outOf, this]
  | bytes fs i j _ ih => intro t; have := ih ((ω.drift t fs).getBytes i j) (t + 1); simp [W.live, outOf, this]
  | opens p _ ih => intro t; have := ih (Fs.new (ω.host t) p) (t + 1); simp [W.live, outOf, this]

theorem puts_bind {α β : Type} {out : α → Str} {out' : β → Str} {f : α → W β} (hf : ∀ a, Puts out' (out a) (f a))
    {s : Str} {x : W α} (h : Puts out s x) : Puts out' s (x.bind f) := by
  induction h with
  | @ret s a h => subst h; exact hf a
  | wrote u _ ih => exact .wrote u ih
  | warn w _ ih => exact .warn w ih
  | search fs a _ ih => exact .search fs a ih
  | bytes fs i j _ ih => exact .bytes fs i j ih
  | opens p _ ih => exact .opens p ih

theorem puts_asW {α β : Type} {out : β → Str} {s : Str} {f : α → W β} (hf : ∀ a, Puts out s (f a)) :
    ∀ x : T α, Puts out s (x.asW.bind f)
  | .ret a => hf a
  | .warn w k => .warn w (puts_asW hf k)
  | .search fs a k => .search fs a fun r => puts_asW hf (k r)
  | .bytes fs i j k => .bytes fs i j fun r => puts_asW hf (k r)
  | .opens p k => .opens p fun r => puts_asW hf (k r)

/-- the output of a state -/
def outI (r : State × IRes) : Str := r.1.sink.out

theorem puts_into {α : Type} (x : E α) (st : State) {k : α → W (State × IRes)}
    (hk : ∀ a, Puts outI st.sink.out (k a)) : Puts outI st.sink.out (x.intoW st k) := by
  refine puts_asW (α := R α) (fun r => ?_) x
  cases r with
  | ok a => exact hk a
  | error e => exact .ret rfl

theorem sink_takes (k : Sink) (s : Str) : (k.write s).1.out = k.out ++ k.takes s := by
  unfold Sink.write Sink.takes
  cases k.room with
  | none => rfl
  | some n =>
    dsimp only
    split
    · next h => simp [List.take_of_length_le h]
    · rfl

theorem write_takes (st : State) (s : Str) : (st.write s).1.sink.out = st.sink.out ++ st.sink.takes s := by
  rw [← sink_takes]
  unfold State.write
  split <;> (next h => simp [h])

theorem puts_write (st : State) (s : Str) : Puts outI st.sink.out (st.writeW s) :=
  .wrote _ (.ret (write_takes st s))

theorem puts_assign (cfg : Cfg) (st : State) (l r : Expr) : Puts outI st.sink.out (evalAssignT cfg st l r).asW := by
  unfold evalAssignT
  rw [asW_into]
  refine puts_into _ st fun v => ?_
  cases l <;> dsimp only <;> rw [asW_into] <;> exact puts_into _ st fun _ => .ret rfl

theorem puts_filesystem (cfg : Cfg) (st : State) (e : Expr) : Puts outI st.sink.out (evalFilesystemT cfg st e).asW := by
  unfold evalFilesystemT
  rw [asW_into]
  refine puts_into _ st fun v => ?_
  rw [asW_into]
  refine puts_into _ st fun p => ?_
  rw [asW_into]
  exact puts_into _ st fun _ => .ret rfl

theorem puts_scope (st : State) {body : State → W (State × IRes)} (h : ∀ st, Puts outI st.sink.out (body st)) :
    Puts outI st.sink.out (inScopeW st body) := by
  refine puts_bind (out := outI) (fun r => .ret ?_) (h { st with vars := st.vars.push })
  cases r.1.vars.pop <;> rfl

theorem puts_while {c : State → E Bool} {body : State → W (State × IRes)}
    (hb : ∀ st, Puts outI st.sink.out (body st)) : ∀ (n : Nat) (st : State), Puts outI st.sink.out (whileLoopW c body n st)
  | 0, _ => .ret rfl
  | n + 1, st => by
    rw [whileLoopW]
    refine puts_into _ st fun b => ?_
    cases b
    · exact .ret rfl
    · refine puts_bind (out := outI) (fun r => ?_) (hb st)
      obtain ⟨st', r⟩ := r
      cases r with
      | ok => exact puts_while hb n st'
      | cont => exact puts_while hb n st'
      | _ => exact .ret rfl

theorem puts_for (name : Str) {body : State → W (State × IRes)} (hb : ∀ st, Puts outI st.sink.out (body st)) :
    ∀ (vs : List Value) (st : State), Puts outI st.sink.out (forLoopW name body vs st)
  | [], _ => .ret rfl
  | v :: vs, st => by
    rw [forLoopW]
    refine puts_into _ st fun w => puts_bind (out := outI) (fun r => ?_) (hb { st with vars := w })
    obtain ⟨st', r⟩ := r
    cases r with
    | ok => exact puts_for name hb vs st'
    | cont => exact puts_for name hb vs st'
    | _ => exact .ret rfl

mutual
theorem puts_stmt (cfg : Cfg) : ∀ (s : Stmt) (st : State), Puts outI st.sink.out (evalStmtW cfg s st)
  | .assign l r, st => by rw [evalStmtW]; exact puts_assign cfg st l r
  | .ite c t f, st => by
    rw [evalStmtW]
    refine puts_scope st fun st => puts_into _ st fun b => ?_
    cases b
    · exact puts_stmts cfg f st
    · exact puts_stmts cfg t st
  | .while c body, st => by
    rw [evalStmtW]
    exact puts_scope st fun st => puts_while (fun st => puts_stmts cfg body st) _ st
  | .for x r body, st => by
    rw [evalStmtW]
    refine puts_scope st fun st => ?_
    unfold evalForW
    cases x with
    | ident name => exact puts_into _ st fun _ => puts_into _ st fun vs => puts_for name (fun st => puts_stmts cfg body st) vs st
    | _ => exact .ret rfl
  | .brk, st => by rw [evalStmtW]; exact .ret rfl
  | .cont, st => by rw [evalStmtW]; exact .ret rfl
  | .help, st => by rw [evalStmtW]; exact puts_write ..
  | .quit, st => by rw [evalStmtW]; exact .ret rfl
  | .filesystem e, st => by rw [evalStmtW]; exact puts_filesystem cfg st e
  | .print e, st => by
    rw [evalStmtW]
    exact puts_into _ st fun _ => puts_into _ st fun _ => puts_write ..
  | .expr e, st => by
    rw [evalStmtW]
    refine puts_into _ st fun _ => ?_
    cases cfg.interactive
    · exact .ret rfl
    · exact puts_into _ st fun _ => puts_write ..
theorem puts_stmts (cfg : Cfg) : ∀ (ss : List Stmt) (st : State), Puts outI st.sink.out (evalStmtsW cfg ss st)
  | [], st => by rw [evalStmtsW]; exact .ret rfl
  | s :: ss, st => by
    rw [evalStmtsW]
    refine puts_bind (out := outI) (fun r => ?_) (puts_stmt cfg s st)
    obtain ⟨st', r⟩ := r
    cases r with
    | ok => exact puts_stmts cfg ss st'
    | _ => exact .ret rfl
end

theorem puts_runtime (cfg : Cfg) (rs : RState) (cmd : Str) :
    Puts (fun r => r.1.ev.sink.out) rs.ev.sink.out (runtimeEvalW cfg rs cmd) := by
  unfold runtimeEvalW
  cases parse cmd with
  | none => exact .ret rfl
  | some p =>
    dsimp only
    generalize analyzeStmts p rs.sem = r
    obtain ⟨sem, r⟩ := r
    cases r with
    | error e => exact .ret rfl
    | ok _ =>
      have := puts_bind (out := outI) (out' := fun r : RState × EvalResult => r.1.ev.sink.out)
        (f := fun r : State × IRes => .ret ((⟨sem, r.1⟩ : RState), r.2.toEvalResult)) (fun r => .ret rfl) (puts_stmts cfg p rs.ev)
      exact this

end Btrd
