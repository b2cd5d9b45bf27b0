/-
The process at the prompt: with less room, and against `replRun`.
-/
import Verif.Lemmas.Room
import Verif.Model.Main

namespace Btrd

/-! ### `println!` -/

theorem write_kind (st : State) (s : Str) : (st.write s).2 = .ok ∨ (st.write s).2 = .fail (.err .sink) := by
  obtain ⟨⟨o, r⟩, v, f⟩ := st
  cases r with
  | none => exact .inl (by simp [State.write, Sink.write])
  | some k =>
    by_cases h : s.length ≤ k
    · exact .inl (by simp [State.write, Sink.write, h])
    · exact .inr (by simp [State.write, Sink.write, h, R.err])

theorem println_none (st : State) (s : Str) (h : st.sink.room = none) :
    st.println s = ({ st with sink := ⟨st.sink.out ++ (s ++ ['\n']), none⟩ }, true) := by
  simp [State.println, State.write, Sink.write, h]

theorem println_stuck (st : State) (s : Str) (h : st.sink.room = some 0) : st.println s = (st, false) := by
  obtain ⟨⟨o, r⟩, v, f⟩ := st
  simp only at h
  subst h
  simp [State.println, State.write, Sink.write]

/-- as `Cut`, for `println!` -/
theorem println_cut {n : Nat} (st : State) (s : Str) (hr : st.sink.room = none) (hl : st.sink.out.length ≤ n) :
    if (st.sink.out ++ (s ++ ['\n'])).length ≤ n then
      (st.limit n).println s = (State.limit { st with sink := ⟨st.sink.out ++ (s ++ ['\n']), none⟩ } n, true)
    else (st.limit n).println s = ({ st with sink := ⟨(st.sink.out ++ (s ++ ['\n'])).take n, some 0⟩ }, false) := by
  have h := cut_write st (s ++ ['\n']) hr hl
  have hw : st.write (s ++ ['\n']) = ({ st with sink := ⟨st.sink.out ++ (s ++ ['\n']), none⟩ }, .ok) := by
    simp [State.write, Sink.write, hr]
  rw [hw] at h
  by_cases hle : (st.sink.out ++ (s ++ ['\n'])).length ≤ n
  · rw [if_pos hle, State.println, h.fits hle]
  · rw [if_neg hle, State.println]
    obtain ⟨⟨f, h1⟩, h2⟩ := h.full hle
    have hv : ((st.limit n).write (s ++ ['\n'])).1.vars = st.vars ∧ ((st.limit n).write (s ++ ['\n'])).1.fs = st.fs := by
      unfold State.write
      split <;> exact ⟨rfl, rfl⟩
    generalize (st.limit n).write (s ++ ['\n']) = w at h1 h2 hv
    obtain ⟨⟨k, v, g⟩, x⟩ := w
    simp only at h1 h2 hv
    subst h1 h2
    rw [hv.1, hv.2]

/-! ### less room -/

def Proc.limit (p : Proc) (n : Nat) : Proc := ⟨⟨p.rs.sem, p.rs.ev.limit n⟩, p.err⟩

/-- what the process has written -/
abbrev Proc.out (p : Proc) : Str := p.rs.ev.sink.out

/-- as `Cut`, for the process -/
def CutP (n : Nat) (r r' : Proc × ProcStatus) : Prop :=
  r.1.rs.ev.sink.room = none ∧
  if r.1.out.length ≤ n then r' = (r.1.limit n, r.2) else r'.1.rs.ev.sink = ⟨r.1.out.take n, some 0⟩

variable {n : Nat}

theorem CutP.refl {p : Proc} (hr : p.rs.ev.sink.room = none) (hl : p.out.length ≤ n) (x : ProcStatus) :
    CutP n (p, x) (p.limit n, x) := ⟨hr, by rw [if_pos hl]⟩

theorem CutP.fits {r r' : Proc × ProcStatus} (h : CutP n r r') (hl : r.1.out.length ≤ n) : r' = (r.1.limit n, r.2) := by
  have := h.2
  rwa [if_pos hl] at this

theorem CutP.full {r r' : Proc × ProcStatus} (h : CutP n r r') (hl : ¬ r.1.out.length ≤ n) :
    r'.1.rs.ev.sink = ⟨r.1.out.take n, some 0⟩ := by
  have := h.2
  rwa [if_neg hl] at this

theorem CutP.take {r r' : Proc × ProcStatus} (h : CutP n r r') : r'.1.out = r.1.out.take n := by
  by_cases hl : r.1.out.length ≤ n
  · rw [h.fits hl, List.take_of_length_le hl]; rfl
  · exact congrArg Sink.out (h.full hl)

theorem procPrintln_cut (p : Proc) (s : Str) (x : ProcStatus) (hr : p.rs.ev.sink.room = none) (hl : p.out.length ≤ n) :
    CutP n (p.println s x) ((p.limit n).println s x) := by
  have h := println_cut p.rs.ev s hr hl
  have h0 := println_none p.rs.ev s hr
  unfold Proc.println
  rw [h0]
  refine ⟨rfl, ?_⟩
  dsimp only [Proc.limit, Proc.out]
  split at h <;> rename_i hle
  · rw [if_pos hle, h]
  · rw [if_neg hle, h]

/-- the result of an entry, as a status -/
def afterLine (err : List ErrLine) : RState × EvalResult → Proc × ProcStatus
  | (rs, .ok) => (⟨rs, err⟩, .running)
  | (rs, .quit) => (⟨rs, err⟩, .over)
  | (rs, .fail (.err e)) => (⟨rs, err ++ [.error e.text]⟩, .running)
  | (rs, .fail .panic) => (⟨rs, err ++ [.panicked]⟩, .panicked)
  | (rs, .fail .diverge) => (⟨rs, err⟩, .hung)

theorem procStep_line (cfg : Cfg) (p : Proc) (s : Str) :
    procStep cfg p (.line s) = afterLine p.err (runtimeEval cfg p.rs (fixupInput (stripComments s))) := by
  simp only [procStep]
  generalize runtimeEval cfg p.rs (fixupInput (stripComments s)) = r
  obtain ⟨rs, r⟩ := r
  cases r with
  | ok => rfl
  | quit => rfl
  | fail f => cases f <;> rfl

theorem afterLine_rs (err : List ErrLine) (r : RState × EvalResult) : (afterLine err r).1.rs = r.1 := by
  obtain ⟨rs, r⟩ := r
  cases r with
  | ok => rfl
  | quit => rfl
  | fail f => cases f <;> rfl

theorem afterLine_limit (err : List ErrLine) (r : RState × EvalResult) :
    afterLine err (⟨r.1.sem, r.1.ev.limit n⟩, r.2) = ((afterLine err r).1.limit n, (afterLine err r).2) := by
  obtain ⟨rs, r⟩ := r
  cases r with
  | ok => rfl
  | quit => rfl
  | fail f => cases f <;> rfl

theorem afterLine_cut (err : List ErrLine) {r r' : RState × EvalResult} (h0 : r.1.ev.sink.room = none)
    (h1 : r.1.ev.sink.out.length ≤ n → r' = (⟨r.1.sem, r.1.ev.limit n⟩, r.2))
    (h2 : ¬ r.1.ev.sink.out.length ≤ n → r'.1.ev.sink = ⟨r.1.ev.sink.out.take n, some 0⟩) :
    CutP n (afterLine err r) (afterLine err r') := by
  refine ⟨by rw [afterLine_rs]; exact h0, ?_⟩
  have ho : (afterLine err r).1.out = r.1.ev.sink.out := by rw [Proc.out, afterLine_rs]
  by_cases hle : r.1.ev.sink.out.length ≤ n
  · rw [if_pos (by rw [ho]; exact hle), h1 hle, afterLine_limit]
  · rw [if_neg (by rw [ho]; exact hle), ho, afterLine_rs, h2 hle]

theorem line_cut (cfg : Cfg) (p : Proc) (s : Str) (hr : p.rs.ev.sink.room = none) (hl : p.out.length ≤ n) :
    CutP n (procStep cfg p (.line s)) (procStep cfg (p.limit n) (.line s)) := by
  rw [procStep_line, procStep_line]
  generalize fixupInput (stripComments s) = c
  apply afterLine_cut (n := n) p.err
  all_goals unfold runtimeEval
  all_goals cases parse c with
    | none => first | exact hr | (intro h; first | rfl | exact absurd hl h)
    | some q =>
      dsimp only [Proc.limit]
      cases analyzeStmts q p.rs.sem with
      | mk sem x =>
        cases x with
        | error e => first | exact hr | (intro h; first | rfl | exact absurd hl h)
        | ok u =>
          have h := cut_stmts (n := n) cfg q p.rs.ev hr hl
          dsimp only [evalProgram]
          generalize evalStmts cfg q p.rs.ev = r at h
          generalize evalStmts cfg q (p.rs.ev.limit n) = r' at h
          obtain ⟨st, x⟩ := r
          obtain ⟨st', x'⟩ := r'
          first
            | exact h.1
            | (intro hle; first | (cases h.fits hle; rfl) | exact (h.full hle).2)

theorem step_cut (cfg : Cfg) (p : Proc) (e : ReplEvent) (hr : p.rs.ev.sink.room = none) (hl : p.out.length ≤ n) :
    CutP n (procStep cfg p e) (procStep cfg (p.limit n) e) := by
  cases e with
  | line s => exact line_cut cfg p s hr hl
  | interrupted => exact CutP.refl (p := ⟨p.rs, p.err ++ [.hint]⟩) hr hl _
  | eof => exact procPrintln_cut p _ _ hr hl
  | otherError => exact procPrintln_cut ⟨p.rs, p.err ++ [.logged]⟩ _ _ hr hl

/-! ### no output is taken back, and none added when there is no room -/

theorem stuck_closed (cfg : Cfg) (k : Str) : InvClosed cfg (fun _ => True) (fun st => st.sink = ⟨k, some 0⟩) where
  push st h := h
  pop st vs h _ := h
  assign st l r _ _ h := by rw [evalAssign_sink]; exact h
  filesystem st e _ h := by rw [evalFilesystem_sink]; exact h
  write st s h := by
    cases s <;> simp [State.write, Sink.write, h]
  bind st e items k _ _ _ v _ st' name vs h _ := h

theorem line_inv (cfg : Cfg) (I : State → Prop) (h : InvClosed cfg (fun _ => True) I) (p : Proc) (s : Str) (hi : I p.rs.ev) :
    I (procStep cfg p (.line s)).1.rs.ev := by
  rw [procStep_line, afterLine_rs]
  rcases runtimeEval_cases cfg p.rs (fixupInput (stripComments s)) with ⟨_, h'⟩ | ⟨q, e, _, _, h'⟩ | ⟨q, _, _, h'⟩
  · rw [h']; exact hi
  · rw [h']; exact hi
  · rw [h']; exact evalStmts_inv h q (allE_true q) p.rs.ev hi

theorem println_inv (p : Proc) (s : Str) (x : ProcStatus) : (p.println s x).1.rs.ev = (p.rs.ev.write (s ++ ['\n'])).1 := by
  unfold Proc.println State.println
  rcases write_kind p.rs.ev (s ++ ['\n']) with h | h <;>
    (generalize p.rs.ev.write (s ++ ['\n']) = w at h; obtain ⟨a, b⟩ := w; simp only at h; subst h; rfl)

theorem step_inv (cfg : Cfg) (I : State → Prop) (h : InvClosed cfg (fun _ => True) I) (p : Proc) (e : ReplEvent) (hi : I p.rs.ev) :
    I (procStep cfg p e).1.rs.ev := by
  cases e with
  | line s => exact line_inv cfg I h p s hi
  | interrupted => exact hi
  | eof => rw [procStep, println_inv]; exact h.write _ _ hi
  | otherError => rw [procStep, println_inv]; exact h.write _ _ hi

theorem run_inv (cfg : Cfg) (I : State → Prop) (h : ∀ host, InvClosed { cfg with host := host } (fun _ => True) I)
    (hd : ∀ st (d : Fs → Fs), I st → I { st with fs := st.fs.map d }) :
    ∀ (ts : List Tick) (p : Proc), I p.rs.ev → I (procRun cfg p ts).1.rs.ev
  | [], p, hi => hi
  | t :: ts, p, hi => by
    have h1 := step_inv _ I (h t.host) (p.meets t.drift) t.event (hd _ _ hi)
    rw [procRun]
    generalize procStep { cfg with host := t.host } (p.meets t.drift) t.event = r at h1
    obtain ⟨q, x⟩ := r
    cases x with
    | running => exact run_inv cfg I h hd ts q h1
    | over => exact h1
    | panicked => exact h1
    | hung => exact h1

theorem run_grows (cfg : Cfg) (ts : List Tick) (p : Proc) : p.out <+: (procRun cfg p ts).1.out :=
  run_inv cfg (fun st => p.out <+: st.sink.out) (fun host => out_closed _ p.out) (fun _ _ h => h) ts p (List.prefix_refl _)

theorem run_none (cfg : Cfg) (ts : List Tick) (p : Proc) (h : p.rs.ev.sink.room = none) :
    (procRun cfg p ts).1.rs.ev.sink.room = none :=
  run_inv cfg (fun st => st.sink.room = none) (fun host => none_closed _) (fun _ _ h => h) ts p h

theorem run_stuck (cfg : Cfg) (ts : List Tick) (p : Proc) {k : Str} (h : p.rs.ev.sink = ⟨k, some 0⟩) :
    (procRun cfg p ts).1.rs.ev.sink = ⟨k, some 0⟩ :=
  run_inv cfg (fun st => st.sink = ⟨k, some 0⟩) (fun host => stuck_closed _ k) (fun _ _ h => h) ts p h

theorem run_cut (cfg : Cfg) : ∀ (ts : List Tick) (p : Proc), p.rs.ev.sink.room = none → p.out.length ≤ n →
    CutP n (procRun cfg p ts) (procRun cfg (p.limit n) ts)
  | [], p, hr, hl => CutP.refl hr hl _
  | t :: ts, p, hr, hl => by
    have h := step_cut (n := n) { cfg with host := t.host } (p.meets t.drift) t.event hr hl
    have hm : (p.limit n).meets t.drift = (p.meets t.drift).limit n := rfl
    rw [procRun, procRun, hm]
    generalize procStep { cfg with host := t.host } (p.meets t.drift) t.event = r at h
    generalize procStep { cfg with host := t.host } ((p.meets t.drift).limit n) t.event = r' at h
    obtain ⟨q, x⟩ := r
    by_cases hle : q.out.length ≤ n
    · have h' := h.fits hle
      subst h'
      cases x with
      | running => exact run_cut cfg ts q h.1 hle
      | over => exact CutP.refl h.1 hle _
      | panicked => exact CutP.refl h.1 hle _
      | hung => exact CutP.refl h.1 hle _
    · have h' := h.full hle
      obtain ⟨q', x'⟩ := r'
      dsimp only at h'
      have a1 : ∀ z : Proc × ProcStatus, z = (procRun cfg q ts) ∨ z.1 = q →
          z.1.rs.ev.sink.room = none ∧ q.out <+: z.1.out := by
        rintro z (rfl | hz)
        · exact ⟨run_none cfg ts q h.1, run_grows cfg ts q⟩
        · rw [hz]; exact ⟨h.1, List.prefix_refl _⟩
      have a2 : ∀ z : Proc × ProcStatus, z = (procRun cfg q' ts) ∨ z.1 = q' → z.1.rs.ev.sink = ⟨q.out.take n, some 0⟩ := by
        rintro z (rfl | hz)
        · exact run_stuck cfg ts q' h'
        · rw [hz]; exact h'
      have key : ∀ z z' : Proc × ProcStatus, (z = (procRun cfg q ts) ∨ z.1 = q) → (z' = (procRun cfg q' ts) ∨ z'.1 = q') →
          CutP n z z' := by
        intro z z' hz hz'
        obtain ⟨b1, b2⟩ := a1 z hz
        have b3 := b2.length_le
        refine ⟨b1, ?_⟩
        rw [if_neg (by omega), a2 z' hz']
        obtain ⟨u, hu⟩ := b2
        rw [← hu, List.take_append_of_le_length (by omega)]
      apply key
      · cases x <;> simp
      · cases x' <;> simp

/-! ### the banner -/

theorem printlns_none : ∀ (ls : List Str) (st : State), st.sink.room = none →
    st.printlns ls = ({ st with sink := ⟨st.sink.out ++ ls.flatMap (· ++ ['\n']), none⟩ }, true)
  | [], st, h => by
    obtain ⟨⟨o, r⟩, v, f⟩ := st
    simp only at h
    subst h
    simp [State.printlns]
  | s :: ls, st, h => by
    rw [State.printlns, println_none st s h]
    dsimp only
    rw [printlns_none ls _ rfl]
    simp

theorem printlns_cut : ∀ (ls : List Str) (st : State), st.sink.room = none → st.sink.out.length ≤ n →
    if (st.sink.out ++ ls.flatMap (· ++ ['\n'])).length ≤ n then
      (st.limit n).printlns ls = (State.limit { st with sink := ⟨st.sink.out ++ ls.flatMap (· ++ ['\n']), none⟩ } n, true)
    else (st.limit n).printlns ls = ({ st with sink := ⟨(st.sink.out ++ ls.flatMap (· ++ ['\n'])).take n, some 0⟩ }, false)
  | [], st, h, hl => by
    obtain ⟨⟨o, r⟩, v, f⟩ := st
    simp only at h hl
    subst h
    simp [State.printlns, hl]
  | s :: ls, st, h, hl => by
    have h1 := println_cut st s h hl
    rw [State.printlns]
    by_cases hle : (st.sink.out ++ (s ++ ['\n'])).length ≤ n
    · rw [if_pos hle] at h1
      rw [h1]
      have h2 := printlns_cut ls { st with sink := ⟨st.sink.out ++ (s ++ ['\n']), none⟩ } rfl hle
      simpa [List.append_assoc] using h2
    · rw [if_neg hle] at h1
      rw [h1]
      have hlong : ¬ (st.sink.out ++ (s :: ls).flatMap (· ++ ['\n'])).length ≤ n := by
        simp only [List.flatMap_cons, List.length_append] at hle ⊢
        omega
      rw [if_neg hlong]
      dsimp only
      have ht : (st.sink.out ++ (s :: ls).flatMap (· ++ ['\n'])).take n = (st.sink.out ++ (s ++ ['\n'])).take n := by
        rw [List.flatMap_cons, ← List.append_assoc st.sink.out, List.take_append_of_le_length (by omega)]
      rw [ht]

theorem start_cut (cfg : Cfg) : CutP n (procStart cfg none) (procStart cfg (some n)) := by
  have h0 := printlns_none welcomeLines (State.new cfg none) rfl
  have h1 := printlns_cut (n := n) welcomeLines (State.new cfg none) rfl (Nat.zero_le n)
  have hs : (State.new cfg none).limit n = State.new cfg (some n) := rfl
  rw [hs] at h1
  unfold procStart
  rw [h0]
  refine ⟨rfl, ?_⟩
  split at h1 <;> rename_i hle
  · rw [if_pos hle, h1]; rfl
  · rw [if_neg hle, h1]

theorem session_cut (cfg : Cfg) (ts : List Tick) : CutP n (procSession cfg none ts) (procSession cfg (some n) ts) := by
  have h := start_cut (n := n) cfg
  have hrun : (procStart cfg none).2 = .running := by
    unfold procStart
    rw [printlns_none welcomeLines (State.new cfg none) rfl]
  unfold procSession
  generalize procStart cfg none = r at h hrun
  generalize procStart cfg (some n) = r' at h
  obtain ⟨p, x⟩ := r
  simp only at hrun
  subst hrun
  dsimp only
  by_cases hle : p.out.length ≤ n
  · have h' := h.fits hle
    subst h'
    exact run_cut _ ts p h.1 hle
  · have h' := h.full hle
    have hg := run_grows { cfg with interactive := true } ts p
    have hn := run_none { cfg with interactive := true } ts p h.1
    refine ⟨hn, ?_⟩
    have h3 := hg.length_le
    rw [if_neg (by omega)]
    have ht : (procRun { cfg with interactive := true } p ts).1.out.take n = p.out.take n := by
      obtain ⟨u, hu⟩ := hg
      rw [← hu, List.take_append_of_le_length (by omega)]
    rw [ht]
    obtain ⟨q', x'⟩ := r'
    cases x' with
    | running => exact run_stuck _ ts q' h'
    | over => exact h'
    | panicked => exact h'
    | hung => exact h'

end Btrd
