/-
C98: a standard error that cannot be written to.
-/
import Verif.Lemmas.Stderr
import Verif.Props.Trace

namespace Btrd
open Spec

variable {ok : ErrStream}

theorem survive_last (n : Nat) (l : ErrLine) : Survives ok .failure n [.err l] (ok.offers n l) .failure := by
  unfold ErrStream.offers
  cases hn : ok n
  · exact .lost hn (.inr (.inr ⟨rfl, rfl⟩)) .all
  · exact .written hn .all

theorem end_survives (n : Nat) (saved : Bool) (s : ProcStatus) :
    Survives ok (endW saved s).2 n (endW saved s).1 (endE ok n saved s).1 (endE ok n saved s).2 := by
  cases s with
  | over =>
    cases saved
    · exact survive_last n _
    · exact .all
  | _ => exact .all

/-- **C98** A session whose standard error may fail does what it would do otherwise, up to the first warning, message of
an entry or hint that cannot be written; there it panics. Other lines may get lost without consequences. -/
theorem C98_session (cfg : Cfg) (room : Option Nat) (ok : Nat → Bool) (editor saved : Bool) (ts : List LiveTick) :
    Survives ok (replActs cfg room editor saved ts).2 0 (replActs cfg room editor saved ts).1
      (replActsE cfg room ok editor saved ts).1 (replActsE cfg room ok editor saved ts).2 := by
  unfold replActs replActsE
  cases editor
  · exact survive_last 0 _
  · simp only [if_true]
    obtain ⟨w1, w2⟩ := printlnsE_cut (ok := ok) welcomeLines 0 (State.new cfg room)
    unfold procStart
    revert w1 w2
    generalize State.printlnsE ok 0 (State.new cfg room) welcomeLines = d
    generalize (State.new cfg room).printlnsActs welcomeLines = acts
    generalize (State.new cfg room).printlns welcomeLines = r
    intro w1 w2
    obtain ⟨da, dn, st, b⟩ := d
    dsimp only at w1 w2 ⊢
    subst w2
    cases b
    · dsimp only
      have := w1.survives (b := []) (exit := .panicked) (fun h => by cases h) .all
      simp only [List.append_nil] at this
      exact this
    · dsimp only
      generalize hrw : runW { cfg with interactive := true } ⟨AState.new, st⟩ ts = rw'
      have h := runE_cut (ok := ok) { cfg with interactive := true } ts dn ⟨AState.new, st⟩
      rw [hrw] at h
      revert h
      generalize runE { cfg with interactive := true } ok dn ⟨AState.new, st⟩ ts = re
      intro h
      obtain ⟨ea, en, es⟩ := re
      dsimp only at h ⊢
      have hb : (endW saved rw'.1.2).2 = .failure → (endW saved rw'.1.2).1 ≠ [] := by
        generalize rw'.1.2 = s
        cases s <;> cases saved <;> simp [endW]
      rcases h with ⟨h1, h2⟩ | ⟨h1, h2⟩
      · rw [h2]
        exact (w1.append h1).survives hb (end_survives _ _ _)
      · subst h2
        have := (w1.append h1).panics _ hb
        simpa [endE] using this

/-- **C98** The same for a script. -/
theorem C98_script (cfg : Cfg) (room : Option Nat) (ok : Nat → Bool) (ω : Live) (file : Option Bytes) :
    Survives ok (scriptActs cfg room ω file).2 0 (scriptActs cfg room ω file).1
      (scriptActsE cfg room ok ω file).1 (scriptActsE cfg room ok ω file).2 := by
  unfold scriptActs scriptActsE
  cases file with
  | none => exact survive_last 0 _
  | some b =>
    dsimp only
    cases decodeUtf8 b with
    | none => exact survive_last 0 _
    | some s =>
      dsimp only
      generalize RState.new { cfg with interactive := false } room = rs
      have h := live_fares (ok := ok) cfg.fuel ω (runtimeEvalW { cfg with interactive := false } rs (stripComments s)) 0 0
      revert h
      generalize (runtimeEvalW { cfg with interactive := false } rs (stripComments s)).live cfg.fuel ω 0 = l
      generalize (runtimeEvalW { cfg with interactive := false } rs (stripComments s)).liveE cfg.fuel ω ok 0 0 = e
      intro h
      obtain ⟨ec, en, ea, er⟩ := e
      have hb : (scriptExit l.result.2).2 = .failure → (scriptExit l.result.2).1.map Act.err ≠ [] := by
        generalize l.result.2 = r
        cases r with
        | fail f => cases f <;> simp [scriptExit]
        | _ => simp [scriptExit]
      cases h with
      | through h1 h2 =>
        dsimp only at h1 h2 ⊢
        subst h2
        dsimp only
        refine h1.survives hb ?_
        generalize l.result.2 = r
        cases r with
        | ok => exact .all
        | quit => exact .all
        | fail f =>
          cases f with
          | err e =>
            simp only [scriptExit, scriptEndE, List.map_cons, List.map_nil]
            cases hn : ok en
            · have he : ¬ Expendable (.error e.text) [Act.err (.error (some s!' "Error in script"))] .failure := by
                rintro (h | h | ⟨h, _⟩) <;> cases h
              simp only [ErrStream.offers, Bool.false_eq_true, if_false]
              cases hn' : ok (en + 1)
              · exact .mute hn he hn'
              · exact .fatal hn he hn'
            · exact .written hn (survive_last _ _)
          | panic =>
            have := (cut_offers (ok := ok) en (m := .panicked) (.inr rfl)).survives (b := []) (exit := .panicked)
              (fun h => by cases h) .all
            simp only [List.append_nil] at this
            exact this
          | diverge => exact .all
      | panics h1 h2 =>
        dsimp only at h1 h2 ⊢
        subst h2
        exact h1.panics _ hb

/-! ### what follows -/

/-- **C98** The rules leave no choice. -/
theorem C98_one {exit : Exit} {n : Nat} {l a b : List Act} {e e' : Exit} (h : Survives ok exit n l a e)
    (g : Survives ok exit n l b e') : a = b ∧ e = e' := by
  induction h generalizing b e' with
  | all => cases g; exact ⟨rfl, rfl⟩
  | other h _ ih =>
    cases g with
    | other _ g => obtain ⟨h1, h2⟩ := ih g; exact ⟨by rw [h1], h2⟩
    | _ => exact absurd rfl (h _)
  | written h _ ih =>
    cases g with
    | other g => exact absurd rfl (g _)
    | written _ g => obtain ⟨h1, h2⟩ := ih g; exact ⟨by rw [h1], h2⟩
    | lost g => rw [h] at g; cases g
    | fatal g => rw [h] at g; cases g
    | mute g => rw [h] at g; cases g
  | lost h h' _ ih =>
    cases g with
    | other g => exact absurd rfl (g _)
    | written g => rw [h] at g; cases g
    | lost _ _ g => exact ih g
    | fatal _ g => exact absurd h' g
    | mute _ g => exact absurd h' g
  | fatal h h' hn =>
    cases g with
    | other g => exact absurd rfl (g _)
    | written g => rw [h] at g; cases g
    | lost _ g => exact absurd g h'
    | fatal => exact ⟨rfl, rfl⟩
    | mute _ _ g => rw [hn] at g; cases g
  | mute h h' hn =>
    cases g with
    | other g => exact absurd rfl (g _)
    | written g => rw [h] at g; cases g
    | lost _ g => exact absurd g h'
    | fatal _ _ g => rw [hn] at g; cases g
    | mute => exact ⟨rfl, rfl⟩

theorem survives_good {exit : Exit} (hok : ∀ n, ok n = true) : ∀ (l : List Act) (n : Nat), Survives ok exit n l l exit
  | [], _ => .all
  | .err _ :: l, n => .written (hok n) (survives_good hok l (n + 1))
  | .took _ :: l, n => .other (fun m h => by cases h) (survives_good hok l n)
  | .out _ :: l, n => .other (fun m h => by cases h) (survives_good hok l n)
  | .asks _ :: l, n => .other (fun m h => by cases h) (survives_good hok l n)
  | .told _ :: l, n => .other (fun m h => by cases h) (survives_good hok l n)

/-- **C98** If every line can be written, sessions and scripts are those of C97. -/
theorem C98_good (hok : ∀ n, ok n = true) (cfg : Cfg) (room : Option Nat) (editor saved : Bool) (ts : List LiveTick)
    (ω : Live) (file : Option Bytes) :
    replActsE cfg room ok editor saved ts = replActs cfg room editor saved ts ∧
      scriptActsE cfg room ok ω file = scriptActs cfg room ω file := by
  constructor
  · obtain ⟨h1, h2⟩ := C98_one (C98_session cfg room ok editor saved ts) (survives_good hok _ 0)
    exact Prod.ext h1 h2
  · obtain ⟨h1, h2⟩ := C98_one (C98_script cfg room ok ω file) (survives_good hok _ 0)
    exact Prod.ext h1 h2

/-- what is left of a run with a failing standard error -/
theorem survives_views {exit : Exit} {n : Nat} {l a : List Act} {e : Exit} (h : Survives ok exit n l a e) :
    (outOf a <+: outOf l ∧ answersOf a <+: answersOf l ∧ takenOf a <+: takenOf l) ∧
      ((outOf a = outOf l ∧ answersOf a = answersOf l ∧ takenOf a = takenOf l ∧ e = exit) ∨ e = .panicked) := by
  induction h with
  | all => exact ⟨⟨List.prefix_rfl, List.prefix_rfl, List.prefix_rfl⟩, .inl ⟨rfl, rfl, rfl, rfl⟩⟩
  | @other n x l l' e hx _ ih =>
    obtain ⟨⟨h1, h2, h3⟩, h4⟩ := ih
    cases x with
    | err m => exact absurd rfl (hx m)
    | _ =>
      simp only [outOf, answersOf, takenOf, List.prefix_append_right_inj, List.cons_prefix_cons, true_and, List.append_cancel_left_eq,
        List.cons.injEq]
      exact ⟨⟨h1, h2, h3⟩, h4⟩
  | written _ _ ih => exact ih
  | lost _ _ _ ih => exact ih
  | fatal => exact ⟨⟨List.nil_prefix, List.nil_prefix, List.nil_prefix⟩, .inr rfl⟩
  | mute => exact ⟨⟨List.nil_prefix, List.nil_prefix, List.nil_prefix⟩, .inr rfl⟩

/-- **C98** Whatever becomes of standard error, a session prints a first part of what it would have printed, asks and
takes no more than it would have, and if it does not panic, all of it, with the same exit status. -/
theorem C98_session_part (cfg : Cfg) (room : Option Nat) (ok : Nat → Bool) (editor saved : Bool) (ts : List LiveTick) :
    let a := (replActs cfg room editor saved ts).1
    let b := (replActsE cfg room ok editor saved ts).1
    (outOf b <+: outOf a ∧ answersOf b <+: answersOf a ∧ takenOf b <+: takenOf a) ∧
    ((outOf b = outOf a ∧ answersOf b = answersOf a ∧ takenOf b = takenOf a ∧
        (replActsE cfg room ok editor saved ts).2 = (replActs cfg room editor saved ts).2) ∨
      (replActsE cfg room ok editor saved ts).2 = .panicked) :=
  survives_views (C98_session cfg room ok editor saved ts)

/-- **C98** So does a script. -/
theorem C98_script_part (cfg : Cfg) (room : Option Nat) (ok : Nat → Bool) (ω : Live) (file : Option Bytes) :
    let a := (scriptActs cfg room ω file).1
    let b := (scriptActsE cfg room ok ω file).1
    (outOf b <+: outOf a ∧ answersOf b <+: answersOf a ∧ takenOf b <+: takenOf a) ∧
    ((outOf b = outOf a ∧ answersOf b = answersOf a ∧ takenOf b = takenOf a ∧
        (scriptActsE cfg room ok ω file).2 = (scriptActs cfg room ω file).2) ∨
      (scriptActsE cfg room ok ω file).2 = .panicked) :=
  survives_views (C98_script cfg room ok ω file)

theorem survives_needed {n : Nat} {l a : List Act} {exit e : Exit} (h : Survives ok exit n l a e)
    (he : e ≠ .panicked) (hf : e ≠ .failure) : (errOf a).filter Needed = (errOf l).filter Needed := by
  induction h with
  | all => rfl
  | @other n x l l' e hx _ ih =>
    cases x with
    | err m => exact absurd rfl (hx m)
    | _ => exact ih he hf
  | written _ _ ih => simp only [errOf, List.filter_cons, ih he hf]
  | @lost n m l l' e hn hx hs ih =>
    rcases hx with rfl | rfl | ⟨rfl, rfl⟩
    · exact ih he hf
    · exact ih he hf
    · cases hs
      exact absurd rfl hf
  | fatal => exact absurd rfl he
  | mute => exact absurd rfl he

/-- **C98** A session that goes on or ends with exit status 0 has written every warning, message and hint. -/
theorem C98_session_needed (cfg : Cfg) (room : Option Nat) (ok : Nat → Bool) (editor saved : Bool) (ts : List LiveTick)
    (h : (replActsE cfg room ok editor saved ts).2 ≠ .panicked) (h' : (replActsE cfg room ok editor saved ts).2 ≠ .failure) :
    (errOf (replActsE cfg room ok editor saved ts).1).filter Needed =
      (errOf (replActs cfg room editor saved ts).1).filter Needed :=
  survives_needed (C98_session cfg room ok editor saved ts) h h'

theorem live_warns {α : Type} (fuel : Nat) (ω : Live) : ∀ (x : W α) (t : Nat) (m : ErrLine),
    m ∈ errOf (x.live fuel ω t).acts → ∃ w, m = .warning w
  | .ret a, t, m, h => by cases h
  | .wrote s k, t, m, h => live_warns fuel ω k t m h
  | .warn w k, t, m, h => by
    simp only [W.live, Traced.after, List.cons_append, List.nil_append, errOf, List.mem_cons] at h
    rcases h with rfl | h
    · exact ⟨w, rfl⟩
    · exact live_warns fuel ω k t m h
  | .search fs a k, t, m, h => by
    simp only [W.live, Traced.after, List.cons_append, errOf, errOf_append] at h
    rw [show errOf (Event.answer _) = [] by unfold Event.answer; split <;> rfl] at h
    exact live_warns fuel ω (k ((ω.drift t fs).search fuel a)) (t + 1) m h
  | .bytes fs i j k, t, m, h => by
    simp only [W.live, Traced.after, List.cons_append, errOf, errOf_append] at h
    rw [show errOf (Event.answer _) = [] by unfold Event.answer; split <;> rfl] at h
    exact live_warns fuel ω (k ((ω.drift t fs).getBytes i j)) (t + 1) m h
  | .opens p k, t, m, h => by
    simp only [W.live, Traced.after, List.cons_append, errOf, errOf_append] at h
    rw [show errOf (Event.answer _) = [] by unfold Event.answer; split <;> rfl] at h
    exact live_warns fuel ω (k (Fs.new (ω.host t) p)) (t + 1) m h

theorem survives_whole {n : Nat} {l a : List Act} {exit e : Exit} (h : Survives ok exit n l a e)
    (hl : ∀ m ∈ errOf l, Needed m = true) (he : e ≠ .panicked) (hf : e ≠ .failure) : a = l := by
  induction h with
  | all => rfl
  | @other n x l l' e hx _ ih =>
    cases x with
    | err m => exact absurd rfl (hx m)
    | _ => rw [ih hl he hf]
  | written _ _ ih =>
    simp only [errOf, List.mem_cons, forall_eq_or_imp] at hl
    rw [ih hl.2 he hf]
  | @lost n m l l' e hn hx hs ih =>
    simp only [errOf, List.mem_cons, forall_eq_or_imp] at hl
    rcases hx with rfl | rfl | ⟨rfl, rfl⟩
    · cases hl.1
    · cases hl.1
    · cases hs
      exact absurd rfl hf
  | fatal => exact absurd rfl he
  | mute => exact absurd rfl he

theorem script_warns (cfg : Cfg) (room : Option Nat) (ω : Live) (file : Option Bytes)
    (h : (scriptActs cfg room ω file).2 ≠ .panicked) : ∀ m ∈ errOf (scriptActs cfg room ω file).1, Needed m = true := by
  revert h
  unfold scriptActs
  cases file with
  | none => simp [errOf, Needed]
  | some b =>
    dsimp only
    cases decodeUtf8 b with
    | none => simp [errOf, Needed]
    | some s =>
      dsimp only
      generalize hx : runtimeEvalW { cfg with interactive := false } (RState.new { cfg with interactive := false } room)
        (stripComments s) = x
      have hw := live_warns cfg.fuel ω x 0
      generalize x.live cfg.fuel ω 0 = l at hw
      intro h m hm
      rw [errOf_append, errOf_errs, List.mem_append] at hm
      rcases hm with hm | hm
      · obtain ⟨w, rfl⟩ := hw m hm
        rfl
      · revert hm h
        generalize l.result.2 = r
        intro h hm
        cases r with
        | fail f =>
          cases f with
          | err e =>
            simp only [scriptExit, List.mem_cons, List.not_mem_nil, or_false] at hm
            rcases hm with rfl | rfl <;> rfl
          | panic => exact absurd rfl h
          | diverge => cases hm
        | _ => cases hm

/-- **C98** A script that succeeds although standard error may fail did everything it would have done otherwise; no
warning is lost. -/
theorem C98_script_success (cfg : Cfg) (room : Option Nat) (ok : Nat → Bool) (ω : Live) (file : Option Bytes)
    (h : (scriptActsE cfg room ok ω file).2 = .success) :
    scriptActsE cfg room ok ω file = scriptActs cfg room ω file := by
  have hs := C98_script cfg room ok ω file
  have he : (scriptActsE cfg room ok ω file).2 = (scriptActs cfg room ω file).2 := by
    rcases (survives_views hs).2 with ⟨_, _, _, h'⟩ | h'
    · exact h'
    · rw [h] at h'; cases h'
  refine Prod.ext (survives_whole hs (script_warns cfg room ω file ?_) ?_ ?_) he
  · rw [← he, h]; intro h; cases h
  · rw [h]; intro h; cases h
  · rw [h]; intro h; cases h

theorem survives_lines (k : Nat) {exit e : Exit} {n : Nat} {l a : List Act}
    (h : Survives (fun n => decide (n < k)) exit n l a e) : errOf a = (errOf l).take (k - n) := by
  induction h with
  | all => simp [errOf]
  | @other n x l l' e hx _ ih =>
    cases x with
    | err m => exact absurd rfl (hx m)
    | _ => exact ih
  | @written n m l l' e hn _ ih =>
    have : n < k := by simpa using hn
    rw [errOf, errOf, ih, show k - n = (k - (n + 1)) + 1 by omega, List.take_succ_cons]
  | @lost n m l l' e hn _ _ ih =>
    have : ¬ n < k := by simpa using hn
    rw [ih, show k - n = 0 by omega, show k - (n + 1) = 0 by omega]
    rfl
  | @fatal n m l hn _ hn' =>
    have : ¬ n < k := by simpa using hn
    have : n + 1 < k := by simpa using hn'
    omega
  | @mute n m l hn _ _ =>
    have : ¬ n < k := by simpa using hn
    rw [show k - n = 0 by omega]
    rfl

/-- **C98** A standard error that takes k lines and no more gets exactly the first k lines of what would have been
written. -/
theorem C98_lines (cfg : Cfg) (room : Option Nat) (editor saved : Bool) (ts : List LiveTick) (ω : Live)
    (file : Option Bytes) (k : Nat) :
    errOf (replActsE cfg room (fun n => decide (n < k)) editor saved ts).1 =
      (errOf (replActs cfg room editor saved ts).1).take k ∧
    errOf (scriptActsE cfg room (fun n => decide (n < k)) ω file).1 = (errOf (scriptActs cfg room ω file).1).take k :=
  ⟨survives_lines k (C98_session cfg room _ editor saved ts), survives_lines k (C98_script cfg room _ ω file)⟩

theorem survives_dead {exit e : Exit} {n : Nat} {l a : List Act} (h : Survives (fun _ => false) exit n l a e)
    (hx : exit ≠ .failure) (hp : exit ≠ .panicked) : (e = exit ↔ ∀ m ∈ errOf l, Needed m = false) := by
  induction h with
  | all => simp [errOf]
  | @other n x l l' e hx' _ ih =>
    cases x with
    | err m => exact absurd rfl (hx' m)
    | _ => exact ih
  | written h => cases h
  | @lost n m l l' e _ hm _ ih =>
    simp only [errOf, List.mem_cons, forall_eq_or_imp]
    rw [ih]
    rcases hm with rfl | rfl | ⟨_, h⟩
    · simp [Needed]
    · simp [Needed]
    · exact absurd h hx
  | @fatal n m l _ he hn => cases hn
  | @mute n m l _ he _ =>
    simp only [errOf, List.mem_cons, forall_eq_or_imp]
    constructor
    · exact fun h => absurd h.symm hp
    · intro h
      exfalso
      apply he
      cases m with
      | logged => exact .inl rfl
      | panicked => exact .inr (.inl rfl)
      | _ => exact absurd h.1 (fun h => by cases h)

/-- **C98** With a standard error that takes nothing, a script succeeds exactly if it would have succeeded without a
warning. -/
theorem C98_script_dead (cfg : Cfg) (room : Option Nat) (ω : Live) (file : Option Bytes) :
    (scriptActsE cfg room (fun _ => false) ω file).2 = .success ↔
      (scriptActs cfg room ω file).2 = .success ∧ errOf (scriptActs cfg room ω file).1 = [] := by
  have hs := C98_script cfg room (fun _ => false) ω file
  constructor
  · intro h
    have he := C98_script_success cfg room _ ω file h
    refine ⟨by rw [← he]; exact h, ?_⟩
    have h0 := (C98_lines cfg room false false [] ω file 0).2
    simp only [Nat.not_lt_zero, decide_false, List.take_zero] at h0
    rw [← he]
    exact h0
  · rintro ⟨h1, h2⟩
    have := (survives_dead hs (by rw [h1]; intro h; cases h) (by rw [h1]; intro h; cases h)).2 (by rw [h2]; simp)
    rw [this, h1]

/-- **C98** A script that fails never seems to have succeeded: without a readable standard error the exit status is 1 or
101. -/
theorem C98_script_failure (cfg : Cfg) (room : Option Nat) (ok : Nat → Bool) (ω : Live) (file : Option Bytes)
    (h : (scriptActs cfg room ω file).2 = .failure) :
    (scriptActsE cfg room ok ω file).2 = .failure ∨ (scriptActsE cfg room ok ω file).2 = .panicked := by
  rcases (survives_views (C98_script cfg room ok ω file)).2 with ⟨_, _, _, h'⟩ | h'
  · exact .inl (h'.trans h)
  · exact .inr h'

/-! ### witnesses -/

/-- nothing can be written: the first warning is the end; nothing was printed, although `2` would have been -/
example : ((scriptActsE moving none (fun _ => false) (.steady moving.host) (some (encoded movingScript))).1.map Act.deed) =
      [s!' "search?", s!' "told"] ∧
    (scriptActsE moving none (fun _ => false) (.steady moving.host) (some (encoded movingScript))).2 = .panicked := by
  decide +kernel

/-- one line can be written: the message of the error in the script cannot -/
example : ((scriptActsE moving none (fun n => decide (n < 1)) (.steady moving.host) (some (encoded movingScript))).1.map Act.deed) =
      [s!' "search?", s!' "told", s!' "warning", s!' "2\n", s!' "open? /e", s!' "told", s!' "search?", s!' "told", s!' "0\n",
        s!' "open? /x", s!' "told"] ∧
    (scriptActsE moving none (fun n => decide (n < 1)) (.steady moving.host) (some (encoded movingScript))).2 = .panicked := by
  decide +kernel

/-- two lines: only the last words are lost, and the exit status is 1 -/
example : ((scriptActsE moving none (fun n => decide (n < 2)) (.steady moving.host) (some (encoded movingScript))).1.map Act.deed).length = 12 ∧
    (scriptActsE moving none (fun n => decide (n < 2)) (.steady moving.host) (some (encoded movingScript))).2 = .failure := by
  decide +kernel

/-- a session: a misspelt entry ends it when the message cannot be written, a read error does not -/
example : (replActsE moving none (fun _ => false) true true [⟨id, .steady moving.host, .otherError⟩,
      ⟨id, .steady moving.host, .line s!' "1+1"⟩, ⟨id, .steady moving.host, .line s!' "nothing"⟩, ⟨id, .steady moving.host, .eof⟩]).1.map Act.deed =
    [s!' "btrd (the btrfs debugger) v0.5.3\n", s!' "Type 'help' for help\n", s!' "\n", s!' "took", s!' "quit\n", s!' "took", s!' "2\n",
      s!' "took"] ∧
    (replActsE moving none (fun _ => false) true true [⟨id, .steady moving.host, .otherError⟩,
      ⟨id, .steady moving.host, .line s!' "1+1"⟩, ⟨id, .steady moving.host, .line s!' "nothing"⟩, ⟨id, .steady moving.host, .eof⟩]).2 = .panicked := by
  decide +kernel

end Btrd
