/-
Lemmas for C98: runs whose standard error may fail, against those of `Model/Trace`.
-/
import Verif.Model.Stderr
import Verif.Spec.Stderr
import Verif.Lemmas.Trace

namespace Btrd
open Spec

/-- `Survives` for the acts up to the last line: what is seen, and how many lines were tried, or none after a panic -/
inductive Cutting (ok : ErrStream) : Nat → List Act → List Act → Option Nat → Prop where
  | all {n} : Cutting ok n [] [] (some n)
  | other {n x l l' r} : (∀ m, x ≠ .err m) → Cutting ok n l l' r → Cutting ok n (x :: l) (x :: l') r
  | written {n m l l' r} : ok n = true → Cutting ok (n + 1) l l' r → Cutting ok n (.err m :: l) (.err m :: l') r
  | lost {n m l l' r} : ok n = false → (m = .logged ∨ m = .panicked) → Cutting ok (n + 1) l l' r →
      Cutting ok n (.err m :: l) l' r
  | stops {n m l} : ok n = false → m ≠ .logged → m ≠ .panicked →
      Cutting ok n (.err m :: l) (ok.offers (n + 1) .panicked) none

variable {ok : ErrStream}

theorem Cutting.append {n : Nat} {a a' b b' : List Act} {n' : Nat} {r : Option Nat} (h : Cutting ok n a a' (some n'))
    (g : Cutting ok n' b b' r) : Cutting ok n (a ++ b) (a' ++ b') r := by
  generalize hr : some n' = r' at h
  induction h with
  | all => cases hr; exact g
  | other h _ ih => exact .other h (ih hr)
  | written h _ ih => exact .written h (ih hr)
  | lost h h' _ ih => exact .lost h h' (ih hr)
  | stops => cases hr

theorem Cutting.more {n : Nat} {a a' : List Act} (b : List Act) (h : Cutting ok n a a' none) :
    Cutting ok n (a ++ b) a' none := by
  generalize hr : (none : Option Nat) = r' at h
  induction h with
  | all => cases hr
  | other h _ ih => exact .other h (ih hr)
  | written h _ ih => exact .written h (ih hr)
  | lost h h' _ ih => exact .lost h h' (ih hr)
  | stops h1 h2 h3 => exact .stops h1 h2 h3

theorem Cutting.survives {n n' : Nat} {a a' b b' : List Act} {exit e : Exit} (h : Cutting ok n a a' (some n'))
    (hb : exit = .failure → b ≠ []) (g : Survives ok exit n' b b' e) : Survives ok exit n (a ++ b) (a' ++ b') e := by
  generalize hr : some n' = r' at h
  induction h with
  | all => cases hr; exact g
  | other h _ ih => exact .other h (ih hr)
  | written h _ ih => exact .written h (ih hr)
  | lost h h' _ ih => exact .lost h (h'.elim .inl fun h => .inr (.inl h)) (ih hr)
  | stops => cases hr

theorem Cutting.panics {n : Nat} {a a' : List Act} (b : List Act) {exit : Exit} (h : Cutting ok n a a' none)
    (hb : exit = .failure → b ≠ []) : Survives ok exit n (a ++ b) a' .panicked := by
  generalize hr : (none : Option Nat) = r' at h
  induction h with
  | all => cases hr
  | other h _ ih => exact .other h (ih hr)
  | written h _ ih => exact .written h (ih hr)
  | lost h h' _ ih => exact .lost h (h'.elim .inl fun h => .inr (.inl h)) (ih hr)
  | @stops n m l h1 h2 h3 =>
    have he : ¬ Expendable m (l ++ b) exit := by
      rintro (h | h | ⟨h, h'⟩)
      · exact h2 h
      · exact h3 h
      · exact hb h' (List.append_eq_nil_iff.1 h).2
    unfold ErrStream.offers
    cases hn : ok (n + 1)
    · exact .mute h1 he hn
    · exact .fatal h1 he hn

theorem cut_answer (n : Nat) (e : Event) : Cutting ok n e.answer e.answer (some n) := by
  unfold Event.answer
  split
  · exact .all
  · exact .other (fun m h => by cases h) .all

theorem cut_offers (n : Nat) {m : ErrLine} (h : m = .logged ∨ m = .panicked) :
    Cutting ok n [.err m] (ok.offers n m) (some (n + 1)) := by
  unfold ErrStream.offers
  cases hn : ok n
  · exact .lost hn h .all
  · exact .written hn .all

/-- a run and the same with a standard error that may fail -/
inductive Fares {α : Type} (ok : ErrStream) (n : Nat) (l : Traced α) : TracedE α → Prop where
  | through {e : TracedE α} : Cutting ok n l.acts e.acts (some e.lines) → e.result = some l.result → Fares ok n l e
  | panics {e : TracedE α} : Cutting ok n l.acts e.acts none → e.result = none → Fares ok n l e

theorem Fares.after {α : Type} {n : Nat} {l : Traced α} {e : TracedE α} {a a' : List Act} {m : Nat}
    (h : Cutting ok m a a' (some n)) (g : Fares ok n l e) : Fares ok m (l.after a) (e.after a') := by
  cases g with
  | through g1 g2 => exact .through (h.append g1) g2
  | panics g1 g2 => exact .panics (h.append g1) g2

theorem cut_asks (n : Nat) (q : Query) (e : Event) :
    Cutting ok n (.asks q :: e.answer) (.asks q :: e.answer) (some n) :=
  .other (fun m h => by cases h) (cut_answer n e)

theorem live_fares {α : Type} (fuel : Nat) (ω : Live) : ∀ (x : W α) (t n : Nat),
    Fares ok n (x.live fuel ω t) (x.liveE fuel ω ok t n)
  | .ret a, t, n => .through .all rfl
  | .wrote s k, t, n => (live_fares fuel ω k t n).after (.other (fun m h => by cases h) .all)
  | .warn w k, t, n => by
    rw [W.liveE, W.live]
    cases hn : ok n
    · exact .panics (.stops hn (fun h => by cases h) (fun h => by cases h)) rfl
    · exact (live_fares fuel ω k t (n + 1)).after (.written hn .all)
  | .search fs a k, t, n => (live_fares fuel ω (k ((ω.drift t fs).search fuel a)) (t + 1) n).after (cut_asks n _ _)
  | .bytes fs i j k, t, n => (live_fares fuel ω (k ((ω.drift t fs).getBytes i j)) (t + 1) n).after (cut_asks n _ _)
  | .opens p k, t, n => (live_fares fuel ω (k (Fs.new (ω.host t) p)) (t + 1) n).after (cut_asks n _ _)

theorem lineEndE_cut (n : Nat) (r : EvalResult) :
    (Cutting ok n (lineEnd r).1 (lineEndE ok n r).acts (some (lineEndE ok n r).lines) ∧ (lineEndE ok n r).next = (lineEnd r).2) ∨
      (Cutting ok n (lineEnd r).1 (lineEndE ok n r).acts none ∧ (lineEndE ok n r).next = .panicked) := by
  cases r with
  | ok => exact .inl ⟨.all, rfl⟩
  | quit => exact .inl ⟨.all, rfl⟩
  | fail f =>
    cases f with
    | err e =>
      simp only [lineEnd, lineEndE, ErrStream.eprintln]
      cases hn : ok n
      · exact .inr ⟨.stops hn (fun h => by cases h) (fun h => by cases h), rfl⟩
      · exact .inl ⟨.written hn .all, rfl⟩
    | panic => exact .inl ⟨cut_offers n (.inr rfl), rfl⟩
    | diverge => exact .inl ⟨.all, rfl⟩

theorem printlnE_cut (n : Nat) (st : State) (s : Str) :
    Cutting ok n (st.printlnActs s) (st.printlnE ok n s).acts (some (st.printlnE ok n s).lines) ∧
      (st.printlnE ok n s).next = st.println s := by
  unfold State.printlnActs State.printlnE
  rcases h : st.println s with ⟨st', b⟩
  cases b
  · exact ⟨.other (fun m h => by cases h) (cut_offers n (.inr rfl)), rfl⟩
  · exact ⟨.other (fun m h => by cases h) .all, rfl⟩

theorem rprintlnE_cut (n : Nat) (rs : RState) (s : Str) (x : ProcStatus) :
    Cutting ok n (rs.printlnW s x).2 (rs.printlnE ok n s x).acts (some (rs.printlnE ok n s x).lines) ∧
      (rs.printlnE ok n s x).next = (rs.printlnW s x).1 := by
  obtain ⟨h1, h2⟩ := printlnE_cut (ok := ok) n rs.ev s
  unfold RState.printlnW RState.printlnE
  dsimp only
  rw [h2]
  exact ⟨h1, rfl⟩

theorem stepE_cut (cfg : Cfg) (ω : Live) (n : Nat) (rs : RState) (ev : ReplEvent) :
    (Cutting ok n (stepW cfg ω rs ev).2 (stepE cfg ω ok n rs ev).acts (some (stepE cfg ω ok n rs ev).lines) ∧
      (stepE cfg ω ok n rs ev).next = (stepW cfg ω rs ev).1) ∨
    (Cutting ok n (stepW cfg ω rs ev).2 (stepE cfg ω ok n rs ev).acts none ∧ (stepE cfg ω ok n rs ev).next.2 = .panicked) := by
  cases ev with
  | line s =>
    have h := live_fares (ok := ok) cfg.fuel ω (runtimeEvalW cfg rs (fixupInput (stripComments s))) 0 n
    simp only [stepW, stepE]
    revert h
    generalize (runtimeEvalW cfg rs (fixupInput (stripComments s))).live cfg.fuel ω 0 = l
    generalize (runtimeEvalW cfg rs (fixupInput (stripComments s))).liveE cfg.fuel ω ok 0 n = e
    intro h
    obtain ⟨ec, en, ea, er⟩ := e
    cases h with
    | through h1 h2 =>
      dsimp only at h1 h2 ⊢
      subst h2
      dsimp only
      rcases lineEndE_cut (ok := ok) en l.result.2 with ⟨g1, g2⟩ | ⟨g1, g2⟩
      · exact .inl ⟨h1.append g1, by rw [g2]⟩
      · exact .inr ⟨h1.append g1, g2⟩
    | panics h1 h2 =>
      dsimp only at h1 h2 ⊢
      subst h2
      exact .inr ⟨h1.more _, rfl⟩
  | interrupted =>
    simp only [stepW, stepE, ErrStream.eprintln]
    cases hn : ok n
    · exact .inr ⟨.stops hn (fun h => by cases h) (fun h => by cases h), rfl⟩
    · exact .inl ⟨.written hn .all, rfl⟩
  | eof => exact .inl (rprintlnE_cut n rs _ _)
  | otherError =>
    obtain ⟨h1, h2⟩ := rprintlnE_cut (ok := ok) (n + 1) rs s!' "quit" .running
    exact .inl ⟨(cut_offers n (.inl rfl)).append h1, h2⟩

theorem runE_cut (cfg : Cfg) : ∀ (ts : List LiveTick) (n : Nat) (rs : RState),
    (Cutting ok n (runW cfg rs ts).2 (runE cfg ok n rs ts).acts (some (runE cfg ok n rs ts).lines) ∧
      (runE cfg ok n rs ts).next = (runW cfg rs ts).1.2) ∨
    (Cutting ok n (runW cfg rs ts).2 (runE cfg ok n rs ts).acts none ∧ (runE cfg ok n rs ts).next = .panicked)
  | [], n, rs => .inl ⟨.all, rfl⟩
  | t :: ts, n, rs => by
    have h := stepE_cut (ok := ok) cfg t.world n (rs.meets t.drift) t.event
    rw [runW, runE]
    revert h
    generalize stepW cfg t.world (rs.meets t.drift) t.event = w
    generalize stepE cfg t.world ok n (rs.meets t.drift) t.event = e
    intro h
    obtain ⟨ea, en, rs', s⟩ := e
    obtain ⟨⟨rs'', s'⟩, acts⟩ := w
    dsimp only at h ⊢
    have hcons : ∀ {a a' r}, Cutting ok n a a' r → Cutting ok n (.took t.event :: a) (.took t.event :: a') r :=
      fun h => .other (fun m h => by cases h) h
    rcases h with ⟨h1, h2⟩ | ⟨h1, h2⟩
    · cases h2
      cases s with
      | running =>
        dsimp only
        rcases runE_cut cfg ts en rs' with ⟨g1, g2⟩ | ⟨g1, g2⟩
        · exact .inl ⟨hcons (h1.append g1), g2⟩
        · exact .inr ⟨hcons (h1.append g1), g2⟩
      | _ => exact .inl ⟨hcons h1, rfl⟩
    · subst h2
      refine .inr ⟨?_, rfl⟩
      cases s' with
      | running => exact hcons (h1.more _)
      | _ => exact hcons h1

theorem printlnsE_cut : ∀ (ss : List Str) (n : Nat) (st : State),
    Cutting ok n (st.printlnsActs ss) (State.printlnsE ok n st ss).acts (some (State.printlnsE ok n st ss).lines) ∧
      (State.printlnsE ok n st ss).next = st.printlns ss
  | [], n, st => ⟨.all, rfl⟩
  | s :: ss, n, st => by
    obtain ⟨h1, h2⟩ := printlnE_cut (ok := ok) n st s
    rw [State.printlnsE, State.printlnsActs, State.printlns]
    dsimp only
    revert h1 h2
    generalize st.printlnE ok n s = d
    generalize st.printlnActs s = acts
    generalize st.println s = r
    intro h1 h2
    obtain ⟨da, dn, st', b⟩ := d
    dsimp only at h1 h2 ⊢
    subst h2
    cases b
    · exact ⟨h1, rfl⟩
    · obtain ⟨g1, g2⟩ := printlnsE_cut ss dn st'
      exact ⟨h1.append g1, g2⟩

end Btrd
