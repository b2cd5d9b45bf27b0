/-
The messages of assignments to components that do not exist are those of `Spec.StoreFails`.
-/
import Verif.Lemmas.Complaints

namespace Btrd
open Spec

/-- this failure has this text -/
def Tells {α : Type} (r : R α) (m : Option Str) : Prop := ∃ er, r = .error (.err er) ∧ er.text = m

theorem tells_err {α : Type} (er : Err) : Tells (.error (.err er) : R α) er.text := ⟨er, rfl, rfl⟩

theorem tells_bind {α β : Type} {x : R α} {f : α → R β} {m : Option Str} (h : Tells (x >>= f) m) :
    Tells x m ∨ ∃ a, x = .ok a ∧ Tells (f a) m := by
  obtain ⟨er, h, ht⟩ := h
  rcases bind_err h with h | ⟨a, h1, h2⟩
  · exact .inl ⟨er, h, ht⟩
  · exact .inr ⟨a, h1, er, h2, ht⟩

theorem bind_tells {α β : Type} {x : R α} {f : α → R β} {m : Option Str} (h : Tells x m) : Tells (x >>= f) m := by
  obtain ⟨er, h, ht⟩ := h
  exact ⟨er, by rw [h]; rfl, ht⟩

theorem tells_text {α : Type} {er : Err} {m : Option Str} : Tells (R.err er : R α) m ↔ er.text = m := by
  simp [Tells, R.err]

/-- `Blocked`, or `f` fails at the component -/
inductive Stuck (f : Value → R Value) : List (Str ⊕ Int) → Value → Option Str → Prop where
  | whole {v m} : Tells (f v) m → Stuck f [] v m
  | notStruct {g p v} : (∀ n k fs, v ≠ .struct n k fs) →
      Stuck f (.inl g :: p) v (some s!' "Field access must be used on a struct")
  | noField {g p n k fs} : (∀ v, ¬ FirstField fs g v) → Stuck f (.inl g :: p) (.struct n k fs) (noSuchField g n)
  | field {g p n k fs v m} : FirstField fs g v → Stuck f p v m → Stuck f (.inl g :: p) (.struct n k fs) m
  | notArray {n p v} : (∀ xs h, v ≠ .array xs h) →
      Stuck f (.inr n :: p) v (some s!' "Array index must be used on an array")
  | far {n p xs h} : n < 0 ∨ 2 ^ 64 ≤ n → Stuck f (.inr n :: p) (.array xs h) unconvertible
  | noIndex {n : Nat} {p xs h} : n < 2 ^ 64 → xs.length ≤ n →
      Stuck f (.inr (n : Int) :: p) (.array xs h) (noSuchIndex n xs.length)
  | index {n : Nat} {p xs h v m} : n < 2 ^ 64 → xs[n]? = some v → Stuck f p v m →
      Stuck f (.inr (n : Int) :: p) (.array xs h) m

theorem stuck_const {v : Value} {p : List (Str ⊕ Int)} {old : Value} {m : Option Str} :
    Stuck (fun _ => .ok v) p old m ↔ Blocked p old m := by
  constructor
  · intro h
    induction h with
    | whole h => obtain ⟨_, h, _⟩ := h; simp at h
    | notStruct h => exact .notStruct h
    | noField h => exact .noField h
    | field h _ ih => exact .field h ih
    | notArray h => exact .notArray h
    | far h => exact .far h
    | noIndex h h' => exact .noIndex h h'
    | index h h' _ ih => exact .index h h' ih
  · intro h
    induction h with
    | notStruct h => exact .notStruct h
    | noField h => exact .noField h
    | field h _ ih => exact .field h ih
    | notArray h => exact .notArray h
    | far h => exact .far h
    | noIndex h h' => exact .noIndex h h'
    | index h h' _ ih => exact .index h h' ih

theorem stuck_snoc {f g : Value → R Value} {s : Str ⊕ Int} (hg : ∀ a m, Tells (g a) m ↔ Stuck f [s] a m)
    {p : List (Str ⊕ Int)} {old : Value} {m : Option Str} : Stuck g p old m ↔ Stuck f (p ++ [s]) old m := by
  constructor
  · intro h
    induction h with
    | whole h => exact (hg _ _).1 h
    | notStruct h => exact .notStruct h
    | noField h => exact .noField h
    | field h _ ih => exact .field h ih
    | notArray h => exact .notArray h
    | far h => exact .far h
    | noIndex h h' => exact .noIndex h h'
    | index h h' _ ih => exact .index h h' ih
  · intro h
    induction p generalizing old m with
    | nil => exact .whole ((hg _ _).2 h)
    | cons t p ih =>
      cases h with
      | notStruct h => exact .notStruct h
      | noField h => exact .noField h
      | field h h' => exact .field h (ih h')
      | notArray h => exact .notArray h
      | far h => exact .far h
      | noIndex h h' => exact .noIndex h h'
      | index h h' h'' => exact .index h h' (ih h'')

theorem firstField_cons {n : Str} {v w : Value} {fs : List (Str × Value)} {name : Str} :
    FirstField ((n, v) :: fs) name w ↔ (n = name ∧ v = w) ∨ (n ≠ name ∧ FirstField fs name w) := by
  constructor
  · rintro ⟨b, a, h1, h2⟩
    cases b with
    | nil =>
      simp only [List.nil_append, List.cons.injEq, Prod.mk.injEq] at h1
      exact .inl h1.1
    | cons q b =>
      simp only [List.cons_append, List.cons.injEq] at h1
      refine .inr ⟨?_, b, a, h1.2, fun p hp => h2 p (by simp [hp])⟩
      have := h2 q (by simp)
      rw [← h1.1] at this
      exact this
  · rintro (⟨rfl, rfl⟩ | ⟨h, b, a, rfl, h2⟩)
    · exact ⟨[], fs, rfl, by simp⟩
    · exact ⟨(n, v) :: b, a, rfl, by simpa using ⟨h, fun a b hab => h2 (a, b) hab⟩⟩

theorem modifyField_tells {what : Str} {f : Value → R Value} {name : Str} {fs : List (Str × Value)} {m : Option Str} :
    Tells (modifyField what f fs name) m ↔
      ((∀ v, ¬ FirstField fs name v) ∧ noSuchField name what = m) ∨ ∃ v, FirstField fs name v ∧ Tells (f v) m := by
  induction fs with
  | nil =>
    rw [modifyField, tells_text]
    have : ∀ v, ¬ FirstField [] name v := by rintro v ⟨b, a, h, -⟩; simp at h
    constructor
    · intro h; exact .inl ⟨this, h⟩
    · rintro (h | ⟨v, h, -⟩)
      · exact h.2
      · exact absurd h (this v)
  | cons q fs ih =>
    obtain ⟨n, v⟩ := q
    rw [modifyField]
    by_cases hn : n = name
    · rw [if_pos hn]
      constructor
      · intro h
        rcases tells_bind h with h | ⟨a, -, ⟨_, h, -⟩⟩
        · exact .inr ⟨v, firstField_cons.2 (.inl ⟨hn, rfl⟩), h⟩
        · simp at h
      · rintro (⟨h, -⟩ | ⟨w, h, h'⟩)
        · exact absurd (firstField_cons.2 (.inl ⟨hn, rfl⟩)) (h v)
        · rcases firstField_cons.1 h with ⟨-, rfl⟩ | ⟨h, -⟩
          · exact bind_tells h'
          · exact absurd hn h
    · rw [if_neg hn]
      have hh : ∀ w, FirstField ((n, v) :: fs) name w ↔ FirstField fs name w := fun w => by
        rw [firstField_cons]; simp [hn]
      simp only [hh]
      rw [← ih]
      constructor
      · intro h
        rcases tells_bind h with h | ⟨a, -, ⟨_, h, -⟩⟩
        · exact h
        · simp at h
      · exact bind_tells

theorem modifyNth_tells {er : Err} {f : Value → R Value} {i : Nat} {xs : List Value} {m : Option Str} :
    Tells (modifyNth er f xs i) m ↔ (xs.length ≤ i ∧ er.text = m) ∨ ∃ v, xs[i]? = some v ∧ Tells (f v) m := by
  induction xs generalizing i with
  | nil => rw [modifyNth, tells_text]; simp
  | cons x xs ih =>
    cases i with
    | zero =>
      rw [modifyNth]
      constructor
      · intro h
        rcases tells_bind h with h | ⟨a, -, ⟨_, h, -⟩⟩
        · exact .inr ⟨x, rfl, h⟩
        · simp at h
      · rintro (⟨h, -⟩ | ⟨w, h, h'⟩)
        · simp at h
        · simp only [List.getElem?_cons_zero, Option.some.injEq] at h
          subst h
          exact bind_tells h'
    | succ i =>
      rw [modifyNth]
      simp only [List.length_cons, Nat.add_le_add_iff_right, List.getElem?_cons_succ]
      rw [← ih]
      constructor
      · intro h
        rcases tells_bind h with h | ⟨a, -, ⟨_, h, -⟩⟩
        · exact h
        · simp at h
      · exact bind_tells

theorem fieldWrite_tells {f : Value → R Value} {name : Str} (a : Value) (m : Option Str) :
    Tells (fieldWrite f name a) m ↔ Stuck f [.inl name] a m := by
  constructor
  · intro h
    cases a with
    | struct n k fs =>
      rcases tells_bind h with h | ⟨a, -, ⟨_, h, -⟩⟩
      · rcases modifyField_tells.1 h with ⟨h1, rfl⟩ | ⟨v, h1, h2⟩
        · exact .noField h1
        · exact .field h1 (.whole h2)
      · simp at h
    | _ =>
      simp only [fieldWrite] at h
      rw [tells_text] at h
      subst h
      exact .notStruct (by simp)
  · intro h
    cases h with
    | notStruct h =>
      cases a with
      | struct n k fs => exact absurd rfl (h n k fs)
      | _ => exact tells_text.2 rfl
    | noField h => exact bind_tells (modifyField_tells.2 (.inl ⟨h, rfl⟩))
    | field h h' =>
      cases h' with
      | whole h' => exact bind_tells (modifyField_tells.2 (.inr ⟨_, h, h'⟩))

theorem tryUnsigned_told {n : Int} (h : n < 0 ∨ 2 ^ 64 ≤ n) : Tells (tryUnsigned 64 n) unconvertible := by
  cases ht : tryUnsigned 64 n with
  | ok k =>
    obtain ⟨h1, h2⟩ := tryUnsigned_inv ht
    exfalso
    have h2 : (k : Int) < 2 ^ 64 := by exact_mod_cast h2
    omega
  | error e =>
    have := tryUnsigned_err (bits := 64) (x := n) (by omega)
    rw [this] at ht
    simp only [R.err, Except.error.injEq] at ht
    subst ht
    exact ⟨_, rfl, rfl⟩

theorem indexWrite_tells {f : Value → R Value} {n : Int} (a : Value) (m : Option Str) :
    Tells (indexWrite f n a) m ↔ Stuck f [.inr n] a m := by
  constructor
  · intro h
    cases a with
    | array xs k =>
      rcases tells_bind h with ⟨er, h0, rfl⟩ | ⟨i, h1, h⟩
      · obtain ⟨h1, rfl⟩ := tryUnsigned_fails h0
        exact .far h1
      · obtain ⟨rfl, hi⟩ := tryUnsigned_inv h1
        rcases tells_bind h with h | ⟨a, -, ⟨_, h, -⟩⟩
        · rcases modifyNth_tells.1 h with ⟨h1, h2⟩ | ⟨v, h1, h2⟩
          · rw [← h2]
            have := Stuck.noIndex (f := f) (p := []) (h := k) hi h1
            simp only [noSuchIndex, numeral_nat] at this
            simp only [Err.text]
            rw [← numeral_eq, numeral_nat]
            exact this
          · exact .index hi h1 (.whole h2)
        · simp at h
    | _ =>
      simp only [indexWrite] at h
      rw [tells_text] at h
      subst h
      exact .notArray (by simp)
  · intro h
    cases h with
    | notArray h =>
      cases a with
      | array n k => exact absurd rfl (h n k)
      | _ => exact tells_text.2 rfl
    | far h => exact bind_tells (tryUnsigned_told h)
    | noIndex h1 h2 =>
      simp only [indexWrite]
      rw [tryUnsigned_nat h1]
      change Tells (modifyNth _ _ _ _ >>= _) _
      refine bind_tells (modifyNth_tells.2 (.inl ⟨h2, ?_⟩))
      simp only [Err.text, noSuchIndex, numeral_nat]
      rw [← numeral_eq, numeral_nat]
    | index h1 h2 h3 =>
      cases h3 with
      | whole h3 =>
        simp only [indexWrite]
        rw [tryUnsigned_nat h1]
        change Tells (modifyNth _ _ _ _ >>= _) _
        exact bind_tells (modifyNth_tells.2 (.inr ⟨_, h2, h3⟩))

theorem modify_tells {f : Value → R Value} {vs : Vars Value} {x : Str} {r : R (Vars Value)} {m : Option Str}
    (h : vs.modify f x = some r) : Tells r m ↔ ∃ old, Holds1 x old vs ∧ Tells (f old) m := by
  induction vs generalizing r with
  | nil => simp [Vars.modify] at h
  | cons s vs ih =>
    rw [Vars.modify] at h
    cases hs : s x with
    | some w =>
      rw [hs] at h
      have hh : ∀ old, Holds1 x old (s :: vs) ↔ old = w := by
        intro old
        constructor
        · intro h
          cases h with
          | here h => rw [hs] at h; simpa using h.symm
          | outer h _ => rw [hs] at h; simp at h
        · rintro rfl; exact .here hs
      simp only [hh, exists_eq_left]
      cases hf : f w with
      | error e =>
        simp only [hf, Option.some.injEq] at h
        subst h
        simp [Tells]
      | ok w' =>
        simp only [hf, Option.some.injEq] at h
        subst h
        simp [Tells]
    | none =>
      rw [hs] at h
      have hh : ∀ old, Holds1 x old (s :: vs) ↔ Holds1 x old vs := by
        intro old
        constructor
        · intro h
          cases h with
          | here h => rw [hs] at h; simp at h
          | outer _ h => exact h
        · exact .outer hs
      simp only [hh]
      cases hm : Vars.modify f vs x with
      | none => simp [hm] at h
      | some q =>
        rw [← ih hm]
        cases q with
        | error e =>
          simp only [hm, Option.some.injEq] at h
          subst h
          simp [Tells]
        | ok r' =>
          simp only [hm, Option.some.injEq] at h
          subst h
          simp [Tells]

theorem modify_none {f : Value → R Value} {vs : Vars Value} {x : Str} :
    vs.modify f x = none ↔ ∀ v, ¬ Holds1 x v vs := by
  induction vs with
  | nil =>
    simp only [Vars.modify, true_iff]
    intro v h; cases h
  | cons s vs ih =>
    rw [Vars.modify]
    cases hs : s x with
    | some w =>
      constructor
      · intro h; simp only at h; split at h <;> simp at h
      · intro h; exact absurd (.here hs) (h w)
    | none =>
      have hh : (∀ v, ¬ Holds1 x v (s :: vs)) ↔ ∀ v, ¬ Holds1 x v vs := by
        constructor
        · exact fun h v hv => h v (.outer hs hv)
        · intro h v hv
          cases hv with
          | here h => rw [hs] at h; simp at h
          | outer _ h' => exact h v h'
      rw [hh, ← ih]
      cases hm : Vars.modify f vs x with
      | none => simp
      | some q => cases q <;> simp

/-- a failing write of the evaluator is one of the rules -/
theorem lhs_fails (cfg : Cfg) (σ : State) (m : Option Str) : ∀ (e : Expr) (f : Value → R Value),
    Tells (modifyLhs cfg σ e f) m → NoTarget (world cfg) (complaints cfg) σ e m ∨
      ∃ x p old, Points (world cfg) σ e x p ∧ Holds1 x old σ.vars ∧ Stuck f p old m
  | .ident x, f, h => by
    rw [modifyLhs] at h
    split at h
    · rename_i r hr
      obtain ⟨old, h1, h2⟩ := (modify_tells hr).1 h
      exact .inr ⟨x, [], old, .var x, h1, .whole h2⟩
    · rename_i hr
      rw [tells_text] at h
      subst h
      exact .inl (.var (modify_none.1 hr))
  | .field e fld, f, h => by
    by_cases hf : ∃ n, fld = .ident n
    · obtain ⟨n, rfl⟩ := hf
      rw [modifyLhs_field] at h
      rcases lhs_fails cfg σ m e _ h with h | ⟨x, p, old, h1, h2, h3⟩
      · exact .inl (.field h)
      · exact .inr ⟨x, _, old, .field n h1, h2, (stuck_snoc fieldWrite_tells).1 h3⟩
    · have hf' : ∀ n, fld ≠ .ident n := fun n hn => hf ⟨n, hn⟩
      rw [modifyLhs] at h
      · rw [tells_text] at h
        subst h
        exact .inl (.fieldName hf')
      · exact hf'
  | .index e i, f, h => by
    rw [modifyLhs_index] at h
    rcases tells_bind h with ⟨er, h0, rfl⟩ | ⟨iv, h1, h⟩
    · exact .inl (.index (complains_of_eval cfg σ i er h0))
    · have hev := ev_of_eval cfg σ i iv h1
      rcases tells_bind h with ⟨er, h0, rfl⟩ | ⟨n, h2, h⟩
      · obtain ⟨h3, h4⟩ := asInteger_err h0
        rw [h4]
        exact .inl (.indexInt hev h3)
      · rw [asInteger_inv h2] at hev
        rcases lhs_fails cfg σ m e _ h with h | ⟨x, p, old, h1, h2, h3⟩
        · exact .inl (.indexOf hev h)
        · exact .inr ⟨x, _, old, .index h1 hev, h2, (stuck_snoc indexWrite_tells).1 h3⟩
  | .int _, f, h => by simp only [modifyLhs] at h; rw [tells_text] at h; subst h; exact .inl .int
  | .bool _, f, h => by simp only [modifyLhs] at h; rw [tells_text] at h; subst h; exact .inl .bool
  | .str _, f, h => by simp only [modifyLhs] at h; rw [tells_text] at h; subst h; exact .inl .str
  | .paren _, f, h => by simp only [modifyLhs] at h; rw [tells_text] at h; subst h; exact .inl .paren
  | .call _ _, f, h => by simp only [modifyLhs] at h; rw [tells_text] at h; subst h; exact .inl .call
  | .bin _ _ _, f, h => by simp only [modifyLhs] at h; rw [tells_text] at h; subst h; exact .inl .bin
  | .un _ _, f, h => by simp only [modifyLhs] at h; rw [tells_text] at h; subst h; exact .inl .un
  | .cast _ _, f, h => by simp only [modifyLhs] at h; rw [tells_text] at h; subst h; exact .inl .cast

/-- from some bound on, a failure with this text -/
def Late {α : Type} (R : Nat → R α) (m : Option Str) : Prop := ∃ n, ∀ k, n ≤ k → Tells (R k) m

theorem late_now {α : Type} {R : Nat → R α} {m : Option Str} (h : ∀ k, Tells (R k) m) : Late R m := ⟨0, fun k _ => h k⟩

theorem late_says {cfg : Cfg} {σ : State} {e : Expr} {m : Option Str}
    (h : Complains (world cfg) (complaints cfg) σ e m) : Late (fun k => evalExpr (cfg.steps k) σ e) m := by
  obtain ⟨er, n, ht, hn⟩ := says_complains h
  exact ⟨n, fun k hk => ⟨er, hn k hk, ht⟩⟩

/-- an expression that is no target is none for the evaluator -/
theorem noTarget_lhs {cfg : Cfg} {σ : State} {e : Expr} {m : Option Str}
    (h : NoTarget (world cfg) (complaints cfg) σ e m) : ∀ f, Late (fun k => modifyLhs (cfg.steps k) σ e f) m := by
  induction h with
  | var h =>
    intro f
    refine late_now fun k => ?_
    rw [modifyLhs, modify_none.2 h]
    exact tells_text.2 rfl
  | fieldName h =>
    intro f
    refine late_now fun k => ?_
    rw [modifyLhs]
    · exact tells_text.2 rfl
    · exact h
  | field _ ih =>
    intro f
    obtain ⟨n, hn⟩ := ih (fieldWrite f _)
    exact ⟨n, fun k hk => by dsimp only; rw [modifyLhs_field]; exact hn k hk⟩
  | index h =>
    intro f
    obtain ⟨n, hn⟩ := late_says h
    exact ⟨n, fun k hk => by dsimp only; rw [modifyLhs_index]; exact bind_tells (hn k hk)⟩
  | indexInt h hv =>
    intro f
    obtain ⟨n, hn⟩ := ev_gives h
    refine ⟨n, fun k hk => ?_⟩
    dsimp only; rw [modifyLhs_index, hn k hk]
    change Tells (Value.asInteger _ >>= _) _
    refine bind_tells ⟨_, not_integer hv, ?_⟩
    rw [text_mismatch]
  | indexOf h _ ih =>
    intro f
    obtain ⟨n, hn⟩ := ev_gives h
    obtain ⟨n', hn'⟩ := ih (indexWrite f _)
    refine ⟨n + n', fun k hk => ?_⟩
    dsimp only; rw [modifyLhs_index, hn k (by omega)]
    exact hn' k (by omega)
  | _ => intro f; refine late_now fun k => ?_; dsimp only; rw [modifyLhs] <;> first | exact tells_text.2 rfl | simp

theorem stuck_lhs {cfg : Cfg} {σ : State} {e : Expr} {x : Str} {p : List (Str ⊕ Int)} (ht : Points (world cfg) σ e x p) :
    ∀ {f : Value → R Value} {old : Value} {m : Option Str}, Holds1 x old σ.vars → Stuck f p old m →
      Late (fun k => modifyLhs (cfg.steps k) σ e f) m := by
  induction ht with
  | var x =>
    intro f old m h1 h2
    cases h2 with
    | whole h2 =>
      refine late_now fun k => ?_
      rw [modifyLhs]
      cases hm : Vars.modify f σ.vars x with
      | none => exact absurd h1 (modify_none.1 hm old)
      | some r => exact (modify_tells hm).2 ⟨old, h1, h2⟩
  | field fl _ ih =>
    intro f old m h1 h2
    obtain ⟨n, hn⟩ := ih h1 ((stuck_snoc fieldWrite_tells).2 h2)
    exact ⟨n, fun m hm => by dsimp only; rw [modifyLhs_field]; exact hn m hm⟩
  | index _ hi ih =>
    intro f old m h1 h2
    obtain ⟨n, hn⟩ := ih h1 ((stuck_snoc indexWrite_tells).2 h2)
    obtain ⟨k, hk⟩ := ev_gives hi
    refine ⟨n + k, fun m hm => ?_⟩
    dsimp only; rw [modifyLhs_index, hk m (by omega)]
    exact hn m (by omega)

end Btrd
