/-
How often parsing an expression looks at the text: the rules below the levels of binary operators.
-/
import Verif.Lemmas.LooksExpr

namespace Btrd.PC

variable {α β γ : Type}

/-- what a parser takes begins with such a character -/
structure Heads (f : Char → Bool) (p : C α) : Prop where
  hd : ∀ {s a s' n}, p s = (some (a, s'), n) → ∃ c r, s = c :: r ∧ f c = true ∧ s'.length ≤ r.length

section
variable {f g : Char → Bool}

theorem Heads.mono {p : C α} (h : Heads f p) (hf : ∀ c, f c = true → g c = true) : Heads g p := by
  refine ⟨fun {s a s' n} hp => ?_⟩
  obtain ⟨c, r, h1, h2, h3⟩ := h.hd hp
  exact ⟨c, r, h1, hf c h2, h3⟩

theorem Heads.isA : Heads f (isA f) := by
  refine ⟨fun {s a s' n} hp => ?_⟩
  cases s with
  | nil => simp [PC.isA] at hp
  | cons c cs =>
    simp only [PC.isA] at hp
    split at hp <;> simp only [Prod.mk.injEq, reduceCtorEq, false_and, Option.some.injEq] at hp
    obtain ⟨⟨rfl, rfl⟩, rfl⟩ := hp
    exact ⟨c, cs, rfl, by assumption, Nat.le_refl _⟩

theorem Heads.tag {c : Char} {t : Str} : Heads (· == c) (tag (c :: t)) := by
  refine ⟨fun {s a s' n} hp => ?_⟩
  have h := (tag_cost (c :: t) s).2 a s' (by rw [hp])
  exact ⟨c, t ++ s', h, by simp, by simp⟩

theorem Heads.map {p : C α} {k : α → β} (h : Heads f p) : Heads f (map k p) := by
  refine ⟨fun {s b s' n} hp => ?_⟩
  obtain ⟨a, s, m, m', h1, h2, rfl⟩ := andThen_some hp
  simp only [Prod.mk.injEq, Option.some.injEq] at h2
  obtain ⟨⟨-, rfl⟩, rfl⟩ := h2
  exact h.hd h1

theorem Heads.convert {p : C α} {k : α → Option β} (h : Heads f p) : Heads f (convert k p) := by
  refine ⟨fun {s b s' n} hp => ?_⟩
  obtain ⟨a, s, m, m', h1, h2, rfl⟩ := andThen_some hp
  split at h2 <;> simp only [Prod.mk.injEq, reduceCtorEq, false_and, Option.some.injEq] at h2
  obtain ⟨⟨-, rfl⟩, rfl⟩ := h2
  exact h.hd h1

theorem Heads.alt {p q : C α} (hp : Heads f p) (hq : Heads f q) : Heads f (alt p q) := by
  refine ⟨fun {s a s' n} h => ?_⟩
  rcases orElse_some h with h | ⟨m, m', h1, h2, rfl⟩
  · exact hp.hd h
  · exact hq.hd h2

theorem Heads.seqR {p : C α} {q : C β} (h : Heads f p) (h' : ∀ {s a s' n}, q s = (some (a, s'), n) → s'.length ≤ s.length) :
    Heads f (seqR p q) := by
  refine ⟨fun {s b s' n} hp => ?_⟩
  obtain ⟨a, s1, m, m', h1, h2, rfl⟩ := andThen_some hp
  obtain ⟨c, r, h3, h4, h5⟩ := h.hd h1
  have := h' h2
  exact ⟨c, r, h3, h4, by omega⟩

theorem Heads.seq {p : C α} {q : C β} (h : Heads f p) (h' : ∀ {s a s' n}, q s = (some (a, s'), n) → s'.length ≤ s.length) :
    Heads f (seq p q) := by
  refine ⟨fun {s b s' n} hp => ?_⟩
  obtain ⟨a, s1, m, m', h1, h2, rfl⟩ := andThen_some hp
  obtain ⟨b', s2, m2, m3, h6, h7, rfl⟩ := andThen_some h2
  simp only [Prod.mk.injEq, Option.some.injEq] at h7
  obtain ⟨⟨-, rfl⟩, rfl⟩ := h7
  obtain ⟨c, r, h3, h4, h5⟩ := h.hd h1
  have := h' h6
  exact ⟨c, r, h3, h4, by omega⟩

theorem Heads.seqL {p : C α} {q : C β} (h : Heads f p) (h' : ∀ {s a s' n}, q s = (some (a, s'), n) → s'.length ≤ s.length) :
    Heads f (seqL p q) := by
  refine ⟨fun {s b s' n} hp => ?_⟩
  obtain ⟨a, s1, m, m', h1, h2, rfl⟩ := andThen_some hp
  obtain ⟨b', s2, m2, m3, h6, h7, rfl⟩ := andThen_some h2
  simp only [Prod.mk.injEq, Option.some.injEq] at h7
  obtain ⟨⟨-, rfl⟩, rfl⟩ := h7
  obtain ⟨c, r, h3, h4, h5⟩ := h.hd h1
  have := h' h6
  exact ⟨c, r, h3, h4, by omega⟩

theorem Heads.opt_seq {p : C α} {q : C β} (h : Heads f p) (hq : Heads f q) : Heads f (PC.seq (opt p) q) := by
  refine ⟨fun {s b s' n} hp => ?_⟩
  obtain ⟨a, s1, m, m', h1, h2, rfl⟩ := andThen_some hp
  obtain ⟨b', s2, m2, m3, h6, h7, rfl⟩ := andThen_some h2
  simp only [Prod.mk.injEq, Option.some.injEq] at h7
  obtain ⟨⟨-, rfl⟩, rfl⟩ := h7
  obtain ⟨d, t, h8, h9, h10⟩ := hq.hd h6
  rcases orElse_some h1 with h1 | ⟨m, m', h1, h2, rfl⟩
  · obtain ⟨a, s3, m, m', h11, h12, rfl⟩ := andThen_some h1
    simp only [Prod.mk.injEq, Option.some.injEq] at h12
    obtain ⟨⟨-, rfl⟩, rfl⟩ := h12
    obtain ⟨c, r, h3, h4, h5⟩ := h.hd h11
    have : s3.length = t.length + 1 := by rw [h8]; simp
    exact ⟨c, r, h3, h4, by omega⟩
  · simp only [Prod.mk.injEq, Option.some.injEq] at h2
    obtain ⟨⟨-, rfl⟩, rfl⟩ := h2
    exact ⟨d, t, h8, h9, h10⟩

end

theorem starter_ident {c : Char} (h : isIdentStart c = true) : starter c = true := by simp [starter, h]
theorem starter_digit {c : Char} (h : isDigitChar c = true) : starter c = true := by simp [starter, h]

theorem heads_constant : Heads starter constant := by
  refine .alt (.map (.convert (.opt_seq (.mono .isA ?_) (.alt (.map (.seq (.mono .isA ?_) (Rough.many_isA _).le))
    (.map (.mono .isA ?_)))))) (.alt (.map (.mono .tag ?_)) (.map (.mono .tag ?_)))
  · intro c h; rw [beq_iff_eq.1 h]; decide
  · intro c h; simp only [Bool.and_eq_true] at h; exact starter_digit h.1
  · intro c h; rw [beq_iff_eq.1 h]; decide
  · intro c h; rw [beq_iff_eq.1 h]; decide
  · intro c h; rw [beq_iff_eq.1 h]; decide

theorem heads_ident : Heads isIdentStart ident := .map (.seq .isA (Rough.many_isA _).le)

theorem heads_string : Heads (· == '"') string := by
  refine .map (.map (.seqL (.seqR .isA ?_) (Const.sym _).le))
  have h := (Tok.alt tok_charString.1 tok_utf16String.1).many (Eats.alt tok_charString.2 tok_utf16String.2) (B := 16)
    (Nat.le_refl _)
  exact fun {_ _ _ _} hp => (h.1.succ hp).1

theorem heads_prefixOp : Heads starter prefixOp := by
  have ht : ∀ c : Char, starter c = true → ∀ t : Str, Heads starter (tag (c :: t)) := fun c hc t =>
    .mono .tag (fun d h => by rw [beq_iff_eq.1 h]; exact hc)
  refine .alt (.map (ht _ (by decide) _)) (.alt (.map (ht _ (by decide) _)) (.alt (.map (ht _ (by decide) _))
    (.map (.seqL (.seqL (.seqR (.seqR (ht _ (by decide) _) rough_space.le) ?_) rough_space.le) (Const.tag _).le))))
  exact (Rough.seqR (.seqL (.of_const (.tag _)) rough_space) rough_ident).le

theorem not_starts_head {c : Char} {r : Str} (h : starter c = true) : Starts (c :: r) :=
  ⟨c, r, skip_cons (starter_space h) r, h⟩

/-! ### closing brackets -/

/-- the item, blanks and a closing bracket -/
def close (c : Char) (p : C α) : C α := seqL (seqL p space) (sym c)

section
variable {N U : Nat}

theorem close_none {c : Char} {p : C α} {s : Str} {n : Nat} (h : p s = (none, n)) : close c p s = (none, n) := by
  simp only [close, seqL, h, Res.andThen]

theorem sym_hit (c : Char) (r : Str) : sym c (c :: r) = (some (c, r), 1) := by simp [sym, isA]

theorem sym_miss {c d : Char} (h : d ≠ c) (r : Str) : sym c (d :: r) = (none, 1) := by simp [sym, isA, h]

theorem sym_cases (c : Char) (s : Str) : (∃ r, s = c :: r ∧ sym c s = (some (c, r), 1)) ∨
    ((∀ r, s ≠ c :: r) ∧ sym c s = (none, 1)) := by
  cases s with
  | nil => exact .inr ⟨by simp, rfl⟩
  | cons d r =>
    by_cases h : d = c
    · subst h; exact .inl ⟨r, rfl, sym_hit _ _⟩
    · exact .inr ⟨by simp [h], sym_miss h _⟩

theorem close_some {c : Char} {p : C α} {s s' : Str} {a : α} {n : Nat} (h : p s = (some (a, s'), n)) (hU : 100 * (N + 1) ≤ U)
    (hs : s'.length ≤ N) : ∃ m, m ≤ U ∧ ((∃ r, skip s' = c :: r ∧ r.length < s'.length ∧ close c p s = (some (a, r), n + m)) ∨
      ((∀ r, skip s' ≠ c :: r) ∧ close c p s = (none, n + m))) := by
  obtain ⟨k, h1, h2⟩ := space_eq s'
  have hl := skip_length s'
  refine ⟨k + 1, by omega, ?_⟩
  rcases sym_cases c (skip s') with ⟨r, h3, h4⟩ | ⟨h3, h4⟩
  · refine .inl ⟨r, h3, ?_, ?_⟩
    · have : (skip s').length = r.length + 1 := by rw [h3]; simp
      omega
    · simp only [close, seqL, h, h1, h4, Res.andThen, Prod.mk.injEq, true_and]; omega
  · refine .inr ⟨h3, ?_⟩
    simp only [close, seqL, h, h1, h4, Res.andThen, Prod.mk.injEq, true_and]; omega

/-- no operator begins with this character -/
def Apart (c : Char) (σs : List Str) : Prop := ∀ σ ∈ σs, ∃ d r, σ = d :: r ∧ d ≠ c

theorem Stuck.apart {c : Char} {σs : List Str} (h : Apart c σs) {s : Str} (hs : Stuck σs s) : ∀ r, skip s ≠ c :: r := by
  obtain ⟨σ, h1, u, h2, -⟩ := hs
  obtain ⟨d, r, rfl, hd⟩ := h σ h1
  intro r' e
  rw [h2] at e
  simp only [List.cons_append, List.cons.injEq] at e
  exact hd e.1

theorem Starts.apart {c : Char} (hc : starter c = false) {s : Str} (hs : Starts s) : ∀ r, skip s ≠ c :: r := by
  obtain ⟨d, r, h1, h2⟩ := hs
  intro r' e
  rw [h1] at e
  simp only [List.cons.injEq] at e
  rw [e.1, hc] at h2; cases h2

/-! ### primary expressions -/

variable {A B E : Nat} {σs : List Str}

theorem Lin.primary {sub : C Expr} (hsub : Lin N A B E σs sub) (hU : 100 * (N + 1) ≤ U) (hA : B + 10 * U ≤ A)
    (hc : Apart ')' σs) : Lin N A (4 * U) (4 * U) [] (primaryExpr sub) := by
  have b : ∀ {α : Type} {k : Nat} {p : C α}, Rough k p → k ≤ 100 → ∀ {s : Str}, s.length ≤ N → (p s).2 ≤ U := fun h hk s hs =>
    h.bound (by have := Nat.mul_le_mul_right (N + 1) hk; omega) hs
  have three : ∀ {s : Str}, s.length ≤ N → (alt constant (alt ident string) s).2 ≤ 3 * U := by
    intro s hs
    have h1 := b rough_constant (by omega) hs
    have h2 := b rough_ident (by omega) hs
    have h3 := b rough_string (by omega) hs
    rcases e1 : constant s with ⟨_ | x, n1⟩ <;> rcases e2 : ident s with ⟨_ | x, n2⟩ <;>
      rcases e3 : string s with ⟨_ | x, n3⟩ <;> rw [e1] at h1 <;> rw [e2] at h2 <;> rw [e3] at h3 <;>
      simp only [alt, e1, e2, e3, Res.orElse] at h1 h2 h3 ⊢ <;> omega
  have heads : Heads starter (alt constant (alt ident string)) := .alt heads_constant (.alt (.mono heads_ident fun _ => starter_ident)
    (.mono heads_string fun c h => by rw [beq_iff_eq.1 h]; decide))
  have split : ∀ s, primaryExpr sub s = alt (alt constant (alt ident string)) (PC.map Expr.paren (close ')' (seqR (sym '(') sub))) s := by
    intro s
    simp only [primaryExpr, alt]
    rcases constant s with ⟨_ | x, n1⟩
    · rcases ident s with ⟨_ | x, n2⟩
      · rcases string s with ⟨_ | x, n3⟩
        · simp only [Res.orElse, close, Prod.mk.injEq, true_and]; omega
        · simp only [Res.orElse]
      · simp only [Res.orElse]
    · simp only [Res.orElse]
  refine ⟨fun {s n} hs hp => ?_, fun {s a s' n} hs hp => ?_⟩
  · rw [split] at hp
    obtain ⟨m, m', h1, h2, rfl⟩ := orElse_none hp
    have h3 := three hs
    rw [h1] at h3
    simp only at h3
    have h2' : close ')' (seqR (sym '(') sub) s = (none, m') := by
      rcases andThen_none h2 with h | ⟨_, _, _, _, -, h, -⟩
      · exact h
      · exact absurd (congrArg Prod.fst h) (by simp)
    rcases sym_cases '(' s with ⟨r, rfl, h4⟩ | ⟨h4, h5⟩
    · have hr : r.length < ('(' :: r).length := by simp
      have hr' : r.length ≤ N := by omega
      have st : Starts ('(' :: r) := not_starts_head (by decide)
      refine ⟨?_, fun h => absurd st h⟩
      have := step_mul A hr
      rcases h6 : sub r with ⟨_ | ⟨e, r1⟩, k⟩
      · have h7 := (hsub.fail hr' h6).1
        have := close_none (c := ')') (p := seqR (sym '(') sub) (s := '(' :: r) (n := 1 + k)
          (by simp only [seqR, h4, Res.andThen, h6])
        rw [h2'] at this
        simp only [Prod.mk.injEq, true_and] at this
        omega
      · obtain ⟨h7, -, h8⟩ := hsub.succ hr' h6
        obtain ⟨m2, h9, h10⟩ := close_some (c := ')') (p := seqR (sym '(') sub) (s := '(' :: r) (s' := r1) (a := e) (n := 1 + k)
          (by simp only [seqR, h4, Res.andThen, h6]) hU (by omega)
        rcases h10 with ⟨_, -, -, h10⟩ | ⟨-, h10⟩
        · rw [h2'] at h10; simp at h10
        · rw [h2'] at h10
          simp only [Prod.mk.injEq, true_and] at h10
          have : k ≤ A * r.length + B := by rcases h8 with h8 | ⟨h8, -⟩ <;> omega
          omega
    · have := close_none (c := ')') (p := seqR (sym '(') sub) (s := s) (n := 1) (by simp only [seqR, h5, Res.andThen])
      rw [h2'] at this
      simp only [Prod.mk.injEq, true_and] at this
      exact ⟨by omega, fun _ => by omega⟩
  · rw [split] at hp
    rcases orElse_some hp with hp | ⟨m, m', h1, h2, rfl⟩
    · obtain ⟨c, r, rfl, hc, hl⟩ := heads.hd hp
      have h3 := three hs
      rw [hp] at h3
      simp only at h3
      have hl' : s'.length < (c :: r).length := by simp only [List.length_cons]; omega
      have := step_mul A hl'
      exact ⟨hl', not_starts_head hc, .inl (by omega)⟩
    · have h3 := three hs
      rw [h1] at h3
      simp only at h3
      obtain ⟨e, s1, k, k', h4, h5, rfl⟩ := andThen_some h2
      simp only [Prod.mk.injEq, Option.some.injEq] at h5
      obtain ⟨⟨-, rfl⟩, rfl⟩ := h5
      rcases sym_cases '(' s with ⟨r, rfl, h5⟩ | ⟨h5, h6⟩
      · have hr : r.length < ('(' :: r).length := by simp
        have hr' : r.length ≤ N := by omega
        have st : Starts ('(' :: r) := not_starts_head (by decide)
        have := step_mul A hr
        rcases h6 : sub r with ⟨_ | ⟨e1, r1⟩, k1⟩
        · rw [close_none (c := ')') (p := seqR (sym '(') sub) (s := '(' :: r) (n := 1 + k1)
            (by simp only [seqR, h5, Res.andThen, h6])] at h4
          simp at h4
        · obtain ⟨h7, -, h8⟩ := hsub.succ hr' h6
          obtain ⟨m2, h9, h10⟩ := close_some (c := ')') (p := seqR (sym '(') sub) (s := '(' :: r) (s' := r1) (a := e1) (n := 1 + k1)
            (by simp only [seqR, h5, Res.andThen, h6]) hU (by omega)
          rcases h10 with ⟨t, h11, h12, h10⟩ | ⟨-, h10⟩
          · rw [h4] at h10
            simp only [Prod.mk.injEq, Option.some.injEq] at h10
            obtain ⟨⟨-, rfl⟩, rfl⟩ := h10
            refine ⟨by omega, st, .inl ?_⟩
            rcases h8 with h8 | ⟨-, h8⟩
            · have := le_mul A (Nat.le_of_lt h12)
              omega
            · exact absurd h11 (h8.apart hc _)
          · rw [h4] at h10; simp at h10
      · rw [close_none (c := ')') (p := seqR (sym '(') sub) (s := s) (n := 1) (by simp only [seqR, h6, Res.andThen])] at h4
        simp at h4

/-! ### arguments -/

/-- what follows cannot be the end of the arguments -/
def Open (s : Str) : Prop := ∃ c r, skip s = c :: r ∧ c ≠ ')'

theorem Open.apart {s : Str} (h : Open s) : ∀ r, skip s ≠ ')' :: r := by
  obtain ⟨c, r, h1, h2⟩ := h
  intro r' e
  rw [h1] at e
  simp only [List.cons.injEq] at e
  exact h2 e.1

theorem Stuck.open {s : Str} (h : Apart ')' σs) (hs : Stuck σs s) : Open s := by
  obtain ⟨σ, h1, u, h2, -⟩ := hs
  obtain ⟨d, r, rfl, hd⟩ := h σ h1
  exact ⟨d, r ++ u, h2, hd⟩

theorem Starts.open {s : Str} (hs : Starts s) : Open s := by
  obtain ⟨d, r, h1, h2⟩ := hs
  exact ⟨d, r, h1, by rintro rfl; exact absurd h2 (by decide)⟩

/-- a comma and an argument -/
theorem comma_item {sub : C Expr} (hsub : Lin N A B E σs sub) (hU : 100 * (N + 1) ≤ U) (hA : B + 10 * U ≤ A)
    (hc : Apart ')' σs) (hc' : Apart ',' σs) :
    Item N A (U + E) Open (Stuck σs) (seqR (seqR space (sym ',')) sub) := by
  have cases : ∀ {s : Str}, s.length ≤ N → (∃ m, m ≤ U ∧ (∀ r, skip s ≠ ',' :: r) ∧ seqR (seqR space (sym ',')) sub s = (none, m)) ∨
      ∃ m r, m ≤ U ∧ skip s = ',' :: r ∧ r.length < s.length ∧ seqR (seqR space (sym ',')) sub s = ((sub r).1, m + (sub r).2) := by
    intro s hs
    obtain ⟨k, h1, h2⟩ := space_eq s
    have hl := skip_length s
    rcases sym_cases ',' (skip s) with ⟨r, h3, h4⟩ | ⟨h3, h4⟩
    · refine .inr ⟨k + 1, r, by omega, h3, ?_, ?_⟩
      · have : (skip s).length = r.length + 1 := by rw [h3]; simp
        omega
      · simp only [seqR, h1, h4, Res.andThen]
    · exact .inl ⟨k + 1, by omega, h3, by simp only [seqR, h1, h4, Res.andThen]⟩
  have main : Item N A (U + E) Open (Stuck σs) (seqR (seqR space (sym ',')) sub) := {
    fail := fun {s n} hs hp => by
      rcases cases hs with ⟨m, h1, -, h2⟩ | ⟨m, r, h1, h2, h3, h4⟩
      · rw [hp] at h2
        simp only [Prod.mk.injEq, true_and] at h2
        exact .inl (by omega)
      · rcases h5 : sub r with ⟨_ | ⟨e, r1⟩, k⟩
        · rw [hp, h5] at h4
          simp only [Prod.mk.injEq, true_and] at h4
          have := (hsub.fail (by omega) h5).1
          have := step_mul A h3
          exact .inr ⟨by omega, ',', r, h2, by decide⟩
        · rw [hp, h5] at h4; simp at h4
    succ := fun {s a s' n} hs hp => by
      rcases cases hs with ⟨m, h1, -, h2⟩ | ⟨m, r, h1, h2, h3, h4⟩
      · rw [hp] at h2; simp at h2
      · rcases h5 : sub r with ⟨_ | ⟨e, r1⟩, k⟩
        · rw [hp, h5] at h4; simp at h4
        · rw [hp, h5] at h4
          simp only [Prod.mk.injEq, Option.some.injEq] at h4
          obtain ⟨⟨rfl, rfl⟩, rfl⟩ := h4
          obtain ⟨h6, -, h7⟩ := hsub.succ (by omega) h5
          have := step_mul A h3
          refine ⟨by omega, ?_⟩
          rcases h7 with h7 | ⟨h7, h8⟩
          · exact .inl (by omega)
          · exact .inr ⟨by omega, h8⟩
    dead := fun {s} hs hst => by
      rcases cases hs with ⟨m, h1, -, h2⟩ | ⟨m, r, h1, h2, h3, h4⟩
      · exact ⟨m, h2, by omega⟩
      · exact absurd h2 (hst.apart hc' _)
    incl := Stuck.open hc }
  exact main

/-- the arguments -/
theorem list_cost {sub : C Expr} (hsub : Lin N A B E σs sub) (hU : 100 * (N + 1) ≤ U) (hA : B + 10 * U ≤ A)
    (hc : Apart ')' σs) (hc' : Apart ',' σs) {s : Str} (hs : s.length ≤ N) :
    ∃ as s' n, list sub (seqR space (sym ',')) s = (some (as, s'), n) ∧ s'.length ≤ s.length ∧
      (¬ Starts s → s' = s ∧ n ≤ E) ∧
      (n + A * s'.length ≤ A * s.length + (B + U + E) ∨ (n ≤ A * s.length + (B + U + E) ∧ Open s')) := by
  have item := comma_item hsub hU hA hc hc'
  rcases h1 : sub s with ⟨_ | ⟨a, s1⟩, n1⟩
  · refine ⟨[], s, n1, by simp only [list, h1], Nat.le_refl _, ?_, ?_⟩
    · exact fun h => ⟨rfl, (hsub.fail hs h1).2 h⟩
    · by_cases h : Starts s
      · exact .inr ⟨by have := (hsub.fail hs h1).1; omega, h.open⟩
      · exact .inl (by have := (hsub.fail hs h1).2 h; omega)
  · obtain ⟨h2, h3, h4⟩ := hsub.succ hs h1
    obtain ⟨as, s2, n2, h5, h6, h7⟩ := many_cost item s1 (by omega)
    refine ⟨a :: as, s2, n1 + n2, by simp only [list, h1, h5, Res.andThen]; rfl, by omega, fun h => absurd h3 h, ?_⟩
    rcases h4 with h4 | ⟨h4, hst⟩
    · rcases h7 with h7 | ⟨h7, h8⟩
      · exact .inl (by omega)
      · exact .inr ⟨by omega, h8⟩
    · obtain ⟨n3, h9, h10⟩ := item.dead (by omega) hst
      have := many_dead h9
      rw [h5] at this
      simp only [Prod.mk.injEq, Option.some.injEq] at this
      obtain ⟨⟨-, rfl⟩, rfl⟩ := this
      exact .inr ⟨by omega, hst.open hc⟩

theorem bracket_hit (o c : Char) (p : C α) (t : Str) :
    close c (seqR (sym o) p) (o :: t) = ((close c p t).1, 1 + (close c p t).2) := by
  rcases h1 : p t with ⟨_ | ⟨a, t1⟩, n1⟩
  · simp only [close, seqL, seqR, sym_hit, Res.andThen, h1]
  · rcases h2 : space t1 with ⟨_ | ⟨b, t2⟩, n2⟩
    · simp only [close, seqL, seqR, sym_hit, Res.andThen, h1, h2, Prod.mk.injEq, true_and]; omega
    · rcases h3 : sym c t2 with ⟨_ | ⟨d, t3⟩, n3⟩ <;>
        simp only [close, seqL, seqR, sym_hit, Res.andThen, h1, h2, h3, Prod.mk.injEq, true_and] <;> omega

theorem bracket_miss {o c : Char} {p : C α} {s : Str} (h : ∀ r, s ≠ o :: r) :
    close c (seqR (sym o) p) s = (none, 1) := by
  rcases sym_cases o s with ⟨r, h1, -⟩ | ⟨-, h1⟩
  · exact absurd h1 (h r)
  · exact close_none (by simp only [seqR, h1, Res.andThen])

theorem field_hit (t : Str) : seqR (sym '.') ident ('.' :: t) = ((ident t).1, 1 + (ident t).2) := by
  simp only [seqR, sym_hit, Res.andThen]

theorem field_miss {s : Str} (h : ∀ r, s ≠ '.' :: r) : seqR (sym '.') ident s = (none, 1) := by
  rcases sym_cases '.' s with ⟨r, h1, -⟩ | ⟨-, h1⟩
  · exact absurd h1 (h r)
  · simp only [seqR, h1, Res.andThen]

theorem map_none {p : C α} {f : α → β} {s : Str} {n : Nat} (h : p s = (none, n)) : map f p s = (none, n) := by
  simp only [map, h, Res.andThen]

theorem map_hit {p : C α} {f : α → β} {s s' : Str} {a : α} {n : Nat} (h : p s = (some (a, s'), n)) :
    map f p s = (some (f a, s'), n) := by
  simp only [map, h, Res.andThen]; rfl

theorem alt_none {p q : C α} {s : Str} {n : Nat} (h : p s = (none, n)) : alt p q s = ((q s).1, n + (q s).2) := by
  simp only [alt, h, Res.orElse]

theorem alt_hit {p q : C α} {s s' : Str} {a : α} {n : Nat} (h : p s = (some (a, s'), n)) : alt p q s = (some (a, s'), n) := by
  simp only [alt, h, Res.orElse]

theorem map_cost (p : C α) (f : α → β) (s : Str) : (map f p s).2 = (p s).2 := by
  simp only [map, andThen_cost]; split <;> rfl

/-- what a call, an index or a field costs: behind its first character -/
theorem postfix_cases {sub : C Expr} (hU : 100 * (N + 1) ≤ U) {s : Str} (hs : s.length ≤ N) :
    (∃ n, seqR space (postfixOp sub) s = (none, n) ∧ n ≤ 2 * U) ∨
    (∃ t n, skip s = '(' :: t ∧ t.length < s.length ∧ n ≤ U ∧ seqR space (postfixOp sub) s =
      ((close ')' (list sub (seqR space (sym ','))) t).1.map (fun x => (PostfixOp.call x.1, x.2)),
        n + (close ')' (list sub (seqR space (sym ','))) t).2)) ∨
    (∃ t n, skip s = '[' :: t ∧ t.length < s.length ∧ n ≤ U ∧ seqR space (postfixOp sub) s =
      ((close ']' sub t).1.map (fun x => (PostfixOp.index x.1, x.2)), n + (close ']' sub t).2)) ∨
    (∃ a s' n, s'.length < s.length ∧ n ≤ 2 * U ∧ seqR space (postfixOp sub) s = (some (a, s'), n)) := by
  obtain ⟨k, h1, h2⟩ := space_eq s
  have hl := skip_length s
  have e : seqR space (postfixOp sub) s = ((postfixOp sub (skip s)).1, k + (postfixOp sub (skip s)).2) := by
    simp only [seqR, h1, Res.andThen]
  have e2 : postfixOp sub (skip s) = alt (map PostfixOp.call (close ')' (seqR (sym '(') (list sub (seqR space (sym ',')))))) (alt
      (map PostfixOp.index (close ']' (seqR (sym '[') sub))) (map PostfixOp.field (seqR (sym '.') ident))) (skip s) := rfl
  rw [e, e2]
  by_cases c1 : ∃ t, skip s = '(' :: t
  · obtain ⟨t, ht⟩ := c1
    rw [ht]
    have hn1 : ∀ r, '(' :: t ≠ '[' :: r := by simp
    have hn2 : ∀ r, '(' :: t ≠ '.' :: r := by simp
    have htl : t.length < s.length := by rw [ht] at hl; simp at hl; omega
    rcases h3 : close ')' (list sub (seqR space (sym ','))) t with ⟨_ | ⟨as, r⟩, n3⟩
    · refine .inr (.inl ⟨t, k + 3, rfl, htl, by omega, ?_⟩)
      rw [alt_none (map_none (by rw [bracket_hit, h3])), alt_none (map_none (bracket_miss hn1)), map_none (field_miss hn2)]
      rw [h3]; simp only [Option.map_none, Prod.mk.injEq, true_and]; omega
    · refine .inr (.inl ⟨t, k + 1, rfl, htl, by omega, ?_⟩)
      rw [alt_hit (map_hit (by rw [bracket_hit, h3]))]
      rw [h3]; simp only [Option.map_some, Prod.mk.injEq, true_and]; omega
  · have hm1 : ∀ r, skip s ≠ '(' :: r := fun r h => c1 ⟨r, h⟩
    rw [alt_none (map_none (bracket_miss hm1))]
    by_cases c2 : ∃ t, skip s = '[' :: t
    · obtain ⟨t, ht⟩ := c2
      rw [ht]
      have hn2 : ∀ r, '[' :: t ≠ '.' :: r := by simp
      have htl : t.length < s.length := by rw [ht] at hl; simp at hl; omega
      rcases h3 : close ']' sub t with ⟨_ | ⟨as, r⟩, n3⟩
      · refine .inr (.inr (.inl ⟨t, k + 3, rfl, htl, by omega, ?_⟩))
        rw [alt_none (map_none (by rw [bracket_hit, h3])), map_none (field_miss hn2)]
        rw [h3]; simp only [Option.map_none, Prod.mk.injEq, true_and]; omega
      · refine .inr (.inr (.inl ⟨t, k + 2, rfl, htl, by omega, ?_⟩))
        rw [alt_hit (map_hit (by rw [bracket_hit, h3]))]
        rw [h3]; simp only [Option.map_some, Prod.mk.injEq, true_and]; omega
    · have hm2 : ∀ r, skip s ≠ '[' :: r := fun r h => c2 ⟨r, h⟩
      rw [alt_none (map_none (bracket_miss hm2))]
      by_cases c3 : ∃ t, skip s = '.' :: t
      · obtain ⟨t, ht⟩ := c3
        rw [ht]
        have htl : t.length < s.length := by rw [ht] at hl; simp at hl; omega
        have b := rough_ident.bound (U := U) (N := N) (by omega) (s := t) (by omega)
        rcases h3 : ident t with ⟨_ | ⟨x, r⟩, n3⟩
        · rw [h3] at b
          simp only at b
          refine .inl ⟨k + (1 + (1 + (1 + n3))), ?_, by omega⟩
          rw [map_none (by rw [field_hit, h3])]
        · rw [h3] at b
          simp only at b
          have := rough_ident.le h3
          refine .inr (.inr (.inr ⟨PostfixOp.field x, r, k + (1 + (1 + (1 + n3))), by omega, by omega, ?_⟩))
          rw [map_hit (by rw [field_hit, h3])]
      · have hm3 : ∀ r, skip s ≠ '.' :: r := fun r h => c3 ⟨r, h⟩
        rw [map_none (field_miss hm3)]
        exact .inl ⟨_, rfl, by omega⟩

/-- a call, an index or a field -/
theorem postfix_item {sub : C Expr} (hsub : Lin N A B E σs sub) (hU : 100 * (N + 1) ≤ U) (hA : B + E + 10 * U ≤ A)
    (hc : Apart ')' σs) (hc' : Apart ',' σs) (hc2 : Apart ']' σs) :
    Item N A (E + 5 * U) (Stuck [s!' "(", s!' "["]) (fun _ => False) (seqR space (postfixOp sub)) := by
  refine ⟨fun {s n} hs hp => ?_, fun {s a s' n} hs hp => ?_, fun _ h => h.elim, fun h => h.elim⟩
  · rcases postfix_cases (sub := sub) hU hs with ⟨m, h1, h2⟩ | ⟨t, m, h1, h2, h3, h4⟩ | ⟨t, m, h1, h2, h3, h4⟩ | ⟨a, s', m, h1, h2, h3⟩
    · rw [hp] at h1
      simp only [Prod.mk.injEq, true_and] at h1
      exact .inl (by omega)
    · rw [hp] at h4
      obtain ⟨as, t', k, h5, h6, h7, h8⟩ := list_cost hsub hU (by omega) hc hc' (s := t) (by omega)
      obtain ⟨m2, h9, h10⟩ := close_some (c := ')') h5 hU (by omega)
      rcases h10 with ⟨_, -, -, h10⟩ | ⟨-, h10⟩
      · rw [h10] at h4; simp at h4
      · rw [h10] at h4
        simp only [Option.map_none, Prod.mk.injEq, true_and] at h4
        have := step_mul A h2
        by_cases hst : Starts t
        · exact .inr ⟨by rcases h8 with h8 | ⟨h8, -⟩ <;> omega, s!' "(", by simp, t, h1, hst⟩
        · have := (h7 hst).2
          exact .inl (by omega)
    · rw [hp] at h4
      have := step_mul A h2
      rcases h5 : sub t with ⟨_ | ⟨e, t1⟩, k⟩
      · rw [close_none h5] at h4
        simp only [Option.map_none, Prod.mk.injEq, true_and] at h4
        obtain ⟨h6, h7⟩ := hsub.fail (by omega) h5
        by_cases hst : Starts t
        · exact .inr ⟨by omega, s!' "[", by simp, t, h1, hst⟩
        · have := h7 hst
          exact .inl (by omega)
      · obtain ⟨h6, h7, h8⟩ := hsub.succ (by omega) h5
        obtain ⟨m2, h9, h10⟩ := close_some (c := ']') h5 hU (by omega)
        rcases h10 with ⟨_, -, -, h10⟩ | ⟨-, h10⟩
        · rw [h10] at h4; simp at h4
        · rw [h10] at h4
          simp only [Option.map_none, Prod.mk.injEq, true_and] at h4
          exact .inr ⟨by rcases h8 with h8 | ⟨h8, -⟩ <;> omega, s!' "[", by simp, t, h1, h7⟩
    · rw [hp] at h3; simp at h3
  · rcases postfix_cases (sub := sub) hU hs with ⟨m, h1, h2⟩ | ⟨t, m, h1, h2, h3, h4⟩ | ⟨t, m, h1, h2, h3, h4⟩ | ⟨a, s', m, h1, h2, h3⟩
    · rw [hp] at h1; simp at h1
    · rw [hp] at h4
      obtain ⟨as, t', k, h5, h6, h7, h8⟩ := list_cost hsub hU (by omega) hc hc' (s := t) (by omega)
      obtain ⟨m2, h9, h10⟩ := close_some (c := ')') h5 hU (by omega)
      rcases h10 with ⟨r, h11, h12, h10⟩ | ⟨-, h10⟩
      · rw [h10] at h4
        simp only [Option.map_some, Prod.mk.injEq, Option.some.injEq] at h4
        obtain ⟨⟨-, rfl⟩, rfl⟩ := h4
        have := step_mul A h2
        have := le_mul A (Nat.le_of_lt h12)
        rcases h8 with h8 | ⟨-, h8⟩
        · exact ⟨by omega, .inl (by omega)⟩
        · exact absurd h11 (h8.apart _)
      · rw [h10] at h4; simp at h4
    · rw [hp] at h4
      rcases h5 : sub t with ⟨_ | ⟨e, t1⟩, k⟩
      · rw [close_none h5] at h4; simp at h4
      · obtain ⟨h6, h7, h8⟩ := hsub.succ (by omega) h5
        obtain ⟨m2, h9, h10⟩ := close_some (c := ']') h5 hU (by omega)
        rcases h10 with ⟨r, h11, h12, h10⟩ | ⟨-, h10⟩
        · rw [h10] at h4
          simp only [Option.map_some, Prod.mk.injEq, Option.some.injEq] at h4
          obtain ⟨⟨-, rfl⟩, rfl⟩ := h4
          have := step_mul A h2
          have := le_mul A (Nat.le_of_lt h12)
          rcases h8 with h8 | ⟨-, h8⟩
          · exact ⟨by omega, .inl (by omega)⟩
          · exact absurd h11 (h8.apart hc2 _)
        · rw [h10] at h4; simp at h4
    · rw [hp] at h3
      simp only [Prod.mk.injEq, Option.some.injEq] at h3
      obtain ⟨⟨-, rfl⟩, rfl⟩ := h3
      have := step_mul A h1
      exact ⟨h1, .inl (by omega)⟩

theorem Lin.postfix {sub : C Expr} (hsub : Lin N A B E σs sub) (hU : 100 * (N + 1) ≤ U) (hA : B + E + 10 * U ≤ A)
    (hc : Apart ')' σs) (hc' : Apart ',' σs) (hc2 : Apart ']' σs) :
    Lin N A (E + 9 * U) (4 * U) [s!' "(", s!' "["] (postfixExpr sub) := by
  have hn := Lin.primary hsub hU (by omega) hc
  have item := postfix_item hsub hU hA hc hc' hc2
  refine .map _ ⟨fun {s n} hs hp => ?_, fun {s a s' n} hs hp => ?_⟩
  · rcases andThen_none hp with hp | ⟨a, s1, m, m', h1, h2, rfl⟩
    · obtain ⟨h1, h2⟩ := hn.fail hs hp
      exact ⟨by omega, h2⟩
    · obtain ⟨h3, -⟩ := hn.succ hs h1
      obtain ⟨as, s2, n2, h4, -⟩ := many_cost item s1 (by omega)
      rw [h4] at h2
      simp [Res.andThen] at h2
  · obtain ⟨a, s1, m, m', h1, h2, rfl⟩ := andThen_some hp
    obtain ⟨h3, h4, h5⟩ := hn.succ hs h1
    obtain ⟨as, s2, n2, h6, h7, h8⟩ := many_cost item s1 (by omega)
    rw [h6] at h2
    simp only [Res.andThen, Prod.mk.injEq, Option.some.injEq] at h2
    obtain ⟨⟨-, rfl⟩, rfl⟩ := h2
    refine ⟨by omega, h4, ?_⟩
    rcases h5 with h5 | ⟨h5, _, hm, -⟩
    · rcases h8 with h8 | ⟨h8, h9⟩
      · exact .inl (by omega)
      · exact .inr ⟨by omega, h9⟩
    · cases hm

/-! ### prefixes -/

theorem Lin.unary {sub : C Expr} (hsub : Lin N A B E σs sub) (hU : 100 * (N + 1) ≤ U) (hA : B + E + 10 * U ≤ A)
    (hc : Apart ')' σs) (hc' : Apart ',' σs) (hc2 : Apart ']' σs) :
    Lin N A (E + 11 * U) (6 * U) [s!' "(", s!' "["] (unaryExpr sub) := by
  have hn := Lin.postfix hsub hU hA hc hc' hc2
  have rough : Rough 32 (seqL prefixOp space) := .seqL rough_prefixOp rough_space
  have heads : Heads starter (seqL prefixOp space) := .seqL heads_prefixOp rough_space.le
  have item : Item N A U (fun _ => False) (fun _ => False) (seqL prefixOp space) := {
    fail := fun {s n} hs hp => by
      have := rough.bound (U := U) (by omega) hs
      rw [hp] at this
      exact .inl this
    succ := fun {s a s' n} hs hp => by
      have hb := rough.bound (U := U) (by omega) hs
      rw [hp] at hb
      simp only at hb
      obtain ⟨c, r, rfl, -, h⟩ := heads.hd hp
      have hl : s'.length < (c :: r).length := by simp only [List.length_cons]; omega
      have := step_mul A hl
      exact ⟨hl, .inl (by omega)⟩
    dead := fun _ h => h.elim
    incl := fun h => h }
  have split : ∀ {s : Str}, s.length ≤ N → ∃ ps s1 n1, s1.length ≤ s.length ∧ n1 + A * s1.length ≤ A * s.length + 2 * U ∧
      (¬ Starts s → s1 = skip s ∧ n1 ≤ 2 * U) ∧ (Starts s1 → Starts s) ∧
      seqL (many (seqL prefixOp space)) space s = (some (ps, s1), n1) := by
    intro s hs
    obtain ⟨ps, s1, n1, h1, h2, h3⟩ := many_cost item s hs
    have h3 : n1 + A * s1.length ≤ A * s.length + U := by
      rcases h3 with h3 | ⟨-, h3⟩
      · exact h3
      · exact h3.elim
    obtain ⟨k, h4, h5⟩ := space_eq s1
    have hl := skip_length s1
    have := le_mul A hl
    have hd : ¬ Starts s → ps = [] ∧ s1 = s ∧ n1 ≤ U := by
      intro hns
      rcases h6 : seqL prefixOp space s with ⟨_ | ⟨p, s2⟩, n2⟩
      · rw [many_dead h6] at h1
        simp only [Prod.mk.injEq, Option.some.injEq] at h1
        obtain ⟨⟨rfl, rfl⟩, rfl⟩ := h1
        have := rough.bound (U := U) (by omega) hs
        rw [h6] at this
        exact ⟨rfl, rfl, this⟩
      · obtain ⟨c, r, rfl, h, -⟩ := heads.hd h6
        exact absurd (not_starts_head h) hns
    refine ⟨ps, skip s1, n1 + k, by omega, by omega, ?_, ?_, by simp only [seqL, h1, h4, Res.andThen]; rfl⟩
    · intro hns
      obtain ⟨-, rfl, h⟩ := hd hns
      exact ⟨rfl, by omega⟩
    · intro hst
      refine Classical.byContradiction fun hns => ?_
      obtain ⟨-, rfl, -⟩ := hd hns
      exact hns (starts_skip.1 hst)
  refine .map _ ⟨fun {s n} hs hp => ?_, fun {s a s' n} hs hp => ?_⟩
  · obtain ⟨ps, s1, n1, h1, h2, h3, h4, h5⟩ := split hs
    rcases andThen_none hp with hp | ⟨a, s2, m, m', h6, h7, rfl⟩
    · rw [hp] at h5; simp at h5
    · rw [h5] at h6
      simp only [Prod.mk.injEq, Option.some.injEq] at h6
      obtain ⟨⟨rfl, rfl⟩, rfl⟩ := h6
      rcases andThen_none h7 with h7 | ⟨_, _, _, _, -, h8, -⟩
      · obtain ⟨h8, h9⟩ := hn.fail (by omega) h7
        refine ⟨by omega, fun hns => ?_⟩
        obtain ⟨h10, h11⟩ := h3 hns
        have := h9 (fun h => hns (h4 h))
        omega
      · exact absurd (congrArg Prod.fst h8) (by simp)
  · obtain ⟨ps, s1, n1, h1, h2, h3, h4, h5⟩ := split hs
    obtain ⟨a, s2, m, m', h6, h7, rfl⟩ := andThen_some hp
    rw [h5] at h6
    simp only [Prod.mk.injEq, Option.some.injEq] at h6
    obtain ⟨⟨rfl, rfl⟩, rfl⟩ := h6
    obtain ⟨b, s3, k, k', h8, h9, rfl⟩ := andThen_some h7
    simp only [Prod.mk.injEq, Option.some.injEq] at h9
    obtain ⟨⟨-, rfl⟩, rfl⟩ := h9
    obtain ⟨h10, h11, h12⟩ := hn.succ (by omega) h8
    refine ⟨by omega, h4 h11, ?_⟩
    rcases h12 with h12 | ⟨h12, h13⟩
    · exact .inl (by omega)
    · exact .inr ⟨by omega, h13⟩

end

/-! ### the levels -/

/-- the operators behind which an expression can have been looked for in vain -/
def stops : List Str := [s!' "(", s!' "[", s!' "*", s!' "/", s!' "%", s!' "+", s!' "-", s!' "<<", s!' ">>", s!' "<=", s!' "<",
  s!' ">=", s!' ">", s!' "==", s!' "!=", s!' "&", s!' "^", s!' "|", s!' "&&", s!' "||"]

theorem apart_stops {c : Char} (h : stops.all (fun σ => match σ with | d :: _ => d != c | [] => false) = true) : Apart c stops := by
  intro σ hσ
  have := List.all_eq_true.1 h σ hσ
  cases σ with
  | nil => simp at this
  | cons d r => exact ⟨d, r, rfl, by simpa using this⟩

theorem clash_all {σs τs : List Str} (h : σs.all (fun σ => τs.all fun τ => clash σ τ) = true) :
    ∀ σ ∈ σs, ∀ τ ∈ τs, clash σ τ = true := fun σ hσ τ hτ => List.all_eq_true.1 (List.all_eq_true.1 h σ hσ) τ hτ

theorem Lin.or {N U A : Nat} {sub : C Expr} (hsub : Lin N A (140 * U) (7 * U) stops sub) (hU : 100 * (N + 1) ≤ U) (hA : A = 300 * U) :
    Lin N A (138 * U) (6 * U) stops (orExpr sub) := by
  have h0 := Lin.unary hsub hU (by omega) (apart_stops (by decide)) (apart_stops (by decide)) (apart_stops (by decide))
  have tg : ∀ {t : Str} {o : BinOp}, (∃ c r, t = c :: r ∧ isSpaceChar c = false) → Ops t.length [t] (opTag t o) := fun h => Ops.tag h
  have h1 := h0.level (U := U) (.alt (tg (o := .mul) (t := s!' "*") ⟨_, _, rfl, by decide⟩)
    (.alt (tg (o := .div) (t := s!' "/") ⟨_, _, rfl, by decide⟩) (tg (o := .mod) (t := s!' "%") ⟨_, _, rfl, by decide⟩)))
    (by simp only [List.length_cons, List.length_nil]; omega) (by omega) (by omega) (clash_all (by decide))
  have h2 := h1.level (U := U) (.alt (tg (o := .plus) (t := s!' "+") ⟨_, _, rfl, by decide⟩)
    (tg (o := .minus) (t := s!' "-") ⟨_, _, rfl, by decide⟩))
    (by simp only [List.length_cons, List.length_nil]; omega) (by omega) (by omega) (clash_all (by decide))
  have h3 := h2.level (U := U) (.alt (tg (o := .shl) (t := s!' "<<") ⟨_, _, rfl, by decide⟩)
    (tg (o := .shr) (t := s!' ">>") ⟨_, _, rfl, by decide⟩))
    (by simp only [List.length_cons, List.length_nil]; omega) (by omega) (by omega) (clash_all (by decide))
  have h4 := h3.level (U := U) (.alt (tg (o := .le) (t := s!' "<=") ⟨_, _, rfl, by decide⟩)
    (.alt (tg (o := .lt) (t := s!' "<") ⟨_, _, rfl, by decide⟩) (.alt (tg (o := .ge) (t := s!' ">=") ⟨_, _, rfl, by decide⟩)
    (tg (o := .gt) (t := s!' ">") ⟨_, _, rfl, by decide⟩))))
    (by simp only [List.length_cons, List.length_nil]; omega) (by omega) (by omega) (clash_all (by decide))
  have h5 := h4.once (U := U) (fun p => match p.2 with
      | some q => Expr.bin q.1 p.1 q.2
      | none => p.1) (.alt (tg (o := .eq) (t := s!' "==") ⟨_, _, rfl, by decide⟩)
    (tg (o := .ne) (t := s!' "!=") ⟨_, _, rfl, by decide⟩))
    (by simp only [List.length_cons, List.length_nil]; omega) (by omega) (by omega) (clash_all (by decide))
  have h6 := h5.level (U := U) (.sym (c := '&') (fun _ => BinOp.band) (by decide)) (by omega) (by omega) (by omega) (clash_all (by decide))
  have h7 := h6.level (U := U) (.sym (c := '^') (fun _ => BinOp.bxor) (by decide)) (by omega) (by omega) (by omega) (clash_all (by decide))
  have h8 := h7.level (U := U) (.sym (c := '|') (fun _ => BinOp.bor) (by decide)) (by omega) (by omega) (by omega) (clash_all (by decide))
  have h9 := h8.level (U := U) (tg (o := .land) (t := s!' "&&") ⟨_, _, rfl, by decide⟩)
    (by simp only [List.length_cons, List.length_nil]; omega) (by omega) (by omega) (clash_all (by decide))
  have h10 := h9.level (U := U) (tg (o := .lor) (t := s!' "||") ⟨_, _, rfl, by decide⟩)
    (by simp only [List.length_cons, List.length_nil]; omega) (by omega) (by omega) (clash_all (by decide))
  exact h10.mono (by omega) (by omega)

/-- expressions -/
theorem lin_exprF {N U A : Nat} (hU : 100 * (N + 1) ≤ U) (hA : A = 300 * U) : ∀ n, Lin N A (140 * U) (7 * U) stops (exprF n)
  | 0 => ⟨fun _ h => by simp only [exprF, Prod.mk.injEq, true_and] at h; subst h; exact ⟨by omega, fun _ => by omega⟩,
      fun _ h => by simp [exprF] at h⟩
  | n + 1 => by
    have h := Lin.or (lin_exprF hU hA n) hU hA
    have e : ∀ {s : Str}, s.length ≤ N → ∃ k, k ≤ U ∧ exprF (n + 1) s = ((orExpr (exprF n) (skip s)).1, k + (orExpr (exprF n) (skip s)).2) := by
      intro s hs
      obtain ⟨k, h4, h5⟩ := space_eq s
      exact ⟨k, by omega, by simp only [exprF, seqR, h4, Res.andThen]⟩
    refine ⟨fun {s m} hs hp => ?_, fun {s a s' m} hs hp => ?_⟩
    · obtain ⟨k, h1, h2⟩ := e hs
      have hl := skip_length s
      have := le_mul A hl
      rcases h3 : orExpr (exprF n) (skip s) with ⟨_ | ⟨x, s1⟩, m1⟩
      · rw [h3, hp] at h2
        simp only [Prod.mk.injEq, true_and] at h2
        obtain ⟨h4, h5⟩ := h.fail (by omega) h3
        exact ⟨by omega, fun hns => by have := h5 (fun h => hns (starts_skip.1 h)); omega⟩
      · rw [h3, hp] at h2; simp at h2
    · obtain ⟨k, h1, h2⟩ := e hs
      have hl := skip_length s
      have := le_mul A hl
      rcases h3 : orExpr (exprF n) (skip s) with ⟨_ | ⟨x, s1⟩, m1⟩
      · rw [h3, hp] at h2; simp at h2
      · rw [h3, hp] at h2
        simp only [Prod.mk.injEq, Option.some.injEq] at h2
        obtain ⟨⟨rfl, rfl⟩, rfl⟩ := h2
        obtain ⟨h4, h5, h6⟩ := h.succ (by omega) h3
        refine ⟨by omega, starts_skip.1 h5, ?_⟩
        rcases h6 with h6 | ⟨h6, h7⟩
        · exact .inl (by omega)
        · exact .inr ⟨by omega, h7⟩

end Btrd.PC
