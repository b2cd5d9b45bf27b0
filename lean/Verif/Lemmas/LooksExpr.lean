/-
How often parsing an expression looks at the text.
-/
import Verif.Lemmas.Looks

namespace Btrd.PC

variable {α β γ : Type}

/-- the characters an expression can begin with -/
def starter (c : Char) : Bool :=
  isIdentStart c || isDigitChar c || c == '"' || c == '(' || c == '~' || c == '!' || c == '-'

/-- behind the blanks -/
def skip (s : Str) : Str := s.dropWhile isSpaceChar

/-- behind the blanks there is something an expression can begin with -/
def Starts (s : Str) : Prop := ∃ c r, skip s = c :: r ∧ starter c = true

/-- the text here begins with one of these operators, and something that could have been its operand: none of the
rules that come next will take that up -/
def Stuck (σs : List Str) (s : Str) : Prop := ∃ σ ∈ σs, ∃ u, skip s = σ ++ u ∧ Starts u

theorem Stuck.mono {σs τs : List Str} (h : ∀ σ ∈ σs, σ ∈ τs) {s : Str} : Stuck σs s → Stuck τs s
  | ⟨σ, h1, u, h2⟩ => ⟨σ, h σ h1, u, h2⟩

theorem skip_skip (s : Str) : skip (skip s) = skip s := by
  unfold skip
  induction s with
  | nil => rfl
  | cons c s ih =>
    rw [List.dropWhile_cons]
    split
    · exact ih
    · rename_i h; rw [List.dropWhile_cons]; simp [h]

theorem starts_skip {s : Str} : Starts (skip s) ↔ Starts s := by unfold Starts; rw [skip_skip]

theorem skip_length (s : Str) : (skip s).length ≤ s.length := (List.dropWhile_sublist _).length_le

theorem starter_space {c : Char} (h : starter c = true) : isSpaceChar c = false := by
  cases hs : isSpaceChar c
  · rfl
  · simp only [isSpaceChar, Bool.or_eq_true, beq_iff_eq] at hs
    rcases hs with ((rfl | rfl) | rfl) | rfl <;> exact absurd h (by decide)

theorem skip_cons {c : Char} (h : isSpaceChar c = false) (s : Str) : skip (c :: s) = c :: s := by
  unfold skip; rw [List.dropWhile_cons]; simp [h]

/-- `space` skips the blanks -/
theorem space_eq (s : Str) : ∃ n, space s = (some ((), skip s), n) ∧ n ≤ 2 * (s.length + 1) := by
  have hc := rough_space.cost s
  have he : (space s).1 = some ((), skip s) := by
    have key : ∀ (k : Nat) (s : Str), s.length < k → ∃ as, (manyF k (isA isSpaceChar) s).1 = some (as, skip s) := by
      intro k
      induction k with
      | zero => intro s h; omega
      | succ k ih =>
        intro s h
        cases s with
        | nil => exact ⟨[], rfl⟩
        | cons c cs =>
          cases hc : isSpaceChar c
          · exact ⟨[], by simp [manyF, isA, hc, skip_cons hc]⟩
          · obtain ⟨as, h1⟩ := ih cs (by simp at h; omega)
            refine ⟨c :: as, ?_⟩
            have : skip (c :: cs) = skip cs := by unfold skip; rw [List.dropWhile_cons]; simp [hc]
            rw [this]
            simp only [manyF, isA, hc, if_true, andThen_fst, h1]
    obtain ⟨as, h⟩ := key (s.length + 1) s (by omega)
    simp only [space, map, many, andThen_fst, h]
  exact ⟨(space s).2, Prod.ext he rfl, hc⟩

/-! ### operators -/

/-- where two operators differ, or where one ends and the other goes on, no operand can begin -/
def clash : Str → Str → Bool
  | [], [] => false
  | [], t :: _ => !(starter t || isSpaceChar t)
  | s :: _, [] => !(starter s || isSpaceChar s)
  | s :: σ, t :: τ => s != t || clash σ τ

theorem clash_starts : ∀ {σ τ u r : Str}, clash σ τ = true → Starts u → σ ++ u = τ ++ r → ¬ Starts r
  | [], [], _, _, h, _, _ => by simp [clash] at h
  | [], t :: τ, u, r, h, ⟨c, v, hc, hs⟩, e => by
    simp only [List.nil_append, List.cons_append] at e
    subst e
    exfalso
    simp only [clash, Bool.not_eq_true', Bool.or_eq_false_iff] at h
    rw [skip_cons h.2] at hc
    simp only [List.cons.injEq] at hc
    rw [hc.1] at h
    exact absurd hs (by simp [h.1])
  | s :: σ, [], u, r, h, _, e => by
    simp only [List.nil_append, List.cons_append] at e
    subst e
    simp only [clash, Bool.not_eq_true', Bool.or_eq_false_iff] at h
    rintro ⟨c, v, hc, hs⟩
    rw [skip_cons h.2] at hc
    simp only [List.cons.injEq] at hc
    rw [hc.1] at h
    exact absurd hs (by simp [h.1])
  | s :: σ, t :: τ, u, r, h, hu, e => by
    simp only [List.cons_append, List.cons.injEq] at e
    simp only [clash, Bool.or_eq_true, bne_iff_ne] at h
    rcases h with h | h
    · exact absurd e.1 h
    · exact clash_starts h hu e.2

/-- a parser that reads one of these operators -/
structure Ops (k : Nat) (τs : List Str) (p : C α) : Prop where
  rough : Rough k p
  reads : ∀ {s a s' n}, p s = (some (a, s'), n) → ∃ τ ∈ τs, s = τ ++ s'
  solid : ∀ τ ∈ τs, ∃ c r, τ = c :: r ∧ isSpaceChar c = false

theorem Ops.tag {t : Str} {o : α} (h : ∃ c r, t = c :: r ∧ isSpaceChar c = false) : Ops t.length [t] (map (fun _ => o) (tag t)) where
  rough := .map _ (.of_const (.tag _))
  reads hp := by
    obtain ⟨a, s, m, m', h1, h2, rfl⟩ := andThen_some hp
    simp only [Prod.mk.injEq, Option.some.injEq] at h2
    obtain ⟨⟨-, rfl⟩, rfl⟩ := h2
    exact ⟨t, List.mem_singleton.2 rfl, (tag_cost t _).2 a s (by rw [h1])⟩
  solid τ hτ := by rw [List.mem_singleton.1 hτ]; exact h

theorem Ops.sym {c : Char} (f : Char → α) (h : isSpaceChar c = false) : Ops 1 [[c]] (map f (sym c)) where
  rough := .map _ (.of_const (.sym _))
  reads {s a s' n} hp := by
    obtain ⟨a, s1, m, m', h1, h2, rfl⟩ := andThen_some hp
    simp only [Prod.mk.injEq, Option.some.injEq] at h2
    obtain ⟨⟨-, rfl⟩, rfl⟩ := h2
    refine ⟨[c], List.mem_singleton.2 rfl, ?_⟩
    cases s with
    | nil => simp [PC.sym, isA] at h1
    | cons d ds =>
      simp only [PC.sym, isA] at h1
      split at h1 <;> simp only [Prod.mk.injEq, reduceCtorEq, false_and, Option.some.injEq] at h1
      rename_i hd
      rw [beq_iff_eq.1 hd, h1.1.2]; rfl
  solid τ hτ := by rw [List.mem_singleton.1 hτ]; exact ⟨c, [], rfl, h⟩

theorem Ops.alt {k l : Nat} {τs υs : List Str} {p q : C α} (hp : Ops k τs p) (hq : Ops l υs q) :
    Ops (k + l) (τs ++ υs) (alt p q) where
  rough := hp.rough.alt hq.rough
  reads h := by
    rcases orElse_some h with h | ⟨m, m', h1, h2, rfl⟩
    · obtain ⟨τ, h1, h2⟩ := hp.reads h
      exact ⟨τ, List.mem_append_left _ h1, h2⟩
    · obtain ⟨τ, h1, h2⟩ := hq.reads h2
      exact ⟨τ, List.mem_append_right _ h1, h2⟩
  solid τ h := by
    rcases List.mem_append.1 h with h | h
    · exact hp.solid τ h
    · exact hq.solid τ h

/-! ### expressions -/

/-- the bounds for a rule of expressions on texts no longer than `N`: a failure costs no more than `A` for each
character, and little (`E`) if no expression can begin there; a success costs `A` for each character consumed, unless
the text behind it is `Stuck` -/
structure Lin (N A B E : Nat) (σs : List Str) (p : C α) : Prop where
  fail : ∀ {s n}, s.length ≤ N → p s = (none, n) → n ≤ A * s.length + B ∧ (¬ Starts s → n ≤ E)
  succ : ∀ {s a s' n}, s.length ≤ N → p s = (some (a, s'), n) → s'.length < s.length ∧ Starts s ∧
    (n + A * s'.length ≤ A * s.length + B ∨ (n ≤ A * s.length + B ∧ Stuck σs s'))

theorem Lin.mono {N A B B' E E' : Nat} {σs : List Str} {p : C α} (h : Lin N A B E σs p) (hB : B ≤ B') (hE : E ≤ E') :
    Lin N A B' E' σs p where
  fail hs hp := by
    obtain ⟨h1, h2⟩ := h.fail hs hp
    exact ⟨by omega, fun h => by have := h2 h; omega⟩
  succ hs hp := by
    obtain ⟨h1, h2, h3⟩ := h.succ hs hp
    refine ⟨h1, h2, ?_⟩
    rcases h3 with h3 | ⟨h3, h4⟩
    · exact .inl (by omega)
    · exact .inr ⟨by omega, h4⟩

theorem Lin.map {N A B E : Nat} {σs : List Str} {p : C α} (f : α → β) (h : Lin N A B E σs p) : Lin N A B E σs (map f p) where
  fail hs hp := by
    rcases andThen_none hp with hp | ⟨a, s, m, m', h1, h2, -⟩
    · exact h.fail hs hp
    · simp at h2
  succ hs hp := by
    obtain ⟨a, s, m, m', h1, h2, rfl⟩ := andThen_some hp
    simp only [Prod.mk.injEq, Option.some.injEq] at h2
    obtain ⟨⟨-, rfl⟩, rfl⟩ := h2
    exact h.succ hs h1

section
variable {N U A B E k : Nat} {σs τs : List Str}

/-- `space() * ops - space() + next` -/
def tail (ops : C α) (next : C β) : C (α × β) := seq (seqL (seqR space ops) space) next

/-- a rough token on a text of at most `N` characters -/
theorem Rough.bound {p : C α} (h : Rough k p) (hU : k * (N + 1) ≤ U) {s : Str} (hs : s.length ≤ N) : (p s).2 ≤ U := by
  have := h.cost s
  have := le_mul k (a := s.length + 1) (b := N + 1) (by omega)
  omega

theorem tail_cases {ops : C α} {next : C β} (ho : Ops k τs ops) (hU : k * (N + 1) ≤ U) (hU2 : 2 * (N + 1) ≤ U) {s : Str}
    (hs : s.length ≤ N) :
    (∃ n, tail ops next s = (none, n) ∧ n ≤ 2 * U) ∨
    ∃ a τ r n, τ ∈ τs ∧ skip s = τ ++ r ∧ n ≤ 3 * U ∧ (skip r).length < s.length ∧
      tail ops next s = ((next (skip r)).1.map fun x => ((a, x.1), x.2), n + (next (skip r)).2) := by
  obtain ⟨n1, h1, c1⟩ := space_eq s
  have b1 : n1 ≤ U := by have := le_mul 2 (a := s.length + 1) (b := N + 1) (by omega); omega
  have hl := skip_length s
  have b2 := ho.rough.bound hU (s := skip s) (by omega)
  rcases h2 : ops (skip s) with ⟨_ | ⟨a, r⟩, n2⟩
  · left
    rw [h2] at b2
    refine ⟨n1 + n2, ?_, by simp only at b2; omega⟩
    simp only [tail, seq, seqL, seqR, h1, h2, Res.andThen]
  · right
    rw [h2] at b2
    obtain ⟨τ, hτ, hr⟩ := ho.reads h2
    have hτ0 : 0 < τ.length := by
      obtain ⟨c, t, rfl, -⟩ := ho.solid τ hτ
      simp
    have hrl : r.length < s.length := by
      have : (skip s).length = τ.length + r.length := by rw [hr, List.length_append]
      omega
    have hsr := skip_length r
    obtain ⟨n3, h3, c3⟩ := space_eq r
    have b3 : n3 ≤ U := by have := le_mul 2 (a := r.length + 1) (b := N + 1) (by omega); omega
    refine ⟨a, τ, r, n1 + n2 + n3, hτ, hr, by simp only at b2; omega, by omega, ?_⟩
    simp only [tail, seq, seqL, seqR, h1, h2, h3, Res.andThen]
    rcases next (skip r) with ⟨_ | ⟨b, s'⟩, n4⟩
    · simp only [Option.map_none, Prod.mk.injEq, true_and]; omega
    · simp only [Option.map_some, Prod.mk.injEq, true_and]; omega

/-- the items of the levels of binary operators -/
theorem tail_item {ops : C α} {next : C β} (ho : Ops k τs ops) (hU : k * (N + 1) ≤ U) (hU2 : 2 * (N + 1) ≤ U)
    (hn : Lin N A B E σs next) (hA : B + 3 * U ≤ A) (hc : ∀ σ ∈ σs, ∀ τ ∈ τs, clash σ τ = true) :
    Item N A (3 * U + E) (Stuck (σs ++ τs)) (Stuck σs) (tail ops next) where
  fail {s n} hs hp := by
    rcases tail_cases (next := next) ho hU hU2 hs with ⟨m, h1, h2⟩ | ⟨a, τ, r, m, hτ, hr, hm, hl, h1⟩
    · rw [hp] at h1
      simp only [Prod.mk.injEq, true_and] at h1
      exact .inl (by omega)
    · rw [hp] at h1
      rcases h2 : next (skip r) with ⟨_ | ⟨b, s'⟩, n2⟩
      · rw [h2] at h1
        simp only [Option.map_none, Prod.mk.injEq, true_and] at h1
        obtain ⟨h3, h4⟩ := hn.fail (by omega) h2
        by_cases hst : Starts r
        · refine .inr ⟨?_, τ, List.mem_append_right _ hτ, r, hr, hst⟩
          have := step_mul A hl
          omega
        · have := h4 (fun h => hst (starts_skip.1 h))
          exact .inl (by omega)
      · rw [h2] at h1; simp at h1
  succ {s a s' n} hs hp := by
    rcases tail_cases (next := next) ho hU hU2 hs with ⟨m, h1, h2⟩ | ⟨a, τ, r, m, hτ, hr, hm, hl, h1⟩
    · rw [hp] at h1; simp at h1
    · rw [hp] at h1
      rcases h2 : next (skip r) with ⟨_ | ⟨b, s''⟩, n2⟩
      · rw [h2] at h1; simp at h1
      · rw [h2] at h1
        simp only [Option.map_some, Prod.mk.injEq, Option.some.injEq] at h1
        obtain ⟨⟨-, rfl⟩, rfl⟩ := h1
        obtain ⟨h3, -, h4⟩ := hn.succ (by omega) h2
        have := step_mul A hl
        refine ⟨by omega, ?_⟩
        rcases h4 with h4 | ⟨h4, h5⟩
        · exact .inl (by omega)
        · exact .inr ⟨by omega, h5⟩
  dead {s} hs hst := by
    rcases tail_cases (next := next) ho hU hU2 hs with ⟨m, h1, h2⟩ | ⟨a, τ, r, m, hτ, hr, hm, hl, h1⟩
    · exact ⟨m, h1, by omega⟩
    · obtain ⟨σ, hσ, u, hu, hsu⟩ := hst
      have hnr : ¬ Starts r := clash_starts (hc σ hσ τ hτ) hsu (by rw [← hu, hr])
      rcases h2 : next (skip r) with ⟨_ | ⟨b, s''⟩, n2⟩
      · rw [h2] at h1
        have := (hn.fail (by omega) h2).2 (fun h => hnr (starts_skip.1 h))
        exact ⟨m + n2, h1, by omega⟩
      · exact absurd (starts_skip.1 (hn.succ (by omega) h2).2.1) hnr
  incl := Stuck.mono fun σ h => List.mem_append_left _ h

/-- a level of binary operators -/
theorem Lin.level {ops : C BinOp} {next : C Expr} (hn : Lin N A B E σs next) (ho : Ops k τs ops) (hU : k * (N + 1) ≤ U)
    (hU2 : 2 * (N + 1) ≤ U) (hA : B + 3 * U ≤ A) (hc : ∀ σ ∈ σs, ∀ τ ∈ τs, clash σ τ = true) :
    Lin N A (B + (3 * U + E)) E (σs ++ τs) (binLevel ops next) := by
  have item := tail_item ho hU hU2 hn hA hc
  refine .map _ ⟨fun {s n} hs hp => ?_, fun {s a s' n} hs hp => ?_⟩
  · rcases andThen_none hp with hp | ⟨a, s1, m, m', h1, h2, rfl⟩
    · obtain ⟨h1, h2⟩ := hn.fail hs hp
      exact ⟨by omega, h2⟩
    · obtain ⟨h3, -⟩ := hn.succ hs h1
      obtain ⟨as, s2, n2, h4, -⟩ := many_cost item s1 (by omega)
      rw [show many (seq (seqL (seqR space ops) space) next) s1 = _ from h4] at h2
      simp [Res.andThen] at h2
  · obtain ⟨a, s1, m, m', h1, h2, rfl⟩ := andThen_some hp
    obtain ⟨h3, h4, h5⟩ := hn.succ hs h1
    obtain ⟨as, s2, n2, h6, h7, h8⟩ := many_cost item s1 (by omega)
    have h2' := h2
    rw [show many (seq (seqL (seqR space ops) space) next) s1 = _ from h6] at h2
    simp only [Res.andThen, Prod.mk.injEq, Option.some.injEq] at h2
    obtain ⟨⟨-, rfl⟩, rfl⟩ := h2
    refine ⟨by omega, h4, ?_⟩
    rcases h5 with h5 | ⟨h5, hst⟩
    · rcases h8 with h8 | ⟨h8, h9⟩
      · exact .inl (by omega)
      · exact .inr ⟨by omega, h9⟩
    · obtain ⟨n3, h9, h10⟩ := item.dead (by omega) hst
      have := many_dead h9
      rw [h6] at this
      simp only [Prod.mk.injEq, Option.some.injEq] at this
      obtain ⟨⟨-, rfl⟩, rfl⟩ := this
      exact .inr ⟨by omega, item.incl hst⟩

/-- the level of comparisons, of which there is at most one -/
theorem Lin.once {ops : C BinOp} {next : C Expr} (f : Expr × Option (BinOp × Expr) → Expr) (hn : Lin N A B E σs next)
    (ho : Ops k τs ops) (hU : k * (N + 1) ≤ U)
    (hU2 : 2 * (N + 1) ≤ U) (hA : B + 3 * U ≤ A) (hc : ∀ σ ∈ σs, ∀ τ ∈ τs, clash σ τ = true) :
    Lin N A (B + (3 * U + E)) E (σs ++ τs) (PC.map f (seq next (opt (tail ops next)))) := by
  have item := tail_item ho hU hU2 hn hA hc
  refine .map _ ⟨fun {s n} hs hp => ?_, fun {s a s' n} hs hp => ?_⟩
  · rcases andThen_none hp with hp | ⟨a, s1, m, m', h1, h2, rfl⟩
    · obtain ⟨h1, h2⟩ := hn.fail hs hp
      exact ⟨by omega, h2⟩
    · rcases andThen_none h2 with h2 | ⟨_, _, _, _, -, h2b, -⟩
      · obtain ⟨_, _, -, h3, -⟩ := orElse_none h2
        exact absurd (congrArg Prod.fst h3) (by simp)
      · exact absurd (congrArg Prod.fst h2b) (by simp)
  · obtain ⟨a, s1, m, m', h1, h2, rfl⟩ := andThen_some hp
    obtain ⟨h3, h4, h5⟩ := hn.succ hs h1
    obtain ⟨o, s2, m2, m3, h6, h7, rfl⟩ := andThen_some h2
    simp only [Prod.mk.injEq, Option.some.injEq] at h7
    obtain ⟨⟨-, rfl⟩, rfl⟩ := h7
    rcases h8 : tail ops next s1 with ⟨_ | ⟨b, s3⟩, n8⟩
    · simp only [opt, h8, Res.andThen, Res.orElse, Prod.mk.injEq, Option.some.injEq] at h6
      obtain ⟨⟨-, rfl⟩, rfl⟩ := h6
      refine ⟨h3, h4, ?_⟩
      rcases h5 with h5 | ⟨h5, hst⟩
      · rcases item.fail (by omega) h8 with h9 | ⟨h9, h10⟩
        · exact .inl (by omega)
        · exact .inr ⟨by omega, h10⟩
      · obtain ⟨n3, h9, h10⟩ := item.dead (by omega) hst
        rw [h8] at h9
        simp only [Prod.mk.injEq, true_and] at h9
        exact .inr ⟨by omega, item.incl hst⟩
    · simp only [opt, h8, Res.andThen, Res.orElse, Prod.mk.injEq, Option.some.injEq] at h6
      obtain ⟨⟨-, rfl⟩, rfl⟩ := h6
      obtain ⟨h9, h10⟩ := item.succ (by omega) h8
      refine ⟨by omega, h4, ?_⟩
      rcases h5 with h5 | ⟨h5, hst⟩
      · rcases h10 with h10 | ⟨h10, h11⟩
        · exact .inl (by omega)
        · exact .inr ⟨by omega, item.incl h11⟩
      · obtain ⟨n3, h12, -⟩ := item.dead (by omega) hst
        rw [h8] at h12; simp at h12

end

end Btrd.PC
