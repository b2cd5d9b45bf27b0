/-
How often parsing looks at the text: expressions. Every rule is bounded by what it consumes; what it looked at in vain is
looked at again only if it was little (`Stuck`).
-/
import Verif.Lemmas.ParseCost

namespace Btrd.PC

variable {α β γ : Type}

theorem step_mul {a b : Nat} (A : Nat) (h : a < b) : A * a + A ≤ A * b := by
  have := Nat.mul_le_mul_left A (Nat.succ_le_of_lt h)
  rw [Nat.mul_succ] at this
  exact this

theorem le_mul {a b : Nat} (A : Nat) (h : a ≤ b) : A * a ≤ A * b := Nat.mul_le_mul_left A h

/-! ### repetition -/

/-- an item of a repetition: if it fails after much work, the text there is of the kind `St`; if it succeeds after more
work than it consumed, the text behind it is of the kind `St'` -/
structure Item (N A F : Nat) (St St' : Str → Prop) (it : C α) : Prop where
  fail : ∀ {s n}, s.length ≤ N → it s = (none, n) → n ≤ F ∨ (n ≤ A * s.length + F ∧ St s)
  succ : ∀ {s a s' n}, s.length ≤ N → it s = (some (a, s'), n) →
    s'.length < s.length ∧ (n + A * s'.length ≤ A * s.length ∨ (n ≤ A * s.length ∧ St' s'))
  dead : ∀ {s}, s.length ≤ N → St' s → ∃ n, it s = (none, n) ∧ n ≤ F
  incl : ∀ {s}, St' s → St s

theorem manyF_cost {N A F : Nat} {St St' : Str → Prop} {it : C α} (h : Item N A F St St' it) : ∀ (fuel : Nat) (s : Str),
    s.length ≤ N → ∃ as s' n, manyF fuel it s = (some (as, s'), n) ∧ s'.length ≤ s.length ∧
      (n + A * s'.length ≤ A * s.length + F ∨ (n ≤ A * s.length + F ∧ St s'))
  | 0, s, _ => ⟨[], s, 0, rfl, Nat.le_refl _, .inl (by omega)⟩
  | fuel + 1, s, hs => by
    rcases hi : it s with ⟨_ | ⟨a, s1⟩, n1⟩
    · refine ⟨[], s, n1, by simp only [manyF, hi], Nat.le_refl _, ?_⟩
      rcases h.fail hs hi with h1 | ⟨h1, h2⟩
      · exact .inl (by omega)
      · exact .inr ⟨h1, h2⟩
    · obtain ⟨hl, hc⟩ := h.succ hs hi
      obtain ⟨as, s', n, hm, hl', hc'⟩ := manyF_cost h fuel s1 (by omega)
      refine ⟨a :: as, s', n1 + n, by simp only [manyF, hi, hm, Res.andThen]; rfl, by omega, ?_⟩
      rcases hc with hc | ⟨hc, hst⟩
      · rcases hc' with hc' | ⟨hc', hst'⟩
        · exact .inl (by omega)
        · exact .inr ⟨by omega, hst'⟩
      · cases fuel with
        | zero =>
          simp only [manyF, Prod.mk.injEq, Option.some.injEq] at hm
          obtain ⟨⟨rfl, rfl⟩, rfl⟩ := hm
          exact .inr ⟨by omega, h.incl hst⟩
        | succ fuel =>
          obtain ⟨m, hd, hF⟩ := h.dead (s := s1) (by omega) hst
          simp only [manyF, hd, Prod.mk.injEq, Option.some.injEq] at hm
          obtain ⟨⟨rfl, rfl⟩, rfl⟩ := hm
          exact .inr ⟨by omega, h.incl hst⟩

theorem many_cost {N A F : Nat} {St St' : Str → Prop} {it : C α} (h : Item N A F St St' it) (s : Str) (hs : s.length ≤ N) :
    ∃ as s' n, many it s = (some (as, s'), n) ∧ s'.length ≤ s.length ∧
      (n + A * s'.length ≤ A * s.length + F ∨ (n ≤ A * s.length + F ∧ St s')) := manyF_cost h _ s hs

/-- where the first item is dead -/
theorem many_dead {it : C α} {s : Str} {n : Nat} (h : it s = (none, n)) : many it s = (some ([], s), n) := by
  simp only [many, manyF, h]

/-! ### tokens -/

/-- a parser that is linear in what it consumes, and fails soon -/
structure Tok (A F : Nat) (p : C α) : Prop where
  fail : ∀ {s n}, p s = (none, n) → n ≤ F
  succ : ∀ {s a s' n}, p s = (some (a, s'), n) → s'.length ≤ s.length ∧ n + A * s'.length ≤ A * s.length + F

/-- and consumes something -/
def Eats (p : C α) : Prop := ∀ {s a s' n}, p s = (some (a, s'), n) → s'.length < s.length

theorem Tok.mono {A A' F F' : Nat} {p : C α} (h : Tok A F p) (hA : A ≤ A') (hF : F ≤ F') : Tok A' F' p where
  fail hp := by have := h.fail hp; omega
  succ {s a s' n} hp := by
    obtain ⟨h1, h2⟩ := h.succ hp
    refine ⟨h1, ?_⟩
    obtain ⟨d, rfl⟩ := Nat.le.dest hA
    have := le_mul d h1
    rw [Nat.add_mul, Nat.add_mul]
    omega

theorem andThen_none {r : Res α} {k : α → Str → Res β} {n : Nat} (h : r.andThen k = (none, n)) :
    r = (none, n) ∨ ∃ a s m m', r = (some (a, s), m) ∧ k a s = (none, m') ∧ n = m + m' := by
  obtain ⟨_ | ⟨a, s⟩, m⟩ := r
  · simp only [Res.andThen, Prod.mk.injEq, true_and] at h
    exact .inl (by rw [h])
  · refine .inr ⟨a, s, m, (k a s).2, rfl, ?_, ?_⟩
    · simp only [Res.andThen, Prod.mk.injEq] at h
      exact Prod.ext h.1 rfl
    · simp only [Res.andThen, Prod.mk.injEq] at h
      exact h.2.symm

theorem andThen_some {r : Res α} {k : α → Str → Res β} {n : Nat} {b : β} {s' : Str} (h : r.andThen k = (some (b, s'), n)) :
    ∃ a s m m', r = (some (a, s), m) ∧ k a s = (some (b, s'), m') ∧ n = m + m' := by
  obtain ⟨_ | ⟨a, s⟩, m⟩ := r
  · simp [Res.andThen] at h
  · refine ⟨a, s, m, (k a s).2, rfl, ?_, ?_⟩
    · simp only [Res.andThen, Prod.mk.injEq] at h
      exact Prod.ext h.1 rfl
    · simp only [Res.andThen, Prod.mk.injEq] at h
      exact h.2.symm

theorem orElse_none {r : Res α} {k : Unit → Res α} {n : Nat} (h : r.orElse k = (none, n)) :
    ∃ m m', r = (none, m) ∧ k () = (none, m') ∧ n = m + m' := by
  obtain ⟨_ | x, m⟩ := r
  · simp only [Res.orElse, Prod.mk.injEq] at h
    exact ⟨m, (k ()).2, rfl, Prod.ext h.1 rfl, h.2.symm⟩
  · simp [Res.orElse] at h

theorem orElse_some {r : Res α} {k : Unit → Res α} {n : Nat} {x : α × Str} (h : r.orElse k = (some x, n)) :
    r = (some x, n) ∨ ∃ m m', r = (none, m) ∧ k () = (some x, m') ∧ n = m + m' := by
  obtain ⟨_ | y, m⟩ := r
  · simp only [Res.orElse, Prod.mk.injEq] at h
    exact .inr ⟨m, (k ()).2, rfl, Prod.ext h.1 rfl, h.2.symm⟩
  · exact .inl h

section
variable {A : Nat}

theorem Tok.isA (f : Char → Bool) : Tok A 1 (isA f) where
  fail {s n} hp := by
    cases s with
    | nil => simp only [PC.isA, Prod.mk.injEq] at hp; omega
    | cons c cs =>
      simp only [PC.isA] at hp
      split at hp <;> simp only [Prod.mk.injEq, reduceCtorEq, false_and] at hp
      omega
  succ {s a s' n} hp := by
    cases s with
    | nil => simp [PC.isA] at hp
    | cons c cs =>
      simp only [PC.isA] at hp
      split at hp <;> simp only [Prod.mk.injEq, reduceCtorEq, false_and, Option.some.injEq] at hp
      obtain ⟨⟨rfl, rfl⟩, rfl⟩ := hp
      have := le_mul A (a := cs.length) (b := (c :: cs).length) (by simp)
      exact ⟨by simp, by omega⟩

theorem Eats.isA (f : Char → Bool) : Eats (isA f) := by
  intro s a s' n hp
  cases s with
  | nil => simp [PC.isA] at hp
  | cons c cs =>
    simp only [PC.isA] at hp
    split at hp <;> simp only [Prod.mk.injEq, reduceCtorEq, false_and, Option.some.injEq] at hp
    obtain ⟨⟨rfl, rfl⟩, rfl⟩ := hp
    simp

theorem Tok.sym (c : Char) : Tok A 1 (sym c) := Tok.isA _
theorem Eats.sym (c : Char) : Eats (sym c) := Eats.isA _

/-- the looks of a fixed text -/
theorem tag_cost : ∀ (t s : Str), (tag t s).2 ≤ t.length ∧ ∀ a s', (tag t s).1 = some (a, s') → s = t ++ s'
  | [], s => ⟨Nat.le_refl _, fun a s' h => by simp only [tag, Option.some.injEq, Prod.mk.injEq] at h; simp [h.2]⟩
  | t :: ts, [] => ⟨by simp [tag], fun a s' h => by simp [tag] at h⟩
  | t :: ts, c :: cs => by
    obtain ⟨h1, h2⟩ := tag_cost ts cs
    simp only [tag]
    split
    · rename_i hc; subst hc
      exact ⟨by simpa using h1, fun a s' h => by simp [← h2 a s' h]⟩
    · exact ⟨by simp, fun a s' h => by simp at h⟩

theorem Tok.tag (t : Str) : Tok A t.length (tag t) where
  fail {s n} hp := by have := (tag_cost t s).1; rw [hp] at this; exact this
  succ {s a s' n} hp := by
    have h1 := (tag_cost t s).1
    have h2 := (tag_cost t s).2 a s' (by rw [hp])
    rw [hp] at h1
    subst h2
    have := le_mul A (a := s'.length) (b := (t ++ s').length) (by simp)
    exact ⟨by simp, by simp only at h1; omega⟩

theorem Eats.tag {t : Str} (ht : t ≠ []) : Eats (tag t) := by
  intro s a s' n hp
  have h2 := (tag_cost t s).2 a s' (by rw [hp])
  subst h2
  have : 0 < t.length := List.length_pos_iff.2 ht
  simp only [List.length_append]; omega

variable {F G : Nat}

theorem Tok.map {p : C α} (f : α → β) (h : Tok A F p) : Tok A F (map f p) where
  fail hp := by
    rcases andThen_none hp with hp | ⟨a, s, m, m', h1, h2, -⟩
    · exact h.fail hp
    · simp at h2
  succ hp := by
    obtain ⟨a, s, m, m', h1, h2, rfl⟩ := andThen_some hp
    simp only [Prod.mk.injEq, Option.some.injEq] at h2
    obtain ⟨⟨-, rfl⟩, rfl⟩ := h2
    exact h.succ h1

theorem Eats.map {p : C α} {f : α → β} (h : Eats p) : Eats (map f p) := by
  intro s b s' n hp
  obtain ⟨a, s, m, m', h1, h2, rfl⟩ := andThen_some hp
  simp only [Prod.mk.injEq, Option.some.injEq] at h2
  obtain ⟨⟨-, rfl⟩, rfl⟩ := h2
  exact h h1

theorem Tok.alt {p q : C α} (hp : Tok A F p) (hq : Tok A G q) : Tok A (F + G) (alt p q) where
  fail h := by
    obtain ⟨m, m', h1, h2, rfl⟩ := orElse_none h
    have := hp.fail h1
    have := hq.fail h2
    omega
  succ h := by
    rcases orElse_some h with h | ⟨m, m', h1, h2, rfl⟩
    · have := hp.succ h
      exact ⟨this.1, by omega⟩
    · have := hp.fail h1
      have := hq.succ h2
      exact ⟨this.1, by omega⟩

theorem Eats.alt {p q : C α} (hp : Eats p) (hq : Eats q) : Eats (alt p q) := by
  intro s a s' n h
  rcases orElse_some h with h | ⟨m, m', h1, h2, rfl⟩
  · exact hp h
  · exact hq h2

/-- if the items consume something, a repetition of tokens is a token -/
theorem Tok.many {p : C α} (hp : Tok A F p) (he : Eats p) (hA : F ≤ B) : Tok (A + B) F (many p) ∧
    ∀ s, ∃ as s' n, PC.many p s = (some (as, s'), n) := by
  have item : ∀ N, Item N (A + B) F (fun _ => False) (fun _ => False) p := fun N => {
    fail := fun _ h => .inl (hp.fail h)
    succ := fun {s a s' n} _ h => by
      have h1 := (hp.succ h).2
      have h2 := he h
      refine ⟨h2, .inl ?_⟩
      have := step_mul B h2
      rw [Nat.add_mul, Nat.add_mul]
      omega
    dead := fun _ h => h.elim
    incl := fun h => h }
  have key : ∀ s, ∃ as s' n, PC.many p s = (some (as, s'), n) ∧ s'.length ≤ s.length ∧
      n + (A + B) * s'.length ≤ (A + B) * s.length + F := by
    intro s
    obtain ⟨as, s', n, h1, h2, h3 | ⟨-, h3⟩⟩ := many_cost (item s.length) s (Nat.le_refl _)
    · exact ⟨as, s', n, h1, h2, h3⟩
    · exact h3.elim
  refine ⟨⟨fun {s n} h => ?_, fun {s a s' n} h => ?_⟩, fun s => ?_⟩
  · obtain ⟨as, s', m, h1, -⟩ := key s
    rw [h] at h1; simp at h1
  · obtain ⟨as, s'', m, h1, h2⟩ := key s
    rw [h] at h1
    simp only [Prod.mk.injEq, Option.some.injEq] at h1
    obtain ⟨⟨rfl, rfl⟩, rfl⟩ := h1
    exact h2
  · obtain ⟨as, s', n, h1, -⟩ := key s
    exact ⟨as, s', n, h1⟩

/-! ### tokens of bounded cost -/

/-- never more looks than this -/
structure Const (c : Nat) (p : C α) : Prop where
  cost : ∀ s, (p s).2 ≤ c
  le : ∀ {s a s' n}, p s = (some (a, s'), n) → s'.length ≤ s.length

theorem Const.tok {c : Nat} {p : C α} (h : Const c p) : Tok A c p where
  fail {s n} hp := by have := h.cost s; rw [hp] at this; exact this
  succ {s a s' n} hp := by
    have h1 := h.cost s
    rw [hp] at h1
    have h2 := h.le hp
    have := le_mul A h2
    exact ⟨h2, by simp only at h1; omega⟩

theorem Const.isA (f : Char → Bool) : Const 1 (isA f) where
  cost s := by
    cases s with
    | nil => exact Nat.le_refl _
    | cons c cs => simp only [PC.isA]; split <;> exact Nat.le_refl _
  le hp := Nat.le_of_lt (Eats.isA f hp)

theorem Const.sym (c : Char) : Const 1 (sym c) := Const.isA _

theorem Const.tag (t : Str) : Const t.length (tag t) where
  cost s := (tag_cost t s).1
  le hp := (Tok.tag (A := 0) t).succ hp |>.1

theorem andThen_cost (r : Res α) (k : α → Str → Res β) :
    (r.andThen k).2 = r.2 + (match r.1 with
      | some (a, s) => (k a s).2
      | none => 0) := by
  obtain ⟨_ | ⟨a, s⟩, n⟩ := r <;> rfl

theorem orElse_cost (r : Res α) (k : Unit → Res α) :
    (r.orElse k).2 = r.2 + (match r.1 with
      | some _ => 0
      | none => (k ()).2) := by
  obtain ⟨_ | x, n⟩ := r <;> rfl

theorem Const.map {c : Nat} {p : C α} (f : α → β) (h : Const c p) : Const c (map f p) where
  cost s := by
    have := h.cost s
    simp only [PC.map, andThen_cost]
    split <;> exact this
  le hp := by
    obtain ⟨a, s, m, m', h1, h2, rfl⟩ := andThen_some hp
    simp only [Prod.mk.injEq, Option.some.injEq] at h2
    obtain ⟨⟨-, rfl⟩, rfl⟩ := h2
    exact h.le h1

theorem Const.seqR {c d : Nat} {p : C α} {q : C β} (h : Const c p) (h' : Const d q) : Const (c + d) (seqR p q) where
  cost s := by
    have := h.cost s
    simp only [PC.seqR, andThen_cost]
    split
    · rename_i a s' _; have := h'.cost s'; omega
    · omega
  le hp := by
    obtain ⟨a, s, m, m', h1, h2, rfl⟩ := andThen_some hp
    have := h.le h1
    have := h'.le h2
    omega

theorem Const.alt {c d : Nat} {p q : C α} (h : Const c p) (h' : Const d q) : Const (c + d) (alt p q) where
  cost s := by
    have := h.cost s
    have := h'.cost s
    simp only [PC.alt, orElse_cost]
    split <;> omega
  le hp := by
    rcases orElse_some hp with h1 | ⟨m, m', h1, h2, rfl⟩
    · exact h.le h1
    · exact h'.le h2

theorem Const.convert {c : Nat} {p : C α} (f : α → Option β) (h : Const c p) : Const c (convert f p) where
  cost s := by
    have := h.cost s
    simp only [PC.convert, andThen_cost]
    split
    · rename_i a s' _
      cases f a <;> exact this
    · exact this
  le hp := by
    obtain ⟨a, s, m, m', h1, h2, rfl⟩ := andThen_some hp
    split at h2 <;> simp only [Prod.mk.injEq, reduceCtorEq, false_and, Option.some.injEq] at h2
    obtain ⟨⟨-, rfl⟩, rfl⟩ := h2
    exact h.le h1

theorem Const.times {c : Nat} {p : C α} (h : Const c p) : ∀ k, Const (k * c) (times k p)
  | 0 => ⟨fun s => by simp [PC.times], fun hp => by
      simp only [PC.times, Prod.mk.injEq, Option.some.injEq] at hp; rw [hp.1.2]; exact Nat.le_refl _⟩
  | k + 1 => {
      cost := fun s => by
        have h0 := h.cost s
        rw [Nat.succ_mul]
        rcases hp : p s with ⟨_ | ⟨a, s1⟩, m⟩
        · rw [hp] at h0
          simp only [PC.times, hp, Res.andThen] at h0 ⊢
          omega
        · rw [hp] at h0
          have h1 := (Const.times h k).cost s1
          rcases hq : PC.times k p s1 with ⟨_ | ⟨b, s2⟩, m'⟩ <;> rw [hq] at h1 <;>
            simp only [PC.times, hp, hq, Res.andThen] at h0 h1 ⊢ <;> omega
      le := fun hp => by
        obtain ⟨a, s, m, m', h1, h2, rfl⟩ := andThen_some hp
        obtain ⟨as, s2, m2, m3, h3, h4, rfl⟩ := andThen_some h2
        simp only [Prod.mk.injEq, Option.some.injEq] at h4
        obtain ⟨⟨-, rfl⟩, rfl⟩ := h4
        have := h.le h1
        have := (Const.times h k).le h3
        omega }

/-! ### tokens of linear cost -/

/-- so many looks for each character there is -/
structure Rough (k : Nat) (p : C α) : Prop where
  cost : ∀ s, (p s).2 ≤ k * (s.length + 1)
  le : ∀ {s a s' n}, p s = (some (a, s'), n) → s'.length ≤ s.length

theorem Rough.of_const {c : Nat} {p : C α} (h : Const c p) : Rough c p where
  cost s := by
    have := h.cost s
    have := le_mul c (a := 1) (b := s.length + 1) (by omega)
    omega
  le := h.le

theorem Rough.of_tok {A F k : Nat} {p : C α} (h : Tok A F p) (hk : A + F ≤ k) : Rough k p where
  cost s := by
    have e : k * (s.length + 1) ≥ (A + F) * (s.length + 1) := Nat.mul_le_mul_right _ hk
    have e' : (A + F) * (s.length + 1) = A * s.length + A + (F * s.length + F) := by
      rw [Nat.add_mul, Nat.mul_succ, Nat.mul_succ]
    rcases hp : p s with ⟨_ | ⟨a, s'⟩, n⟩
    · have := h.fail hp; simp only; omega
    · have := (h.succ hp).2; simp only; omega
  le hp := (h.succ hp).1

theorem Rough.mono {k k' : Nat} {p : C α} (h : Rough k p) (hk : k ≤ k') : Rough k' p where
  cost s := Nat.le_trans (h.cost s) (Nat.mul_le_mul_right _ hk)
  le := h.le

theorem Rough.map {k : Nat} {p : C α} (f : α → β) (h : Rough k p) : Rough k (map f p) where
  cost s := by
    have := h.cost s
    simp only [PC.map, andThen_cost]
    split <;> exact this
  le hp := by
    obtain ⟨a, s, m, m', h1, h2, rfl⟩ := andThen_some hp
    simp only [Prod.mk.injEq, Option.some.injEq] at h2
    obtain ⟨⟨-, rfl⟩, rfl⟩ := h2
    exact h.le h1

theorem Rough.convert {k : Nat} {p : C α} (f : α → Option β) (h : Rough k p) : Rough k (convert f p) where
  cost s := by
    have := h.cost s
    simp only [PC.convert, andThen_cost]
    split
    · rename_i a s' _
      cases f a <;> exact this
    · exact this
  le hp := by
    obtain ⟨a, s, m, m', h1, h2, rfl⟩ := andThen_some hp
    split at h2 <;> simp only [Prod.mk.injEq, reduceCtorEq, false_and, Option.some.injEq] at h2
    obtain ⟨⟨-, rfl⟩, rfl⟩ := h2
    exact h.le h1

theorem Rough.opt {k : Nat} {p : C α} (h : Rough k p) : Rough k (opt p) where
  cost s := by
    have := h.cost s
    simp only [PC.opt, orElse_cost, andThen_cost]
    split <;> split <;> omega
  le hp := by
    rcases orElse_some hp with h1 | ⟨m, m', h1, h2, rfl⟩
    · obtain ⟨a, s, m, m', h3, h4, rfl⟩ := andThen_some h1
      simp only [Prod.mk.injEq, Option.some.injEq] at h4
      obtain ⟨⟨-, rfl⟩, rfl⟩ := h4
      exact h.le h3
    · simp only [Prod.mk.injEq, Option.some.injEq] at h2
      obtain ⟨⟨-, rfl⟩, rfl⟩ := h2
      exact Nat.le_refl _

theorem Rough.seqR {k l : Nat} {p : C α} {q : C β} (h : Rough k p) (h' : Rough l q) : Rough (k + l) (seqR p q) where
  cost s := by
    have := h.cost s
    rw [Nat.add_mul]
    simp only [PC.seqR, andThen_cost]
    split
    · rename_i a s' hp
      have h1 := h'.cost s'
      have h2 := h.le (s := s) (a := a) (s' := s') (n := (p s).2) (Prod.ext hp rfl)
      have := le_mul l (a := s'.length + 1) (b := s.length + 1) (by omega)
      omega
    · omega
  le hp := by
    obtain ⟨a, s, m, m', h1, h2, rfl⟩ := andThen_some hp
    have := h.le h1
    have := h'.le h2
    omega

theorem Rough.seq {k l : Nat} {p : C α} {q : C β} (h : Rough k p) (h' : Rough l q) : Rough (k + l) (seq p q) where
  cost s := by
    have h0 := h.cost s
    rw [Nat.add_mul]
    rcases hp : p s with ⟨_ | ⟨a, s1⟩, m⟩
    · rw [hp] at h0
      simp only [PC.seq, hp, Res.andThen] at h0 ⊢
      omega
    · rw [hp] at h0
      have h1 := h'.cost s1
      have h2 := h.le hp
      have := le_mul l (a := s1.length + 1) (b := s.length + 1) (by omega)
      rcases hq : q s1 with ⟨_ | ⟨b, s2⟩, m'⟩ <;> rw [hq] at h1 <;> simp only [PC.seq, hp, hq, Res.andThen] at h0 h1 ⊢ <;> omega
  le hp := by
    obtain ⟨a, s, m, m', h1, h2, rfl⟩ := andThen_some hp
    obtain ⟨as, s2, m2, m3, h3, h4, rfl⟩ := andThen_some h2
    simp only [Prod.mk.injEq, Option.some.injEq] at h4
    obtain ⟨⟨-, rfl⟩, rfl⟩ := h4
    have := h.le h1
    have := h'.le h3
    omega

theorem Rough.seqL {k l : Nat} {p : C α} {q : C β} (h : Rough k p) (h' : Rough l q) : Rough (k + l) (seqL p q) where
  cost s := by
    have h0 := h.cost s
    rw [Nat.add_mul]
    rcases hp : p s with ⟨_ | ⟨a, s1⟩, m⟩
    · rw [hp] at h0
      simp only [PC.seqL, hp, Res.andThen] at h0 ⊢
      omega
    · rw [hp] at h0
      have h1 := h'.cost s1
      have h2 := h.le hp
      have := le_mul l (a := s1.length + 1) (b := s.length + 1) (by omega)
      rcases hq : q s1 with ⟨_ | ⟨b, s2⟩, m'⟩ <;> rw [hq] at h1 <;> simp only [PC.seqL, hp, hq, Res.andThen] at h0 h1 ⊢ <;> omega
  le hp := by
    obtain ⟨a, s, m, m', h1, h2, rfl⟩ := andThen_some hp
    obtain ⟨as, s2, m2, m3, h3, h4, rfl⟩ := andThen_some h2
    simp only [Prod.mk.injEq, Option.some.injEq] at h4
    obtain ⟨⟨-, rfl⟩, rfl⟩ := h4
    have := h.le h1
    have := h'.le h3
    omega

theorem Rough.alt {k l : Nat} {p q : C α} (h : Rough k p) (h' : Rough l q) : Rough (k + l) (alt p q) where
  cost s := by
    have := h.cost s
    have := h'.cost s
    rw [Nat.add_mul]
    simp only [PC.alt, orElse_cost]
    split <;> omega
  le hp := by
    rcases orElse_some hp with h1 | ⟨m, m', h1, h2, rfl⟩
    · exact h.le h1
    · exact h'.le h2

/-! ### the tokens of the language -/

theorem Tok.many1 {A B F : Nat} {p : C α} (hp : Tok A F p) (he : Eats p) (hA : F ≤ B) : Tok (A + B) F (many1 p) ∧ Eats (many1 p) := by
  obtain ⟨h1, h2⟩ := hp.many he hA
  have first : ∀ {s as s' n}, PC.many p s = (some (as, s'), n) → (as = [] ∧ n ≤ F) ∨ s'.length < s.length := by
    intro s as s' n h
    rcases hi : p s with ⟨_ | ⟨a, s1⟩, n1⟩
    · rw [many_dead hi] at h
      simp only [Prod.mk.injEq, Option.some.injEq] at h
      exact .inl ⟨h.1.1.symm, by rw [← h.2]; exact hp.fail hi⟩
    · right
      simp only [PC.many, manyF, hi] at h
      rcases hm : manyF s.length p s1 with ⟨_ | ⟨as', s2⟩, n2⟩
      · rw [hm] at h; simp [Res.andThen] at h
      · rw [hm] at h
        simp only [Res.andThen, Prod.mk.injEq, Option.some.injEq] at h
        obtain ⟨⟨-, rfl⟩, -⟩ := h
        have item : Item s1.length (A + B) F (fun _ => False) (fun _ => False) p := {
          fail := fun _ h => .inl (hp.fail h)
          succ := fun {s a s' n} _ h => by
            have h1 := (hp.succ h).2
            have h2 := he h
            refine ⟨h2, .inl ?_⟩
            have := step_mul B h2
            rw [Nat.add_mul, Nat.add_mul]
            omega
          dead := fun _ h => h.elim
          incl := fun h => h }
        obtain ⟨as2, s3, n3, h3, h4, -⟩ := manyF_cost item s.length s1 (Nat.le_refl _)
        rw [hm] at h3
        simp only [Prod.mk.injEq, Option.some.injEq] at h3
        obtain ⟨⟨-, rfl⟩, -⟩ := h3
        have := he hi
        omega
  refine ⟨⟨fun {s n} hn => ?_, fun {s a s' n} hs => ?_⟩, fun {s a s' n} hs => ?_⟩
  · rcases andThen_none hn with hn | ⟨as, s', m, m', hm, hk, rfl⟩
    · exact h1.fail hn
    · rcases first hm with ⟨rfl, h⟩ | h
      · simp only [Prod.mk.injEq, true_and] at hk; omega
      · cases as with
        | nil =>
          simp only [Prod.mk.injEq, true_and] at hk
          rcases hi : p s with ⟨_ | ⟨a, s1⟩, n1⟩
          · rw [many_dead hi] at hm
            simp only [Prod.mk.injEq, Option.some.injEq] at hm
            obtain ⟨⟨-, rfl⟩, -⟩ := hm
            omega
          · simp only [PC.many, manyF, hi] at hm
            rcases hm' : manyF s.length p s1 with ⟨_ | ⟨as', s2⟩, n2⟩
            · rw [hm'] at hm; simp [Res.andThen] at hm
            · rw [hm'] at hm; simp [Res.andThen] at hm
        | cons a as => simp at hk
  · obtain ⟨as, s1, m, m', hm, hk, rfl⟩ := andThen_some hs
    cases as with
    | nil => simp at hk
    | cons a as =>
      simp only [Prod.mk.injEq, Option.some.injEq] at hk
      obtain ⟨⟨-, rfl⟩, rfl⟩ := hk
      exact h1.succ hm
  · obtain ⟨as, s1, m, m', hm, hk, rfl⟩ := andThen_some hs
    cases as with
    | nil => simp at hk
    | cons a as =>
      simp only [Prod.mk.injEq, Option.some.injEq] at hk
      obtain ⟨⟨-, rfl⟩, rfl⟩ := hk
      rcases first hm with ⟨h, -⟩ | h
      · cases h
      · exact h

theorem Eats.seqR {p : C α} {q : C β} (h : Eats p) (h' : ∀ {s a s' n}, q s = (some (a, s'), n) → s'.length ≤ s.length) :
    Eats (seqR p q) := by
  intro s b s' n hp
  obtain ⟨a, s, m, m', h1, h2, rfl⟩ := andThen_some hp
  have := h h1
  have := h' h2
  omega

theorem Rough.many_isA (f : Char → Bool) : Rough 2 (many (isA f)) :=
  .of_tok ((Tok.isA (A := 0) f).many (Eats.isA f) (B := 1) (Nat.le_refl _)).1 (by omega)

theorem rough_space : Rough 2 space := .map _ (.many_isA _)

theorem const_special : Const 8 specialChar :=
  .alt (.sym _) <| .alt (.sym _) <| .alt (.sym _) <| .alt (.map _ (.sym _)) <| .alt (.map _ (.sym _)) <|
    .alt (.map _ (.sym _)) <| .alt (.map _ (.sym _)) (.map _ (.sym _))

theorem const_escape : Const 9 escapeSequence := .seqR (.sym _) const_special

theorem tok_charString : Tok 10 10 charString ∧ Eats charString :=
  Tok.many1 (A := 0) (B := 10) (Const.tok (.alt (.isA _) const_escape))
    (Eats.alt (Eats.isA _) (Eats.seqR (Eats.sym _) const_special.le)) (Nat.le_refl _)

theorem const_utf16Char : Const 6 utf16Char := by
  have := Const.seqR (Const.tag s!' "\\u") (Const.convert fromHex (Const.times (Const.isA (fun c => (hexVal c).isSome)) 4))
  exact this

theorem tok_utf16String : Tok 10 6 utf16String ∧ Eats utf16String := by
  have := Tok.many1 (A := 0) (B := 10) (Const.tok const_utf16Char) (Eats.seqR (Eats.tag (by simp))
    (Const.convert fromHex (.times (.isA (fun c => (hexVal c).isSome)) 4)).le) (by omega)
  exact ⟨.map _ this.1, Eats.map this.2⟩

theorem rough_stringLit : Rough 60 stringLit := by
  have h := (Tok.alt tok_charString.1 tok_utf16String.1).many (Eats.alt tok_charString.2 tok_utf16String.2) (B := 16)
    (Nat.le_refl _)
  exact Rough.mono (.map _ (.seqL (.seqR (.of_const (.sym _)) (.of_tok h.1 (Nat.le_refl _))) (.of_const (.sym _)))) (by omega)

theorem rough_string : Rough 60 string := .map _ rough_stringLit

theorem rough_integer : Rough 4 integer :=
  .mono (.alt (.map _ (.seq (.of_const (.isA _)) (.many_isA _))) (.map _ (.of_const (.sym _)))) (by omega)

theorem rough_constant : Rough 14 constant :=
  .mono (.alt (.map _ (.convert _ (.seq (.opt (.of_const (.sym _))) rough_integer)))
    (.alt (.map _ (.of_const (.tag _))) (.map _ (.of_const (.tag _))))) (by simp only [List.length_cons, List.length_nil]; omega)

theorem rough_ident : Rough 3 ident := .map _ (.seq (.of_const (.isA _)) (.many_isA _))

theorem rough_prefixOp : Rough 30 prefixOp :=
  .mono (.alt (.map _ (.of_const (.tag _))) <| .alt (.map _ (.of_const (.tag _))) <| .alt (.map _ (.of_const (.tag _)))
    (.map _ (.seqL (.seqL (.seqR (.seqR (.of_const (.tag _)) rough_space)
      (.seqR (.seqL (.of_const (.tag _)) rough_space) rough_ident)) rough_space) (.of_const (.tag _)))))
    (by simp only [List.length_cons, List.length_nil]; omega)

end

end Btrd.PC
