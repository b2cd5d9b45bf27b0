/-
Lemmas about power-of-two rounding and histogram buckets.
-/
import Batteries.Data.List.Basic
import Verif.Lemmas.Arith
import Verif.Spec.Hist

namespace Btrd
open Spec

/-! ### powers of two -/

theorem p2_le {a b : Nat} : (2:Int) ^ a ≤ 2 ^ b ↔ a ≤ b := by
  have : ((2 ^ a : Nat) : Int) ≤ ((2 ^ b : Nat) : Int) ↔ a ≤ b := by
    rw [Int.ofNat_le]; exact Nat.pow_le_pow_iff_right (by decide)
  simpa using this

theorem p2_lt {a b : Nat} : (2:Int) ^ a < 2 ^ b ↔ a < b := by
  rw [← Int.not_le, p2_le]; omega

theorem p2_pos (a : Nat) : (0:Int) < 2 ^ a := Int.pow_pos (by decide)

theorem p2_inj {a b : Nat} (h : (2:Int) ^ a = 2 ^ b) : a = b := by
  have h1 := p2_le.1 (Int.le_of_eq h)
  have h2 := p2_le.1 (Int.le_of_eq h.symm)
  omega

theorem p2_succ (a : Nat) : (2:Int) ^ (a + 1) = 2 * 2 ^ a := by rw [Int.pow_succ, Int.mul_comm]

theorem p2_half (a : Nat) : (2:Int) ^ (a + 1) / 2 = 2 ^ a := by rw [p2_succ]; omega

theorem shl1_pow {k : Nat} (h : k < 126) : shl1 (2 ^ k) = 2 ^ (k + 1) := by
  rw [shl1, p2_succ, wrapI128_of_fits]
  have h1 := p2_pos k
  have h2 : (2:Int) ^ (k + 1) ≤ 2 ^ 126 := p2_le.2 (by omega)
  rw [p2_succ] at h2
  have h3 : (2:Int) ^ 126 < 2 ^ 127 := p2_lt.2 (by omega)
  have h4 : (-(2:Int) ^ 127) ≤ 0 := by decide
  exact ⟨by omega, by omega⟩

theorem shl1_neg {k : Nat} (h : k < 127) : shl1 (-(2 ^ k)) = -(2 ^ (k + 1)) := by
  rw [shl1, p2_succ, wrapI128_of_fits, Int.mul_neg]
  have h1 := p2_pos k
  have h2 : (2:Int) ^ (k + 1) ≤ 2 ^ 127 := p2_le.2 (by omega)
  rw [p2_succ] at h2
  have h4 : (0:Int) < 2 ^ 127 := by decide
  exact ⟨by omega, by omega⟩

/-! ### the loops -/

theorem pow2Up_ok (x : Int) (hx : x < 2 ^ 126) : ∀ m k fuel, k + m = 126 → m < fuel →
    ∃ j, k ≤ j ∧ j ≤ 126 ∧ pow2Up x fuel (2 ^ k) = .ok (2 ^ j) ∧ x < 2 ^ j ∧ (j = k ∨ 2 ^ (j - 1) ≤ x) := by
  intro m
  induction m with
  | zero =>
    intro k fuel hk hf
    obtain ⟨f, rfl⟩ : ∃ f, fuel = f + 1 := ⟨fuel - 1, by omega⟩
    have : k = 126 := by omega
    subst this
    rw [pow2Up, if_neg (by omega)]
    exact ⟨126, by omega, by omega, rfl, hx, .inl rfl⟩
  | succ m ih =>
    intro k fuel hk hf
    obtain ⟨f, rfl⟩ : ∃ f, fuel = f + 1 := ⟨fuel - 1, by omega⟩
    rw [pow2Up]
    by_cases h : (2:Int) ^ k ≤ x
    · rw [if_pos h, shl1_pow (by omega)]
      obtain ⟨j, h1, h2, h3, h4, h5⟩ := ih (k + 1) f (by omega) (by omega)
      refine ⟨j, by omega, h2, h3, h4, .inr ?_⟩
      rcases h5 with h5 | h5
      · subst h5; simpa using h
      · exact h5
    · rw [if_neg h]
      exact ⟨k, by omega, by omega, rfl, by omega, .inl rfl⟩

theorem pow2Down_ok (x : Int) (hx : -(2 ^ 127) ≤ x) : ∀ m k fuel, k + m = 127 → m < fuel →
    ∃ j, k ≤ j ∧ j ≤ 127 ∧ pow2Down x fuel (-(2 ^ k)) = .ok (-(2 ^ j)) ∧ -(2 ^ j) ≤ x ∧
      (j = k ∨ x < -(2 ^ (j - 1))) := by
  intro m
  induction m with
  | zero =>
    intro k fuel hk hf
    obtain ⟨f, rfl⟩ : ∃ f, fuel = f + 1 := ⟨fuel - 1, by omega⟩
    have : k = 127 := by omega
    subst this
    rw [pow2Down, if_neg (by omega)]
    exact ⟨127, by omega, by omega, rfl, hx, .inl rfl⟩
  | succ m ih =>
    intro k fuel hk hf
    obtain ⟨f, rfl⟩ : ∃ f, fuel = f + 1 := ⟨fuel - 1, by omega⟩
    rw [pow2Down]
    by_cases h : -(2:Int) ^ k > x
    · rw [if_pos h, shl1_neg (by omega)]
      obtain ⟨j, h1, h2, h3, h4, h5⟩ := ih (k + 1) f (by omega) (by omega)
      refine ⟨j, by omega, h2, h3, h4, .inr ?_⟩
      rcases h5 with h5 | h5
      · subst h5; simpa using h
      · exact h5
    · rw [if_neg h]
      exact ⟨k, by omega, by omega, rfl, by omega, .inl rfl⟩

/-- from `2^126` on the loop never ends: the bit shifted out leaves zero -/
theorem pow2Up_diverges (x : Int) (hx : 2 ^ 126 ≤ x) : ∀ fuel i,
    (i = 0 ∨ i = -(2 ^ 127) ∨ ∃ k ≤ 126, i = 2 ^ k) → pow2Up x fuel i = .error .diverge := by
  intro fuel
  induction fuel with
  | zero => intro i _; rfl
  | succ n ih =>
    intro i hi
    rw [pow2Up]
    have h126 : (0:Int) < 2 ^ 126 := p2_pos _
    have h127 : (0:Int) < 2 ^ 127 := p2_pos _
    rcases hi with rfl | rfl | ⟨k, hk, rfl⟩
    · rw [if_pos (by omega)]
      exact ih _ (.inl (by decide))
    · rw [if_pos (by omega)]
      exact ih _ (.inl (by decide))
    · rw [if_pos (by have := p2_le.2 hk; omega)]
      by_cases h : k < 126
      · rw [shl1_pow h]; exact ih _ (.inr (.inr ⟨k + 1, by omega, rfl⟩))
      · have : k = 126 := by omega
        subst this
        exact ih _ (.inr (.inl (by decide)))

/-! ### rounding down and up -/

theorem boundary_zero : Boundary 0 := .inl rfl
theorem boundary_pow (k : Nat) : Boundary (2 ^ k) := .inr ⟨k, .inl rfl⟩
theorem boundary_neg (k : Nat) : Boundary (-(2 ^ k)) := .inr ⟨k, .inr rfl⟩

theorem floor_unique {x p q : Int} (hp : IsFloor x p) (hq : IsFloor x q) : p = q := by
  have h1 := hp.2.2 q hq.1 hq.2.1
  have h2 := hq.2.2 p hp.1 hp.2.1
  omega

theorem next_unique {x p q : Int} (hp : IsNext x p) (hq : IsNext x q) : p = q := by
  have h1 := hp.2.2 q hq.1 hq.2.1
  have h2 := hq.2.2 p hp.1 hp.2.1
  omega

theorem floor_boundary {x : Int} (h : Boundary x) : IsFloor x x := ⟨h, Int.le_refl _, fun _ _ hq => hq⟩

theorem floor_pos {x : Int} {j : Nat} (h1 : 2 ^ j ≤ x) (h2 : x < 2 ^ (j + 1)) : IsFloor x (2 ^ j) := by
  refine ⟨boundary_pow j, h1, ?_⟩
  rintro q (rfl | ⟨k, rfl | rfl⟩) hq
  · exact Int.le_of_lt (p2_pos j)
  · have : k < j + 1 := p2_lt.1 (Int.lt_of_le_of_lt hq h2)
    exact p2_le.2 (by omega)
  · have := p2_pos j; have := p2_pos k; omega

theorem next_pos {x : Int} {j : Nat} (h1 : 2 ^ j ≤ x) (h2 : x < 2 ^ (j + 1)) : IsNext x (2 ^ (j + 1)) := by
  refine ⟨boundary_pow _, h2, ?_⟩
  rintro q (rfl | ⟨k, rfl | rfl⟩) hq
  · have := p2_pos j; omega
  · have : j < k := p2_lt.1 (Int.lt_of_le_of_lt h1 hq)
    exact p2_le.2 (by omega)
  · have := p2_pos j; have := p2_pos k; omega

theorem floor_neg {x : Int} {j : Nat} (h1 : -(2 ^ j) ≤ x) (h2 : x < 0) (h3 : j = 0 ∨ x < -(2 ^ (j - 1))) :
    IsFloor x (-(2 ^ j)) := by
  refine ⟨boundary_neg j, h1, ?_⟩
  rintro q (rfl | ⟨k, rfl | rfl⟩) hq
  · omega
  · have := p2_pos k; omega
  · have : j ≤ k := by
      rcases h3 with h3 | h3
      · omega
      · have : (2:Int) ^ (j - 1) < 2 ^ k := by omega
        have := p2_lt.1 this
        omega
    have := p2_le.2 this
    omega

theorem next_neg {x : Int} {j : Nat} (h1 : -(2 ^ (j + 1)) ≤ x) (h3 : x < -(2 ^ j)) : IsNext x (-(2 ^ j)) := by
  refine ⟨boundary_neg j, h3, ?_⟩
  rintro q (rfl | ⟨k, rfl | rfl⟩) hq
  · have := p2_pos j; omega
  · have := p2_pos k; have := p2_pos j; omega
  · have : (2:Int) ^ k < 2 ^ (j + 1) := by omega
    have := p2_lt.1 this
    have := p2_le.2 (show k ≤ j by omega)
    omega

theorem floor_of_pos (x : Int) (h0 : 0 < x) (hx : x < 2 ^ 126) (fuel : Nat) (hf : 126 < fuel) :
    ∃ j, j < 126 ∧ previousPower2 fuel x = .ok (2 ^ j) ∧ 2 ^ j ≤ x ∧ x < 2 ^ (j + 1) := by
  obtain ⟨j, h1, h2, h3, h4, h5⟩ := pow2Up_ok x hx 126 0 fuel (by omega) hf
  have hj : 0 < j := by
    rcases Nat.eq_zero_or_pos j with rfl | h
    · simp at h4; omega
    · exact h
  obtain ⟨i, rfl⟩ : ∃ i, j = i + 1 := ⟨j - 1, by omega⟩
  refine ⟨i, by omega, ?_, ?_, h4⟩
  · unfold previousPower2
    rw [if_neg (by omega), if_pos h0]
    simp only [Int.pow_zero] at h3
    simp only [bind, Except.bind, h3, p2_half]
  · rcases h5 with h5 | h5
    · omega
    · simpa using h5

theorem floor_of_neg (x : Int) (h0 : x < 0) (hx : -(2 ^ 127) ≤ x) (fuel : Nat) (hf : 127 < fuel) :
    ∃ j, j ≤ 127 ∧ previousPower2 fuel x = .ok (-(2 ^ j)) ∧ -(2 ^ j) ≤ x ∧ (j = 0 ∨ x < -(2 ^ (j - 1))) := by
  obtain ⟨j, h1, h2, h3, h4, h5⟩ := pow2Down_ok x hx 127 0 fuel (by omega) hf
  refine ⟨j, h2, ?_, h4, h5⟩
  unfold previousPower2
  rw [if_neg (by omega), if_neg (by omega)]
  simpa using h3

theorem previousPower2_ok (x : Int) (hx : Fits x) (hx' : x < 2 ^ 126) (fuel : Nat) (hf : 127 < fuel) :
    ∃ p, previousPower2 fuel x = .ok p ∧ IsFloor x p := by
  rcases Int.lt_trichotomy x 0 with h | rfl | h
  · obtain ⟨j, -, h1, h2, h3⟩ := floor_of_neg x h hx.1 fuel hf
    exact ⟨_, h1, floor_neg h2 h h3⟩
  · exact ⟨0, by simp [previousPower2], floor_boundary boundary_zero⟩
  · obtain ⟨j, -, h1, h2, h3⟩ := floor_of_pos x h hx' fuel (by omega)
    exact ⟨_, h1, floor_pos h2 h3⟩

theorem previousPower2_diverges (x : Int) (hx : 2 ^ 126 ≤ x) (fuel : Nat) :
    previousPower2 fuel x = .error .diverge := by
  have h126 : (0:Int) < 2 ^ 126 := p2_pos _
  unfold previousPower2
  rw [if_neg (by omega), if_pos (by omega)]
  simp only [bind, Except.bind]
  rw [pow2Up_diverges x hx fuel 1 (.inr (.inr ⟨0, by omega, by simp⟩))]

theorem nextPower2_ok (x : Int) (hx : Fits x) (hx' : x < 2 ^ 126) (fuel : Nat) (hf : 127 < fuel) :
    ∃ p, nextPower2 fuel x = .ok p ∧ IsNext x p := by
  unfold nextPower2
  by_cases h1 : x = -1
  · subst h1
    refine ⟨0, by simp, boundary_zero, by decide, ?_⟩
    intro q _ hq; omega
  rw [if_neg h1]
  by_cases h0 : x = 0
  · subst h0
    refine ⟨1, by simp, ?_, by decide, ?_⟩
    · have := boundary_pow 0; simpa using this
    · intro q _ hq; omega
  rw [if_neg h0]
  rcases Int.lt_trichotomy x 0 with h | rfl | h
  · obtain ⟨j, hj, h2, h3, h4⟩ := floor_of_neg x h hx.1 fuel hf
    rw [if_neg (by omega)]
    simp only [bind, Except.bind, h2]
    have hj0 : j ≠ 0 := by rintro rfl; simp at h3; omega
    obtain ⟨i, rfl⟩ : ∃ i, j = i + 1 := ⟨j - 1, by omega⟩
    have h5 : (-(2:Int) ^ (i + 1)) / 2 = -(2 ^ i) := by rw [p2_succ]; omega
    refine ⟨_, by rw [h5], next_neg h3 ?_⟩
    rcases h4 with h4 | h4
    · omega
    · simpa using h4
  · exact absurd rfl h0
  · obtain ⟨j, hj, h2, h3, h4⟩ := floor_of_pos x h hx' fuel (by omega)
    rw [if_pos h]
    simp only [bind, Except.bind, h2]
    exact ⟨_, by rw [shl1_pow hj], next_pos h3 h4⟩

theorem nextPower2_diverges (x : Int) (hx : 2 ^ 126 ≤ x) (fuel : Nat) :
    nextPower2 fuel x = .error .diverge := by
  have h126 : (0:Int) < 2 ^ 126 := p2_pos _
  unfold nextPower2
  rw [if_neg (by omega), if_neg (by omega), if_pos (by omega)]
  simp only [bind, Except.bind]
  rw [previousPower2_diverges x hx fuel]

/-- whatever the bound on iterations: rounding down gives the floor or does not return -/
theorem pow2Up_mono {x : Int} : ∀ {f i r}, pow2Up x f i = .ok r → ∀ {g}, f ≤ g → pow2Up x g i = .ok r := by
  intro f
  induction f with
  | zero => intro i r h; simp [pow2Up] at h
  | succ f ih =>
    intro i r h g hg
    obtain ⟨g, rfl⟩ : ∃ k, g = k + 1 := ⟨g - 1, by omega⟩
    rw [pow2Up] at h ⊢
    split
    · rename_i hc; rw [if_pos hc] at h; exact ih h (by omega)
    · rename_i hc; rw [if_neg hc] at h; exact h

theorem pow2Down_mono {x : Int} : ∀ {f i r}, pow2Down x f i = .ok r → ∀ {g}, f ≤ g → pow2Down x g i = .ok r := by
  intro f
  induction f with
  | zero => intro i r h; simp [pow2Down] at h
  | succ f ih =>
    intro i r h g hg
    obtain ⟨g, rfl⟩ : ∃ k, g = k + 1 := ⟨g - 1, by omega⟩
    rw [pow2Down] at h ⊢
    split
    · rename_i hc; rw [if_pos hc] at h; exact ih h (by omega)
    · rename_i hc; rw [if_neg hc] at h; exact h

theorem pow2Up_only {x : Int} : ∀ f i, (∃ r, pow2Up x f i = .ok r) ∨ pow2Up x f i = .error .diverge := by
  intro f
  induction f with
  | zero => intro i; exact .inr rfl
  | succ f ih => intro i; rw [pow2Up]; split; exact ih _; exact .inl ⟨_, rfl⟩

theorem pow2Down_only {x : Int} : ∀ f i, (∃ r, pow2Down x f i = .ok r) ∨ pow2Down x f i = .error .diverge := by
  intro f
  induction f with
  | zero => intro i; exact .inr rfl
  | succ f ih => intro i; rw [pow2Down]; split; exact ih _; exact .inl ⟨_, rfl⟩

theorem previousPower2_mono {x r : Int} {f g : Nat} (h : previousPower2 f x = .ok r) (hg : f ≤ g) :
    previousPower2 g x = .ok r := by
  unfold previousPower2 at h ⊢
  split
  · rename_i hc; rw [if_pos hc] at h; exact h
  · rename_i hc
    rw [if_neg hc] at h
    split
    · rename_i hp
      rw [if_pos hp] at h
      simp only [bind, Except.bind] at h ⊢
      cases hu : pow2Up x f 1 with
      | ok i => rw [hu] at h; rw [pow2Up_mono hu hg]; exact h
      | error e => rw [hu] at h; cases h
    · rename_i hp
      rw [if_neg hp] at h
      exact pow2Down_mono h hg

theorem previousPower2_only (f : Nat) (x : Int) :
    (∃ r, previousPower2 f x = .ok r) ∨ previousPower2 f x = .error .diverge := by
  unfold previousPower2
  split
  · exact .inl ⟨_, rfl⟩
  · split
    · simp only [bind, Except.bind]
      rcases pow2Up_only (x := x) f 1 with ⟨r, h⟩ | h <;> rw [h]
      · exact .inl ⟨_, rfl⟩
      · exact .inr rfl
    · exact pow2Down_only f (-1)

/-- whatever the bound on iterations, a result is right -/
theorem previousPower2_floor {f : Nat} {x p : Int} (hx : Fits x) (h : previousPower2 f x = .ok p) :
    IsFloor x p ∧ x < 2 ^ 126 := by
  have hlt : x < 2 ^ 126 := by
    rcases Int.lt_or_le x (2 ^ 126) with h' | h'
    · exact h'
    · rw [previousPower2_diverges x h'] at h; cases h
  obtain ⟨q, h1, h2⟩ := previousPower2_ok x hx hlt (f + 128) (by omega)
  rw [previousPower2_mono h (by omega)] at h1
  cases h1
  exact ⟨h2, hlt⟩

theorem nextPower2_only (f : Nat) (x : Int) :
    (∃ r, nextPower2 f x = .ok r) ∨ nextPower2 f x = .error .diverge := by
  unfold nextPower2
  split
  · exact .inl ⟨_, rfl⟩
  · split
    · exact .inl ⟨_, rfl⟩
    · split <;> simp only [bind, Except.bind] <;>
        (rcases previousPower2_only f x with ⟨r, h⟩ | h <;> rw [h]
         · exact .inl ⟨_, rfl⟩
         · exact .inr rfl)

theorem nextPower2_mono {x r : Int} {f g : Nat} (h : nextPower2 f x = .ok r) (hg : f ≤ g) :
    nextPower2 g x = .ok r := by
  unfold nextPower2 at h ⊢
  split
  · rename_i hc; rw [if_pos hc] at h; exact h
  · rename_i hc
    rw [if_neg hc] at h
    split
    · rename_i hc; rw [if_pos hc] at h; exact h
    · rename_i hc
      rw [if_neg hc] at h
      split
      · rename_i hp
        rw [if_pos hp] at h
        simp only [bind, Except.bind] at h ⊢
        cases hu : previousPower2 f x with
        | ok i => rw [hu] at h; rw [previousPower2_mono hu hg]; exact h
        | error e => rw [hu] at h; cases h
      · rename_i hp
        rw [if_neg hp] at h
        simp only [bind, Except.bind] at h ⊢
        cases hu : previousPower2 f x with
        | ok i => rw [hu] at h; rw [previousPower2_mono hu hg]; exact h
        | error e => rw [hu] at h; cases h

theorem nextPower2_next {f : Nat} {x p : Int} (hx : Fits x) (h : nextPower2 f x = .ok p) :
    IsNext x p ∧ x < 2 ^ 126 := by
  have hlt : x < 2 ^ 126 := by
    rcases Int.lt_or_le x (2 ^ 126) with h' | h'
    · exact h'
    · rw [nextPower2_diverges x h'] at h; cases h
  obtain ⟨q, h1, h2⟩ := nextPower2_ok x hx hlt (f + 128) (by omega)
  rw [nextPower2_mono h (by omega)] at h1
  cases h1
  exact ⟨h2, hlt⟩

theorem next_fits {x p : Int} (hx : Fits x) (hlt : x < 2 ^ 126) (h : IsNext x p) : Fits p ∧ p ≤ 2 ^ 126 := by
  have h1 := h.2.2 _ (boundary_pow 126) hlt
  have h2 := h.2.1
  have h3 : (2:Int) ^ 126 < 2 ^ 127 := p2_lt.2 (by omega)
  exact ⟨⟨Int.le_trans hx.1 (Int.le_of_lt h2), by omega⟩, h1⟩

theorem floor_fits {x p : Int} (hx : Fits x) (h : IsFloor x p) : Fits p := by
  have h1 := h.2.2 _ (boundary_neg 127) hx.1
  have h2 := h.2.1
  have h3 := hx.2
  exact ⟨h1, by omega⟩

/-! ### buckets -/

theorem foldl_min_spec : ∀ (vs : List Int) (v : Int), IsMin (vs.foldl min v) (v :: vs) := by
  intro vs
  induction vs with
  | nil => intro v; exact ⟨by simp, by simp⟩
  | cons w vs ih =>
    intro v
    obtain ⟨h1, h2⟩ := ih (min v w)
    simp only [List.foldl_cons]
    refine ⟨?_, ?_⟩
    · simp only [List.mem_cons] at h1 ⊢
      rcases h1 with h1 | h1
      · rw [h1]; rcases Int.le_total v w with h | h
        · left; omega
        · right; left; omega
      · exact .inr (.inr h1)
    · have h0 := h2 (min v w) (by simp)
      intro u hu
      simp only [List.mem_cons] at hu
      rcases hu with rfl | rfl | hu
      · omega
      · omega
      · exact h2 u (by simp [hu])

theorem foldl_max_spec : ∀ (vs : List Int) (v : Int), IsMax (vs.foldl max v) (v :: vs) := by
  intro vs
  induction vs with
  | nil => intro v; exact ⟨by simp, by simp⟩
  | cons w vs ih =>
    intro v
    obtain ⟨h1, h2⟩ := ih (max v w)
    simp only [List.foldl_cons]
    refine ⟨?_, ?_⟩
    · simp only [List.mem_cons] at h1 ⊢
      rcases h1 with h1 | h1
      · rw [h1]; rcases Int.le_total v w with h | h
        · right; left; omega
        · left; omega
      · exact .inr (.inr h1)
    · have h0 := h2 (max v w) (by simp)
      intro u hu
      simp only [List.mem_cons] at hu
      rcases hu with rfl | rfl | hu
      · omega
      · omega
      · exact h2 u (by simp [hu])

theorem min_unique {m n : Int} {l : List Int} (h : IsMin m l) (h' : IsMin n l) : m = n := by
  have h1 := h.2 n h'.1
  have h2 := h'.2 m h.1
  omega

theorem max_unique {m n : Int} {l : List Int} (h : IsMax m l) (h' : IsMax n l) : m = n := by
  have h1 := h.2 n h'.1
  have h2 := h'.2 m h.1
  omega

theorem countIn_eq (vals : List Int) (lo hi : Int) :
    countIn vals lo hi = howMany vals fun v => decide (lo ≤ v ∧ v < hi) := by
  simp only [countIn, howMany]
  congr 2
  funext v
  simp

/-- what the bucket loop produces, if it returns -/
theorem bucketLoop_spec (pf : Nat) (vals : List Int) (maxv : Int) : ∀ fuel cur bs, Fits cur → Boundary cur →
    bucketLoop pf vals maxv fuel cur = .ok bs →
    ∃ hi, Contiguous cur hi bs ∧ (∀ b ∈ bs, b.count = howMany vals fun v => decide (b.start ≤ v ∧ v < b.stop)) ∧
      maxv ≤ hi ∧ (bs = [] ∨ IsCeil maxv hi) ∧ (∀ b ∈ bs, Fits b.start ∧ Fits b.stop ∧ Boundary b.start) := by
  intro fuel
  induction fuel with
  | zero => intro cur bs _ _ h; simp [bucketLoop] at h
  | succ n ih =>
    intro cur bs hcur hbd h
    rw [bucketLoop] at h
    by_cases hlt : cur < maxv
    · rw [if_pos hlt] at h
      simp only [bind, Except.bind] at h
      cases hn : nextPower2 pf cur with
      | error e => rw [hn] at h; cases h
      | ok next =>
        rw [hn] at h
        simp only at h
        obtain ⟨h1, h2⟩ := nextPower2_next hcur hn
        have hf := (next_fits hcur h2 h1).1
        cases hr : bucketLoop pf vals maxv n next with
        | error e => rw [hr] at h; cases h
        | ok rest =>
          rw [hr] at h
          cases h
          obtain ⟨hi, g1, g2, g3, g4, g5⟩ := ih next rest hf h1.1 hr
          refine ⟨hi, ⟨rfl, h1, g1⟩, ?_, g3, .inr ?_, ?_⟩
          · intro b hb
            simp only [List.mem_cons] at hb
            rcases hb with rfl | hb
            · exact countIn_eq vals cur next
            · exact g2 b hb
          · rcases g4 with rfl | g4
            · simp only [Contiguous] at g1
              subst g1
              exact ⟨h1.1, g3, fun q hq hle => h1.2.2 q hq (by omega)⟩
            · exact g4
          · intro b hb
            simp only [List.mem_cons] at hb
            rcases hb with rfl | hb
            · exact ⟨hcur, hf, hbd⟩
            · exact g5 b hb
    · rw [if_neg hlt] at h
      cases h
      exact ⟨cur, rfl, by simp, by omega, .inl rfl, by simp⟩

/-- contiguous buckets count what lies between their ends, each value once -/
theorem contiguous_count (vals : List Int) : ∀ (bs : List Bucket) (lo hi : Int), Contiguous lo hi bs →
    (∀ b ∈ bs, b.count = howMany vals fun v => decide (b.start ≤ v ∧ v < b.stop)) →
    lo ≤ hi ∧ (bs.map (·.count)).sum = howMany vals fun v => decide (lo ≤ v ∧ v < hi) := by
  intro bs
  induction bs with
  | nil =>
    intro lo hi h _
    simp only [Contiguous] at h
    subst h
    refine ⟨Int.le_refl _, ?_⟩
    simp only [List.map_nil, List.sum_nil, howMany]
    rw [List.filter_eq_nil_iff.2]
    · rfl
    · intro v _; simp only [decide_eq_true_eq]; omega
  | cons b bs ih =>
    intro lo hi h hc
    obtain ⟨rfl, h2, h3⟩ := h
    obtain ⟨g1, g2⟩ := ih b.stop hi h3 (fun x hx => hc x (by simp [hx]))
    have hlt := h2.2.1
    refine ⟨by omega, ?_⟩
    simp only [List.map_cons, List.sum_cons]
    rw [g2, hc b (by simp)]
    clear g2 hc ih h3 h2
    induction vals with
    | nil => rfl
    | cons v vals ih =>
      simp only [howMany, List.filter_cons, decide_eq_true_eq] at ih ⊢
      split <;> rename_i c1 <;> split <;> rename_i c2 <;> split <;> rename_i c3 <;>
        (try simp only [List.length_cons]) <;> omega

/-- a value inside a contiguous range is in exactly one bucket -/
theorem contiguous_unique : ∀ (bs : List Bucket) (lo hi : Int), Contiguous lo hi bs → ∀ v, lo ≤ v → v < hi →
    ∃ pre b post, bs = pre ++ b :: post ∧ b.start ≤ v ∧ v < b.stop ∧
      ∀ c ∈ pre ++ post, ¬ (c.start ≤ v ∧ v < c.stop) := by
  intro bs
  induction bs with
  | nil => intro lo hi h v h1 h2; simp only [Contiguous] at h; omega
  | cons b bs ih =>
    intro lo hi h v h1 h2
    obtain ⟨rfl, hn, h3⟩ := h
    have above : ∀ (bs : List Bucket) (lo hi : Int), Contiguous lo hi bs → ∀ c ∈ bs, lo ≤ c.start := by
      intro bs
      induction bs with
      | nil => simp
      | cons d bs ih' =>
        intro lo hi h c hc
        obtain ⟨rfl, hn, h3⟩ := h
        simp only [List.mem_cons] at hc
        rcases hc with rfl | hc
        · exact Int.le_refl _
        · have := ih' _ _ h3 c hc
          have := hn.2.1
          omega
    by_cases hb : v < b.stop
    · refine ⟨[], b, bs, rfl, h1, hb, ?_⟩
      intro c hc
      have := above bs b.stop hi h3 c (by simpa using hc)
      omega
    · obtain ⟨pre, c, post, e, g1, g2, g3⟩ := ih b.stop hi h3 v (by omega) h2
      refine ⟨b :: pre, c, post, by rw [e]; rfl, g1, g2, ?_⟩
      intro d hd
      simp only [List.cons_append, List.mem_cons] at hd
      rcases hd with rfl | hd
      · omega
      · exact g3 d hd

/-! ### termination of the bucket loop -/

/-- index of a boundary in their sequence from `-2^127` to `2^126` -/
theorem bucketLoop_ok (pf : Nat) (hpf : 127 < pf) (vals : List Int) (maxv : Int) (hm : maxv ≤ 2 ^ 126) :
    ∀ fuel cur, Fits cur → Boundary cur →
      ((∃ k : Nat, k ≤ 127 ∧ cur = -(2 ^ k) ∧ k + 129 < fuel) ∨ (cur = 0 ∧ 128 < fuel) ∨
        (∃ k : Nat, k ≤ 126 ∧ cur = 2 ^ k ∧ 126 - k < fuel)) →
      ∃ bs, bucketLoop pf vals maxv fuel cur = .ok bs := by
  intro fuel
  induction fuel with
  | zero => intro cur _ _ h; omega
  | succ n ih =>
    intro cur hcur hbd h
    rw [bucketLoop]
    by_cases hlt : cur < maxv
    · rw [if_pos hlt]
      have hc126 : cur < 2 ^ 126 := by omega
      obtain ⟨next, hn, hnx⟩ := nextPower2_ok cur hcur hc126 pf hpf
      have hf := (next_fits hcur hc126 hnx).1
      have step : ∃ bs, bucketLoop pf vals maxv n next = .ok bs := by
        apply ih next hf hnx.1
        rcases h with ⟨k, hk, rfl, hn'⟩ | ⟨rfl, hn'⟩ | ⟨k, hk, rfl, hn'⟩
        · cases k with
          | zero =>
            have : next = 0 := next_unique hnx ⟨boundary_zero, by decide, by intro q _ hq; simp at hq; omega⟩
            exact .inr (.inl ⟨this, by omega⟩)
          | succ k =>
            have : next = -(2 ^ k) := next_unique hnx (next_neg (Int.le_refl _) (by have := p2_pos k; rw [p2_succ]; omega))
            exact .inl ⟨k, by omega, this, by omega⟩
        · have : next = 2 ^ 0 := next_unique hnx ⟨boundary_pow 0, by decide, by intro q _ hq; simp; omega⟩
          exact .inr (.inr ⟨0, by omega, this, by omega⟩)
        · have hk' : k < 126 := p2_lt.1 hc126
          have : next = 2 ^ (k + 1) := next_unique hnx (next_pos (Int.le_refl _) (p2_lt.2 (by omega)))
          exact .inr (.inr ⟨k + 1, by omega, this, by omega⟩)
      obtain ⟨bs, hbs⟩ := step
      simp only [bind, Except.bind, hn, hbs]
      exact ⟨_, rfl⟩
    · rw [if_neg hlt]; exact ⟨_, rfl⟩

theorem boundary_fits_cases {p : Int} (hp : Boundary p) (hf : Fits p) :
    (∃ k : Nat, k ≤ 127 ∧ p = -(2 ^ k)) ∨ p = 0 ∨ ∃ k : Nat, k ≤ 126 ∧ p = 2 ^ k := by
  rcases hp with rfl | ⟨k, rfl | rfl⟩
  · exact .inr (.inl rfl)
  · refine .inr (.inr ⟨k, ?_, rfl⟩)
    have := p2_lt.1 hf.2
    omega
  · refine .inl ⟨k, ?_, rfl⟩
    exact p2_le.1 (by have := hf.1; omega)

end Btrd
