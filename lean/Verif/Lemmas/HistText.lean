/-
Lemmas about the text of histograms.
-/
import Verif.Lemmas.Hist

namespace Btrd
open Spec

theorem p2_div {k j : Nat} (h : j ≤ k) : (2:Int) ^ k / 2 ^ j = 2 ^ (k - j) := by
  have : (2:Int) ^ k = 2 ^ (k - j) * 2 ^ j := by rw [← Int.pow_add]; congr 1; omega
  rw [this, Int.mul_ediv_cancel _ (Int.ne_of_gt (p2_pos j))]

theorem p2_div_zero {k j : Nat} (h : k < j) : (2:Int) ^ k / 2 ^ j = 0 :=
  Int.ediv_eq_zero_of_lt (Int.le_of_lt (p2_pos k)) (p2_lt.2 h)

theorem intDisplay_pow (k : Nat) : intDisplay (2 ^ k) = Nat.toDigits 10 (2 ^ k) := by
  unfold intDisplay
  rw [if_neg (by have := p2_pos k; omega)]
  congr 1

theorem prettyUnit_pow (k : Nat) : prettyUnit (2 ^ k) = powText k := by
  have step : ∀ j, (((2:Int) ^ k / 2 ^ j ≠ 0) = (j ≤ k)) := by
    intro j
    apply propext
    constructor
    · intro h
      rcases Nat.lt_or_ge k j with h' | h'
      · exact absurd (p2_div_zero h') h
      · exact h'
    · intro h
      rw [p2_div h]
      exact Int.ne_of_gt (p2_pos _)
  unfold prettyUnit powText
  simp only [step]
  by_cases h1 : 40 ≤ k
  · rw [if_pos h1, if_neg (by omega), if_neg (by omega), if_neg (by omega), if_neg (by omega), p2_div h1, intDisplay_pow]
  rw [if_neg h1]
  by_cases h2 : 30 ≤ k
  · rw [if_pos h2, if_neg (by omega), if_neg (by omega), if_neg (by omega), if_pos (by omega), p2_div h2, intDisplay_pow]
  rw [if_neg h2]
  by_cases h3 : 20 ≤ k
  · rw [if_pos h3, if_neg (by omega), if_neg (by omega), if_pos (by omega), p2_div h3, intDisplay_pow]
  rw [if_neg h3]
  by_cases h4 : 10 ≤ k
  · rw [if_pos h4, if_neg (by omega), if_pos (by omega), p2_div h4, intDisplay_pow]
  rw [if_neg h4, if_pos (by omega), intDisplay_pow]

/-- the power-of-two assertion holds at boundaries -/
theorem previousPower2_boundary {fuel : Nat} {p q : Int} (hp : Boundary p) (hf : Fits p)
    (h : previousPower2 fuel p = .ok q) : q = p :=
  floor_unique (previousPower2_floor hf h).1 (floor_boundary hp)

theorem numBytes_only (b : Build) (fuel : Nat) {p : Int} (hp : Boundary p) (hf : Fits p)
    (hb : b.ovfChecks = true → p ≠ i128Min) :
    (∃ t, numBytesToPretty b fuel p = .ok t) ∨ numBytesToPretty b fuel p = .error .diverge := by
  unfold numBytesToPretty
  simp only [bind, Except.bind]
  rcases previousPower2_only fuel p with ⟨q, h⟩ | h
  · have := previousPower2_boundary hp hf h
    subst this
    rw [h]
    simp only [ne_eq, not_true_eq_false, if_false]
    split
    · exact .inl ⟨_, rfl⟩
    · split
      · unfold negI128
        by_cases hm : q = i128Min
        · rw [if_pos hm]
          cases ho : b.ovfChecks with
          | true => exact absurd hm (hb ho)
          | false => exact .inl ⟨_, rfl⟩
        · rw [if_neg hm]; exact .inl ⟨_, rfl⟩
      · exact .inl ⟨_, rfl⟩
  · rw [h]; exact .inr rfl

/-- whatever the bound, a label is right -/
theorem numBytes_label (b : Build) (fuel : Nat) {p : Int} (hp : Boundary p) (hf : Fits p) (hm : p ≠ i128Min) {t : Str}
    (h : numBytesToPretty b fuel p = .ok t) : IsLabel p t := by
  unfold numBytesToPretty at h
  simp only [bind, Except.bind] at h
  rcases previousPower2_only fuel p with ⟨q, hq⟩ | hq
  · have := previousPower2_boundary hp hf hq
    subst this
    rw [hq] at h
    simp only [ne_eq, not_true_eq_false, if_false] at h
    rcases hp with rfl | ⟨k, rfl | rfl⟩
    · simp at h; exact .inl ⟨rfl, h.symm⟩
    · have := p2_pos k
      rw [if_neg (by omega), if_neg (by omega)] at h
      cases h
      exact .inr (.inl ⟨k, rfl, prettyUnit_pow k⟩)
    · have := p2_pos k
      rw [if_neg (by omega), if_pos (by omega), negI128, if_neg hm] at h
      simp only [Int.neg_neg, Except.ok.injEq] at h
      exact .inr (.inr ⟨k, rfl, by rw [← h, prettyUnit_pow]⟩)
  · rw [hq] at h; cases h

theorem numBytes_ok (b : Build) (fuel : Nat) (hfu : 127 < fuel) {p : Int} (hp : Boundary p) (hf : Fits p)
    (hm : p ≠ i128Min) (hlt : p < 2 ^ 126) : ∃ t, numBytesToPretty b fuel p = .ok t := by
  rcases numBytes_only b fuel hp hf (fun _ => hm) with h | h
  · exact h
  · exfalso
    unfold numBytesToPretty at h
    simp only [bind, Except.bind] at h
    obtain ⟨q, hq, -⟩ := previousPower2_ok p hf hlt fuel hfu
    have := previousPower2_boundary hp hf hq
    subst this
    rw [hq] at h
    simp only [ne_eq, not_true_eq_false, if_false, negI128, if_neg hm] at h
    split at h
    · cases h
    · split at h <;> cases h

/-! ### lines -/

theorem howMany_le (vals : List Int) (p : Int → Bool) : howMany vals p ≤ vals.length := List.length_filter_le _ _

theorem bucketLine_isLine (b : Build) (fuel total : Nat) (ht : 0 < total) (k : Bucket) (hk : k.count ≤ total)
    (h1 : Boundary k.start) (h2 : Boundary k.stop) (f1 : Fits k.start) (f2 : Fits k.stop)
    (m1 : k.start ≠ i128Min) (m2 : k.stop ≠ i128Min) {l : Str} (h : bucketLine b fuel total k = .ok l) :
    IsLine total k l := by
  unfold bucketLine at h
  simp only [bind, Except.bind] at h
  cases hs : numBytesToPretty b fuel k.start with
  | error e => rw [hs] at h; cases h
  | ok s =>
    cases he : numBytesToPretty b fuel k.stop with
    | error e => rw [hs, he] at h; cases h
    | ok e =>
      rw [hs, he] at h
      simp only [Except.ok.injEq] at h
      refine ⟨s, e, k.count * 50 / total, numBytes_label b fuel h1 f1 m1 hs, numBytes_label b fuel h2 f2 m2 he,
        Nat.div_mul_le_self _ _, ?_, ?_, ?_⟩
      · have := Nat.lt_div_mul_add (a := k.count * 50) ht
        rw [Nat.add_mul, Nat.one_mul]
        exact this
      · exact Nat.div_le_of_le_mul (Nat.le_trans (Nat.mul_le_mul_right 50 hk) (by rw [Nat.mul_comm]; exact Nat.le_refl _))
      · rw [← h]
        simp only [padRight, padLeft, column, columnRight]

theorem bucketLine_ok (b : Build) (fuel total : Nat) (hfu : 127 < fuel) (k : Bucket)
    (h1 : Boundary k.start) (h2 : Boundary k.stop) (f1 : Fits k.start) (f2 : Fits k.stop)
    (m1 : k.start ≠ i128Min) (m2 : k.stop ≠ i128Min) (l1 : k.start < 2 ^ 126) (l2 : k.stop < 2 ^ 126) :
    ∃ l, bucketLine b fuel total k = .ok l := by
  obtain ⟨s, hs⟩ := numBytes_ok b fuel hfu h1 f1 m1 l1
  obtain ⟨e, he⟩ := numBytes_ok b fuel hfu h2 f2 m2 l2
  unfold bucketLine
  simp only [bind, Except.bind, hs, he]
  exact ⟨_, rfl⟩

theorem bucketLine_only (b : Build) (fuel total : Nat) (k : Bucket)
    (h1 : Boundary k.start) (h2 : Boundary k.stop) (f1 : Fits k.start) (f2 : Fits k.stop)
    (m1 : b.ovfChecks = true → k.start ≠ i128Min) (m2 : b.ovfChecks = true → k.stop ≠ i128Min) :
    (∃ l, bucketLine b fuel total k = .ok l) ∨ bucketLine b fuel total k = .error .diverge := by
  unfold bucketLine
  simp only [bind, Except.bind]
  rcases numBytes_only b fuel h1 f1 m1 with ⟨s, hs⟩ | hs
  · rcases numBytes_only b fuel h2 f2 m2 with ⟨e, he⟩ | he
    · rw [hs, he]; exact .inl ⟨_, rfl⟩
    · rw [hs, he]; exact .inr rfl
  · rw [hs]; exact .inr rfl

theorem bucketLines_spec (b : Build) (fuel total : Nat) : ∀ (bs : List Bucket) (t : Str),
    bucketLines b fuel total bs = .ok t →
    ∃ ls, t = ls.flatten ∧ List.Forall₂ (fun k l => bucketLine b fuel total k = .ok l) bs ls := by
  intro bs
  induction bs with
  | nil => intro t h; rw [bucketLines] at h; cases h; exact ⟨[], rfl, .nil⟩
  | cons k bs ih =>
    intro t h
    rw [bucketLines] at h
    simp only [bind, Except.bind] at h
    cases hl : bucketLine b fuel total k with
    | error e => rw [hl] at h; cases h
    | ok l =>
      rw [hl] at h
      cases hr : bucketLines b fuel total bs with
      | error e => rw [hr] at h; cases h
      | ok r =>
        rw [hr] at h
        simp only [Except.ok.injEq] at h
        obtain ⟨ls, h1, h2⟩ := ih r hr
        exact ⟨l :: ls, by rw [← h, h1]; rfl, .cons hl h2⟩

theorem bucketLines_ok (b : Build) (fuel total : Nat) : ∀ (bs : List Bucket),
    (∀ k ∈ bs, ∃ l, bucketLine b fuel total k = .ok l) → ∃ t, bucketLines b fuel total bs = .ok t := by
  intro bs
  induction bs with
  | nil => intro _; exact ⟨_, rfl⟩
  | cons k bs ih =>
    intro h
    obtain ⟨l, hl⟩ := h k (by simp)
    obtain ⟨t, ht⟩ := ih (fun x hx => h x (by simp [hx]))
    rw [bucketLines]
    simp only [bind, Except.bind, hl, ht]
    exact ⟨_, rfl⟩

theorem bucketLines_only (b : Build) (fuel total : Nat) : ∀ (bs : List Bucket),
    (∀ k ∈ bs, (∃ l, bucketLine b fuel total k = .ok l) ∨ bucketLine b fuel total k = .error .diverge) →
    (∃ t, bucketLines b fuel total bs = .ok t) ∨ bucketLines b fuel total bs = .error .diverge := by
  intro bs
  induction bs with
  | nil => intro _; exact .inl ⟨_, rfl⟩
  | cons k bs ih =>
    intro h
    rw [bucketLines]
    simp only [bind, Except.bind]
    rcases h k (by simp) with ⟨l, hl⟩ | hl
    · rcases ih (fun x hx => h x (by simp [hx])) with ⟨t, ht⟩ | ht
      · rw [hl, ht]; exact .inl ⟨_, rfl⟩
      · rw [hl, ht]; exact .inr rfl
    · rw [hl]; exact .inr rfl

theorem bucketLoop_only (pf : Nat) (vals : List Int) (maxv : Int) : ∀ fuel cur,
    (∃ bs, bucketLoop pf vals maxv fuel cur = .ok bs) ∨ bucketLoop pf vals maxv fuel cur = .error .diverge := by
  intro fuel
  induction fuel with
  | zero => intro cur; exact .inr rfl
  | succ n ih =>
    intro cur
    rw [bucketLoop]
    split
    · simp only [bind, Except.bind]
      rcases nextPower2_only pf cur with ⟨r, h⟩ | h
      · rcases ih r with ⟨bs, hb⟩ | hb
        · rw [h]; simp only [hb]; exact .inl ⟨_, rfl⟩
        · rw [h]; simp only [hb]; exact .inr trivial
      · rw [h]; exact .inr rfl
    · exact .inl ⟨_, rfl⟩

theorem histInts_ints (vals : List Int) : histInts (vals.map Value.int) = .ok vals := by
  induction vals with
  | nil => rfl
  | cons v vals ih => simp only [List.map_cons, histInts, ih]; rfl

/-- a list of values is all integers, or not a histogram -/
theorem histInts_cases : ∀ vec : List Value, (∃ vals : List Int, vec = vals.map Value.int) ∨
    ∃ (vals : List Int) (v : Value) (rest : List Value), vec = vals.map Value.int ++ v :: rest ∧ (∀ i, v ≠ .int i) ∧
      histInts vec = R.err (.histValue v.shortDisplay)
  | [] => .inl ⟨[], rfl⟩
  | .int i :: vs => by
    rcases histInts_cases vs with ⟨vals, rfl⟩ | ⟨vals, v, rest, rfl, hv, h⟩
    · exact .inl ⟨i :: vals, rfl⟩
    · right; exact ⟨i :: vals, v, rest, rfl, hv, by simp only [histInts, h]; rfl⟩
  | .str _ :: _ => .inr ⟨[], _, _, rfl, by simp, rfl⟩
  | .bool _ :: _ => .inr ⟨[], _, _, rfl, by simp, rfl⟩
  | .array _ _ :: _ => .inr ⟨[], _, _, rfl, by simp, rfl⟩
  | .func _ :: _ => .inr ⟨[], _, _, rfl, by simp, rfl⟩
  | .struct _ _ _ :: _ => .inr ⟨[], _, _, rfl, by simp, rfl⟩

theorem asHist_ints (b : Build) (fuel : Nat) (v : Int) (vs : List Int) :
    asHist b fuel ((v :: vs).map Value.int) =
      (match histBuckets fuel v vs with
      | .ok bs => bucketLines b fuel (v :: vs).length bs
      | .error e => .error e) := by
  unfold asHist
  rw [histInts_ints]
  simp only [bind, Except.bind]
  cases histBuckets fuel v vs <;> rfl

theorem histBuckets_only (fuel : Nat) (v : Int) (vs : List Int) :
    (∃ bs, histBuckets fuel v vs = .ok bs) ∨ histBuckets fuel v vs = .error .diverge := by
  unfold histBuckets
  simp only [bind, Except.bind]
  rcases previousPower2_only fuel (vs.foldl min v) with ⟨r, h⟩ | h
  · rw [h]; exact bucketLoop_only _ _ _ _ _
  · rw [h]; exact .inr rfl

/-- everything about the buckets of a histogram, if they are computed at all -/
theorem histBuckets_spec {fuel : Nat} {v : Int} {vs : List Int} {bs : List Bucket}
    (hf : ∀ x ∈ v :: vs, Fits x) (h : histBuckets fuel v vs = .ok bs) :
    ∃ mn mx lo hi, IsMin mn (v :: vs) ∧ IsMax mx (v :: vs) ∧ IsFloor mn lo ∧ Contiguous lo hi bs ∧
      (∀ b ∈ bs, b.count = howMany (v :: vs) fun x => decide (b.start ≤ x ∧ x < b.stop)) ∧
      mx ≤ hi ∧ (bs = [] ∨ IsCeil mx hi) ∧ (∀ b ∈ bs, Fits b.start ∧ Fits b.stop ∧ Boundary b.start) := by
  have hmin := foldl_min_spec vs v
  have hmax := foldl_max_spec vs v
  unfold histBuckets at h
  simp only [bind, Except.bind] at h
  cases hp : previousPower2 fuel (vs.foldl min v) with
  | error e => rw [hp] at h; cases h
  | ok lo =>
    rw [hp] at h
    simp only at h
    obtain ⟨h1, -⟩ := previousPower2_floor (hf _ hmin.1) hp
    obtain ⟨hi, g1, g2, g3, g4, g5⟩ := bucketLoop_spec fuel _ _ fuel lo bs (floor_fits (hf _ hmin.1) h1) h1.1 h
    exact ⟨_, _, lo, hi, hmin, hmax, h1, g1, g2, g3, g4, g5⟩

theorem contiguous_bounds : ∀ (bs : List Bucket) (lo hi : Int), Contiguous lo hi bs →
    ∀ b ∈ bs, lo ≤ b.start ∧ b.stop ≤ hi ∧ b.start < b.stop ∧ Boundary b.stop := by
  intro bs
  induction bs with
  | nil => simp
  | cons b bs ih =>
    intro lo hi h c hc
    obtain ⟨rfl, h2, h3⟩ := h
    have hle := (contiguous_count [] bs b.stop hi h3)
    have hlt := h2.2.1
    simp only [List.mem_cons] at hc
    rcases hc with rfl | hc
    · refine ⟨Int.le_refl _, ?_, hlt, h2.1⟩
      have key : ∀ (bs : List Bucket) (lo hi : Int), Contiguous lo hi bs → lo ≤ hi := by
        intro bs
        induction bs with
        | nil => intro lo hi h; simp only [Contiguous] at h; omega
        | cons d bs ih' =>
          intro lo hi h
          obtain ⟨rfl, h2, h3⟩ := h
          have := ih' _ _ h3
          have := h2.2.1
          omega
      exact key bs _ _ h3
    · obtain ⟨g1, g2, g3, g4⟩ := ih b.stop hi h3 c hc
      exact ⟨by omega, g2, g3, g4⟩

theorem histBuckets_ok {fuel : Nat} (hfu : 258 ≤ fuel) {v : Int} {vs : List Int}
    (hf : ∀ x ∈ v :: vs, Fits x) (hm : ∀ x ∈ v :: vs, x < 2 ^ 126) : ∃ bs, histBuckets fuel v vs = .ok bs := by
  have hmin := foldl_min_spec vs v
  have hmax := foldl_max_spec vs v
  unfold histBuckets
  simp only [bind, Except.bind]
  obtain ⟨lo, h1, h2⟩ := previousPower2_ok _ (hf _ hmin.1) (hm _ hmin.1) fuel (by omega)
  rw [h1]
  simp only
  have hlo := floor_fits (hf _ hmin.1) h2
  apply bucketLoop_ok fuel (by omega) _ _ (Int.le_of_lt (hm _ hmax.1)) fuel lo hlo h2.1
  rcases boundary_fits_cases h2.1 hlo with ⟨k, hk, e⟩ | e | ⟨k, hk, e⟩
  · exact .inl ⟨k, hk, e, by omega⟩
  · exact .inr (.inl ⟨e, by omega⟩)
  · exact .inr (.inr ⟨k, hk, e, by omega⟩)

end Btrd
