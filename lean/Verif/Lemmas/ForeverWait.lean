/-
What can go on forever (C79): diagrams and searches.
-/
import Verif.Lemmas.Forever
import Verif.Props.Hist
import Verif.Props.Search

namespace Btrd
open Spec

/-! ### diagrams -/

theorem numBytes_ends (b : Build) (fuel : Nat) (hfu : 127 < fuel) {p : Int} (hf : Fits p) (hlt : p < 2 ^ 126) :
    numBytesToPretty b fuel p ≠ .error .diverge := by
  intro h
  unfold numBytesToPretty at h
  obtain ⟨q, hq, -⟩ := previousPower2_ok p hf hlt fuel hfu
  rw [hq] at h
  simp only [bind, Except.bind] at h
  split at h
  · cases h
  · split at h
    · cases h
    · split at h
      · unfold negI128 at h
        by_cases h1 : p = i128Min
        · by_cases h2 : b.ovfChecks = true
          · simp only [if_pos h1, if_pos h2] at h; cases h
          · simp only [if_pos h1, if_neg h2] at h; cases h
        · simp only [if_neg h1] at h; cases h
      · cases h

theorem bucketLines_ends (b : Build) (fuel total : Nat) : ∀ (bs : List Bucket),
    (∀ k ∈ bs, bucketLine b fuel total k ≠ .error .diverge) → bucketLines b fuel total bs ≠ .error .diverge := by
  intro bs
  induction bs with
  | nil => intro _ h; cases h
  | cons k bs ih =>
    intro h h'
    rw [bucketLines] at h'
    rcases bind_diverge h' with h' | ⟨l, -, h'⟩
    · exact h k (by simp) h'
    · rcases bind_diverge h' with h' | ⟨l, -, h'⟩
      · exact ih (fun x hx => h x (by simp [hx])) h'
      · cases h'

theorem histBuckets_ok' {fuel : Nat} (hfu : 258 ≤ fuel) {v : Int} {vs : List Int}
    (hf : ∀ x ∈ v :: vs, Fits x) (hm : ∀ x ∈ v :: vs, x ≤ 2 ^ 126) (hw : ∃ x ∈ v :: vs, x < 2 ^ 126) :
    ∃ bs, histBuckets fuel v vs = .ok bs := by
  have hmin := foldl_min_spec vs v
  have hmax := foldl_max_spec vs v
  obtain ⟨w, hw, hw'⟩ := hw
  have hlt : vs.foldl min v < 2 ^ 126 := by have := hmin.2 w hw; omega
  unfold histBuckets
  simp only [bind, Except.bind]
  obtain ⟨lo, h1, h2⟩ := previousPower2_ok _ (hf _ hmin.1) hlt fuel (by omega)
  rw [h1]
  simp only
  have hlo := floor_fits (hf _ hmin.1) h2
  apply bucketLoop_ok fuel (by omega) _ _ (hm _ hmax.1) fuel lo hlo h2.1
  rcases boundary_fits_cases h2.1 hlo with ⟨k, hk, e⟩ | e | ⟨k, hk, e⟩
  · exact .inl ⟨k, hk, e, by omega⟩
  · exact .inr (.inl ⟨e, by omega⟩)
  · exact .inr (.inr ⟨k, hk, e, by omega⟩)

theorem contiguous_le : ∀ (bs : List Bucket) (lo hi : Int), Contiguous lo hi bs → lo ≤ hi := by
  intro bs
  induction bs with
  | nil => intro lo hi h; simp only [Contiguous] at h; omega
  | cons b bs ih =>
    intro lo hi h
    obtain ⟨rfl, h2, h3⟩ := h
    have := ih _ _ h3
    have := h2.2.1
    omega

/-- the last of some contiguous buckets ends where they all end -/
theorem contiguous_last : ∀ (bs : List Bucket) (lo hi : Int), Contiguous lo hi bs → lo < hi → ∃ b ∈ bs, b.stop = hi := by
  intro bs
  induction bs with
  | nil => intro lo hi h hl; simp only [Contiguous] at h; omega
  | cons b bs ih =>
    intro lo hi h hl
    obtain ⟨rfl, h2, h3⟩ := h
    by_cases he : b.stop = hi
    · exact ⟨b, by simp, he⟩
    · have := contiguous_le _ _ _ h3
      obtain ⟨c, hc, hs⟩ := ih _ _ h3 (by omega)
      exact ⟨c, by simp [hc], hs⟩

/-- no label for `2^126` -/
theorem numBytes_big (b : Build) (fuel : Nat) {p : Int} (h : 2 ^ 126 ≤ p) :
    numBytesToPretty b fuel p = .error .diverge := by
  unfold numBytesToPretty
  rw [previousPower2_diverges p h fuel]
  rfl

theorem bucketLine_big (b : Build) (fuel total : Nat) {k : Bucket} (h : 2 ^ 126 ≤ k.stop) :
    ∀ l, bucketLine b fuel total k ≠ .ok l := by
  intro l hl
  unfold bucketLine at hl
  obtain ⟨s, -, hl⟩ := bind_ok hl
  rw [numBytes_big b fuel h] at hl
  cases hl

theorem bucketLines_inv (b : Build) (fuel total : Nat) : ∀ (bs : List Bucket) (t : Str),
    bucketLines b fuel total bs = .ok t → ∀ k ∈ bs, ∃ l, bucketLine b fuel total k = .ok l := by
  intro bs
  induction bs with
  | nil => intro t _ k hk; cases hk
  | cons k bs ih =>
    intro t h
    rw [bucketLines] at h
    obtain ⟨l, h1, h⟩ := bind_ok h
    obtain ⟨ls, h2, h⟩ := bind_ok h
    intro x hx
    rcases List.mem_cons.1 hx with rfl | hx
    · exact ⟨l, h1⟩
    · exact ih _ h2 x hx

theorem fits_boundary_ge {x : Int} (h : Fits x) (hb : Boundary x) (hl : 2 ^ 126 < x) : False := by
  rcases boundary_fits_cases hb h with ⟨k, hk, rfl⟩ | rfl | ⟨k, hk, rfl⟩
  · have := p2_pos k; omega
  · omega
  · have := p2_lt.1 hl; omega

theorem fits_boundary_gt {x : Int} (h : Fits x) (hb : Boundary x) (hl : 2 ^ 125 < x) : x = 2 ^ 126 := by
  rcases boundary_fits_cases hb h with ⟨k, hk, rfl⟩ | rfl | ⟨k, hk, rfl⟩
  · have := p2_pos k; omega
  · omega
  · have := p2_lt.1 hl
    rw [show k = 126 by omega]

/-- whatever the bound: a value above `2^125` keeps the diagram from being finished -/
theorem asHist_big (b : Build) (fuel : Nat) (vals : List Int) (hf : ∀ x ∈ vals, Fits x) {w : Int} (hw : w ∈ vals)
    (hbig : 2 ^ 125 < w) (t : Str) : asHist b fuel (vals.map Value.int) ≠ .ok t := by
  intro h
  cases vals with
  | nil => cases hw
  | cons v vs =>
    rw [asHist_ints] at h
    rcases histBuckets_only fuel v vs with ⟨bs, hbs⟩ | hbs
    · rw [hbs] at h
      obtain ⟨mn, mx, lo, hi, h1, h2, h3, h4, h5, h6, h7, h8⟩ := histBuckets_spec hf hbs
      have hmx := h2.2 w hw
      have hlo : lo < hi := by
        rcases Int.lt_or_le lo hi with h | h
        · exact h
        · exfalso
          have h9 : mx ≤ mn := by have := h3.2.1; omega
          have hlt : mn < 2 ^ 126 := by
            unfold histBuckets at hbs
            obtain ⟨q, hq, -⟩ := bind_ok hbs
            have := (previousPower2_floor (hf _ (foldl_min_spec vs v).1) hq).2
            rwa [min_unique (foldl_min_spec vs v) h1] at this
          have hfl := floor_fits (hf _ h1.1) h3
          have hge : 2 ^ 125 ≤ lo := h3.2.2 _ (boundary_pow 125) (by omega)
          have : lo = 2 ^ 125 ∨ 2 ^ 125 < lo := by omega
          rcases this with e | e
          · omega
          · have := fits_boundary_gt hfl h3.1 e
            have := h3.2.1
            omega
      obtain ⟨c, hc, rfl⟩ := contiguous_last bs lo hi h4 hlo
      obtain ⟨f1, f2, f3⟩ := h8 c hc
      obtain ⟨g1, g2, g3, g4⟩ := contiguous_bounds bs lo _ h4 c hc
      have := fits_boundary_gt f2 g4 (by omega)
      obtain ⟨l, hl⟩ := bucketLines_inv _ _ _ _ _ h c hc
      exact bucketLine_big b fuel _ (by omega) l hl
    · rw [hbs] at h; cases h

/-- a value above `2^126` keeps the buckets from being computed -/
theorem histBuckets_big (fuel : Nat) (v : Int) (vs : List Int) (hf : ∀ x ∈ v :: vs, Fits x) {w : Int} (hw : w ∈ v :: vs)
    (hbig : 2 ^ 126 < w) : histBuckets fuel v vs = .error .diverge := by
  rcases histBuckets_only fuel v vs with ⟨bs, hbs⟩ | hbs
  · exfalso
    obtain ⟨mn, mx, lo, hi, h1, h2, h3, h4, h5, h6, h7, h8⟩ := histBuckets_spec hf hbs
    have hmx := h2.2 w hw
    rcases Int.lt_or_le lo hi with h | h
    · obtain ⟨c, hc, rfl⟩ := contiguous_last bs lo hi h4 h
      obtain ⟨g1, g2, g3, g4⟩ := contiguous_bounds bs lo _ h4 c hc
      exact fits_boundary_ge (h8 c hc).2.1 g4 (by omega)
    · exact fits_boundary_ge (floor_fits (hf _ h1.1) h3) h3.1 (by omega)
  · exact hbs

/-- the first line of a diagram from the smallest integer on is refused in a build with overflow checks -/
theorem bucketLines_min (b : Build) (ho : b.ovfChecks = true) (fuel total : Nat) (hfu : 127 < fuel) {bs : List Bucket}
    {k : Bucket} (hk : k.start = -(2 ^ 127)) : bucketLines b fuel total (k :: bs) = .error .panic := by
  rw [bucketLines, bucketLine, hk]
  have : numBytesToPretty b fuel (-(2 ^ 127)) = .error .panic := by
    unfold numBytesToPretty
    obtain ⟨q, hq, -⟩ := previousPower2_ok (-(2 ^ 127)) (by decide) (by decide) fuel hfu
    have hb : Boundary (-(2 ^ 127)) := boundary_neg 127
    have := previousPower2_boundary hb (by decide) hq
    subst this
    rw [hq]
    have e1 : (-(2:Int) ^ 127 ≠ 0) := by decide
    have e2 : (-(2:Int) ^ 127 < 0) := by decide
    have e3 : (-(2:Int) ^ 127 = i128Min) := by decide
    simp only [bind, Except.bind, ne_eq, not_true_eq_false, if_false, if_neg e1, if_pos e2, negI128, if_pos e3, ho, if_true]
  rw [this]
  rfl

theorem diagram_iff (b : Build) (xs : List Value) (hf : ∀ i, Value.int i ∈ xs → Fits i) :
    (∀ n, asHist b n xs = .error .diverge) ↔
      ∃ vals : List Int, xs = vals.map Value.int ∧ ∃ v ∈ vals, 2 ^ 125 < v ∧
        (b.ovfChecks = true → 2 ^ 126 < v ∨ ∀ w ∈ vals, -(2 ^ 126) ≤ w) := by
  constructor
  · intro h
    rcases histInts_cases xs with ⟨vals, rfl⟩ | ⟨_, _, _, _, _, h'⟩
    · refine ⟨vals, rfl, ?_⟩
      cases vals with
      | nil => have := h 0; simp [asHist, histInts, bind, Except.bind] at this
      | cons v vs =>
        have hf' : ∀ x ∈ v :: vs, Fits x := fun x hx => hf x (List.mem_map.2 ⟨x, hx, rfl⟩)
        have h := h 258
        rw [asHist_ints] at h
        have hmax := foldl_max_spec vs v
        have hbig : 2 ^ 125 < vs.foldl max v := by
          refine Int.lt_of_not_ge fun hle => ?_
          obtain ⟨bs, hbs⟩ := histBuckets_ok (Nat.le_refl 258) hf' (fun x hx => by have := hmax.2 x hx; omega)
          rw [hbs] at h
          obtain ⟨mn, mx, lo, hi, h1, h2, h3, h4, h5, h6, h7, h8⟩ := histBuckets_spec hf' hbs
          refine bucketLines_ends b 258 _ bs (fun k hk => ?_) h
          obtain ⟨f1, f2, f3⟩ := h8 k hk
          obtain ⟨g1, g2, g3, g4⟩ := contiguous_bounds bs lo hi h4 k hk
          have hhi : hi ≤ 2 ^ 125 := by
            rcases h7 with rfl | h7
            · cases hk
            · exact h7.2.2 _ (boundary_pow 125) (by rw [max_unique h2 hmax]; exact hle)
          intro hd
          unfold bucketLine at hd
          rcases bind_diverge hd with hd | ⟨s, -, hd⟩
          · exact numBytes_ends b 258 (by decide) f1 (by omega) hd
          · rcases bind_diverge hd with hd | ⟨s, -, hd⟩
            · exact numBytes_ends b 258 (by decide) f2 (by omega) hd
            · cases hd
        refine ⟨_, hmax.1, hbig, fun ho => ?_⟩
        rcases Int.lt_or_le (2 ^ 126) (vs.foldl max v) with hgt | hle
        · exact .inl hgt
        · right
          intro w hw
          refine Int.le_of_not_gt fun hlt => ?_
          have c1 : -(2:Int) ^ 126 < 2 ^ 126 := by decide
          obtain ⟨bs, hbs⟩ := histBuckets_ok' (Nat.le_refl 258) hf' (fun x hx => by have := hmax.2 x hx; omega)
            ⟨w, hw, by omega⟩
          rw [hbs] at h
          obtain ⟨mn, mx, lo, hi, h1, h2, h3, h4, h5, h6, h7, h8⟩ := histBuckets_spec hf' hbs
          have hmn := h1.2 w hw
          have hlo : lo = -(2 ^ 127) := by
            refine floor_unique h3 (floor_neg (j := 127) (by have := (hf' _ h1.1).1; omega) (by omega) (.inr ?_))
            show mn < -(2 ^ 126)
            omega
          have hmx : mx = vs.foldl max v := max_unique h2 hmax
          cases bs with
          | nil => simp only [Contiguous] at h4; omega
          | cons k bs =>
            have hk : k.start = -(2 ^ 127) := by rw [h4.1, hlo]
            have h : bucketLines b 258 (v :: vs).length (k :: bs) = .error .diverge := h
            rw [bucketLines_min b ho 258 _ (by decide) hk] at h
            cases h
    · have := h 0
      unfold asHist at this
      rw [h'] at this
      cases this
  · rintro ⟨vals, rfl, w, hw, hbig, hd⟩ n
    have hf' : ∀ x ∈ vals, Fits x := fun x hx => hf x (List.mem_map.2 ⟨x, hx, rfl⟩)
    have key : 2 ^ 126 < w ∨ (b.ovfChecks = true → ∀ w ∈ vals, -(2 ^ 126) ≤ w) := by
      by_cases h : (2:Int) ^ 126 < w
      · exact .inl h
      · exact .inr fun ho => (hd ho).resolve_left h
    rcases key with h | h
    · cases vals with
      | nil => cases hw
      | cons v vs => rw [asHist_ints, histBuckets_big n v vs hf' hw h]
    · cases hr : asHist b n (vals.map Value.int) with
      | ok t => exact absurd hr (asHist_big b n vals hf' hw hbig t)
      | error f =>
        cases f with
        | diverge => rfl
        | panic =>
          refine absurd hr (C45_labels_never_panic b n _ hf fun ho i hi => ?_)
          obtain ⟨x, hx, he⟩ := List.mem_map.1 hi
          cases he
          exact h ho _ hx
        | err e =>
          exfalso
          cases vals with
          | nil => cases hw
          | cons v vs =>
            rw [asHist_ints] at hr
            rcases histBuckets_only n v vs with ⟨bs, hbs⟩ | hbs
            · rw [hbs] at hr
              obtain ⟨mn, mx, lo, hi, h1, h2, h3, h4, h5, h6, h7, h8⟩ := histBuckets_spec hf' hbs
              rcases bucketLines_only b n (v :: vs).length bs (fun k hk => by
                obtain ⟨f1, f2, f3⟩ := h8 k hk
                obtain ⟨g1, g2, g3, g4⟩ := contiguous_bounds bs lo hi h4 k hk
                have c1 : -(2:Int) ^ 127 < -(2 ^ 126) := by decide
                have hl : b.ovfChecks = true → -(2 ^ 126) ≤ lo :=
                  fun ho => h3.2.2 _ (boundary_neg 126) (h ho mn h1.1)
                refine bucketLine_only b n _ k f3 g4 f1 f2 ?_ ?_ <;> intro ho <;> have := hl ho <;>
                  simp only [i128Min] <;> omega) with ⟨t, ht⟩ | ht
              · simp only [ht] at hr; cases hr
              · simp only [ht] at hr; cases hr
            · rw [hbs] at hr; cases hr

/-! ### searches -/

/-- one search call is enough when nothing is bounded -/
theorem searchLoop_once_ends (k : Kernel) (fuel i : Nat) (a : SearchArgs) (ret : List Item) (c : Nat) :
    searchLoop k false (fuel + 1) i a ret c ≠ .error .diverge := by
  rw [searchLoop]
  cases k i a with
  | errno => exact fun h => by cases h
  | data nr buf =>
    cases hx : extractItems buf nr 0 ret c with
    | error e =>
      intro h
      simp only [hx, Except.error.injEq] at h
      subst h
      exact only_ends (only_extractItems errs_ends buf _ _ _ _) hx
    | ok r => simp [hx]

/-- a search that needs more calls than it is allowed was answered with items and asks again -/
theorem searchLoop_step {k : Kernel} {retry : Bool} {n i : Nat} {a : SearchArgs} {ret : List Item} {c : Nat}
    (h : searchLoop k retry (n + 1) i a ret c = .error .diverge) :
    retry = true ∧ ∃ nr buf o t f ret' c', k i a = .data nr buf ∧ 0 < nr ∧
      searchLoop k retry n (i + 1) { a with minObjectid := o, minType := t, minOffset := f } ret' c' = .error .diverge := by
  rw [searchLoop] at h
  cases hk : k i a with
  | errno => rw [hk] at h; cases h
  | data nr buf =>
    rw [hk] at h
    simp only at h
    cases hx : extractItems buf nr 0 ret c with
    | error e =>
      simp only [hx, Except.error.injEq] at h
      subst h
      exact absurd hx (only_ends (only_extractItems errs_ends buf _ _ _ _))
    | ok r =>
      obtain ⟨ret', c'⟩ := r
      simp only [hx] at h
      split at h
      · cases h
      · rename_i hc
        simp only [Bool.or_eq_true, Bool.not_eq_eq_eq_not, Bool.not_true, beq_iff_eq, not_or,
          Bool.not_eq_false] at hc
        refine ⟨hc.1, ?_⟩
        cases hl : largestKey ret' with
        | error e =>
          have hne := (extractItems_grows _ _ _ _ _ _ _ hx).2 hc.2
          cases ret' with
          | nil => exact absurd rfl hne
          | cons it its => cases hl
        | ok hd =>
          rw [hl] at h
          simp only at h
          split at h
          · split at h
            · exact ⟨nr, buf, _, _, _, ret', c', rfl, Nat.pos_of_ne_zero hc.2, h⟩
            · cases h
          · cases h

/-- calls of a search: this many more of them, each answered with items -/
theorem searchLoop_hangs (k : Kernel) (retry : Bool) : ∀ (n i : Nat) (a : SearchArgs) (ret : List Item) (c : Nat),
    searchLoop k retry n i a ret c = .error .diverge → ∀ j < n, ∃ nr buf o t f,
      k (i + j) { a with minObjectid := o, minType := t, minOffset := f } = .data nr buf ∧ 0 < nr := by
  intro n
  induction n with
  | zero => intro i a ret c _ j hj; omega
  | succ n ih =>
    intro i a ret c h j hj
    obtain ⟨-, nr, buf, o, t, f, ret', c', hk, hn, h⟩ := searchLoop_step h
    cases j with
    | zero => exact ⟨nr, buf, a.minObjectid, a.minType, a.minOffset, hk, hn⟩
    | succ j =>
      obtain ⟨nr, buf, o, t, f, hk, hn⟩ := ih _ _ _ _ h j (by omega)
      exact ⟨nr, buf, o, t, f, by rw [← hk]; congr 1; omega, hn⟩

/-- the search itself is what one waits for -/
theorem search_waits {cfg : Cfg} {fs : Option Fs} {tree : Int} {k : Value} (h : (waits cfg).search fs tree k) :
    ∃ kernel key sa, fs = some (.mounted kernel) ∧ k.asStruct = .ok key ∧ searchArgs tree key = .ok sa ∧
      ∀ n, searchLoop kernel true n 0 sa [] 0 = .error .diverge := by
  have key1 : ∀ n, ∃ f key sa, fs = some f ∧ k.asStruct = .ok key ∧ searchArgs tree key = .ok sa ∧
      f.search n sa = .error .diverge := by
    intro n
    have h : searchFn (cfg.steps n) fs [.ok (.int tree), .ok k] = .error .diverge := h n
    unfold searchFn at h
    rcases bind_diverge h with h | ⟨u, -, h⟩
    · cases h
    simp only at h
    rcases bind_diverge h with h | ⟨v, hv, h⟩
    · cases h
    rcases bind_diverge h with h | ⟨t, ht, h⟩
    · cases hv; cases h
    rcases bind_diverge h with h | ⟨v1, hv1, h⟩
    · cases h
    cases hv; cases ht; cases hv1
    rcases bind_diverge h with h | ⟨key, hkey, h⟩
    · cases k <;> cases h
    rcases bind_diverge h with h | ⟨u, -, h⟩
    · exact absurd h (only_ends (only_ensure errs_ends _ _ (by simp)))
    cases fs with
    | none => cases h
    | some f =>
      simp only at h
      rcases bind_diverge h with h | ⟨sa, hsa, h⟩
      · exact absurd h (only_ends (only_searchArgs errs_ends _ _))
      rcases bind_diverge h with h | ⟨items, hi, h⟩
      · exact ⟨f, key, sa, rfl, hkey, hsa, h⟩
      rcases bind_diverge h with h | ⟨vs, -, h⟩
      · exact absurd h (only_ends (only_decodeItems errs_ends _ (search_good hi)))
      · cases h
  obtain ⟨f, key, sa, rfl, hkey, hsa, h0⟩ := key1 0
  have key2 : ∀ n, f.search n sa = .error .diverge := by
    intro n
    obtain ⟨f', key', sa', hf', hkey', hsa', h'⟩ := key1 n
    cases hf'
    rw [hkey] at hkey'; cases hkey'
    rw [hsa] at hsa'; cases hsa'
    exact h'
  cases f with
  | unmounted img => have := key2 0; cases this
  | mounted kernel =>
    refine ⟨kernel, key, sa, rfl, hkey, hsa, ?_⟩
    have hb : Bounded sa := by
      refine Classical.byContradiction fun hb => ?_
      have := key2 1
      rw [search_unbounded 1 kernel sa hb] at this
      cases hl : searchLoop kernel false 1 0 sa [] 0 with
      | error e =>
        rw [hl] at this
        cases this
        exact searchLoop_once_ends kernel 0 0 sa [] 0 hl
      | ok r =>
        rw [hl] at this
        simp only at this
        split at this <;> cases this
    intro n
    have := key2 n
    rw [search_bounded n kernel sa hb] at this
    cases hl : searchLoop kernel true n 0 sa [] 0 with
    | error e => rw [hl] at this; cases this; rfl
    | ok r =>
      rw [hl] at this
      simp only at this
      split at this <;> cases this

/-- a kernel that keeps its promise ends the search -/
theorem searchLoop_honest {k : Kernel} {trees : Trees} (hk : Honours k trees) (hw : WellOrdered trees) :
    ∀ (fuel i : Nat) (args : SearchArgs) (p rest : List Item) (c : Nat), matching trees args = rest →
    (p ++ rest).Pairwise (fun a b => KeyLt (keyOf a) (keyOf b)) → rest.length < fuel →
    searchLoop k true fuel i args p c ≠ .error .diverge := by
  intro fuel
  induction fuel with
  | zero => intro i args p rest c _ _ h; omega
  | succ fuel ih =>
    intro i args p rest c hm hs hl
    rcases searchLoop_honoured hk hw fuel i args p rest c hm hs with ⟨rfl, h⟩ | ⟨q, x, rest', rfl, h⟩
    · rw [h]; intro h; cases h
    · rcases h with ⟨-, args', h1, h2⟩ | ⟨h1, h2⟩
      · rw [h2]
        exact ih (i + 1) args' (p ++ (q ++ [x])) rest' c h1 (by simpa using hs) (by simp at hl; omega)
      · rw [h2]; intro h; cases h

end Btrd
