/-
C43-C45: histograms.
-/
import Verif.Lemmas.HistText
import Verif.Lemmas.Display

namespace Btrd
open Spec

/-! ### C44: rounding to powers of two -/

/-- C44, below `2^126`: rounding down terminates and gives the greatest boundary (zero or a positive or
negative power of two) not above the number. Missing: numbers from `2^126` on, for which the property is
false (`C44_rounding_diverges`). -/
theorem C44_round_down_partial (x : Int) (hx : Fits x) (h : x < 2 ^ 126) :
    ∃ p, IsFloor x p ∧ ∀ fuel, 128 ≤ fuel → previousPower2 fuel x = .ok p := by
  obtain ⟨p, h1, h2⟩ := previousPower2_ok x hx h 128 (by decide)
  exact ⟨p, h2, fun fuel hf => previousPower2_mono h1 hf⟩

/-- C44, below `2^126`: rounding up terminates and gives the least boundary strictly above the number. -/
theorem C44_round_up_partial (x : Int) (hx : Fits x) (h : x < 2 ^ 126) :
    ∃ p, IsNext x p ∧ ∀ fuel, 128 ≤ fuel → nextPower2 fuel x = .ok p := by
  obtain ⟨p, h1, h2⟩ := nextPower2_ok x hx h 128 (by decide)
  exact ⟨p, h2, fun fuel hf => nextPower2_mono h1 hf⟩

/-- C44: for every 128-bit number, if rounding returns at all, then it returns the right boundary. -/
theorem C44_rounding_exact (x p : Int) (hx : Fits x) (fuel : Nat) :
    (previousPower2 fuel x = .ok p → IsFloor x p) ∧ (nextPower2 fuel x = .ok p → IsNext x p) :=
  ⟨fun h => (previousPower2_floor hx h).1, fun h => (nextPower2_next hx h).1⟩

/-- C44 is false: from `2^126` on, neither rounding ever returns. -/
theorem C44_rounding_diverges (x : Int) (h : 2 ^ 126 ≤ x) (fuel : Nat) :
    previousPower2 fuel x = .error .diverge ∧ nextPower2 fuel x = .error .diverge :=
  ⟨previousPower2_diverges x h fuel, nextPower2_diverges x h fuel⟩

/-- such numbers are 128-bit integers -/
example : Fits (2 ^ 126) ∧ ¬ ((2:Int) ^ 126 < 2 ^ 126) := by decide

example : IsFloor 1000 512 ∧ IsNext 1000 1024 ∧ IsFloor (-1000) (-1024) ∧ IsNext (-1000) (-512) :=
  ⟨floor_pos (j := 9) (by decide) (by decide), next_pos (j := 9) (by decide) (by decide),
    floor_neg (j := 10) (by decide) (by decide) (by decide), next_neg (j := 9) (by decide) (by decide)⟩

/-! ### C43: buckets -/

/-- C43, the buckets: they lie side by side between neighbouring boundaries, starting at the greatest
boundary not above the smallest value; each holds the number of values in its range; a value is in exactly
one bucket, unless it is the largest value and a boundary, in which case it is in none. -/
theorem C43_buckets (fuel : Nat) (v : Int) (vs : List Int) (bs : List Bucket) (hf : ∀ x ∈ v :: vs, Fits x)
    (h : histBuckets fuel v vs = .ok bs) :
    ∃ mn mx lo hi, IsMin mn (v :: vs) ∧ IsMax mx (v :: vs) ∧ IsFloor mn lo ∧ Contiguous lo hi bs ∧
      (∀ b ∈ bs, b.count = howMany (v :: vs) fun x => decide (b.start ≤ x ∧ x < b.stop)) ∧
      ∀ x ∈ v :: vs,
        (x = mx ∧ Boundary mx → ∀ b ∈ bs, ¬ (b.start ≤ x ∧ x < b.stop)) ∧
        (¬ (x = mx ∧ Boundary mx) → ∃ pre b post, bs = pre ++ b :: post ∧ b.start ≤ x ∧ x < b.stop ∧
          ∀ c ∈ pre ++ post, ¬ (c.start ≤ x ∧ x < c.stop)) := by
  obtain ⟨mn, mx, lo, hi, h1, h2, h3, h4, h5, h6, h7, h8⟩ := histBuckets_spec hf h
  refine ⟨mn, mx, lo, hi, h1, h2, h3, h4, h5, ?_⟩
  intro x hx
  have hlo : lo ≤ x := Int.le_trans h3.2.1 (h1.2 x hx)
  have hxm := h2.2 x hx
  constructor
  · intro hc
    obtain ⟨rfl, hb⟩ := hc
    intro b hb'
    have hb1 := contiguous_bounds bs lo hi h4 b hb'
    rcases h7 with rfl | h7
    · simp at hb'
    · have := h7.2.2 x hb (Int.le_refl _)
      omega
  · intro hc
    apply contiguous_unique bs lo hi h4 x hlo
    rcases Int.lt_or_le x hi with hlt | hle
    · exact hlt
    · exfalso
      apply hc
      have hxe : x = mx := by omega
      refine ⟨hxe, ?_⟩
      have hme : mx = hi := by omega
      rcases h7 with rfl | h7
      · simp only [Contiguous] at h4
        rw [hme, ← h4]; exact h3.1
      · rw [hme]; exact h7.1

/-- C43, when the largest value is not a boundary: the counts add up to the number of values. Missing: a
largest value that is a boundary is not counted (`C43_maximum_not_counted`). -/
theorem C43_all_counted_partial (fuel : Nat) (v : Int) (vs : List Int) (bs : List Bucket)
    (hf : ∀ x ∈ v :: vs, Fits x) (h : histBuckets fuel v vs = .ok bs) (mx : Int) (hm : IsMax mx (v :: vs))
    (hb : ¬ Boundary mx) : (bs.map (·.count)).sum = (v :: vs).length := by
  obtain ⟨mn, mx', lo, hi, h1, h2, h3, h4, h5, h6, h7, h8⟩ := histBuckets_spec hf h
  have := max_unique hm h2
  subst this
  rw [(contiguous_count _ bs lo hi h4 h5).2, howMany, List.filter_eq_self.2]
  intro x hx
  have hlo : lo ≤ x := Int.le_trans h3.2.1 (h1.2 x hx)
  have hxm := h2.2 x hx
  have : mx ≠ hi := by
    rintro rfl
    apply hb
    rcases h7 with rfl | h7
    · simp only [Contiguous] at h4; rw [← h4]; exact h3.1
    · exact h7.1
  rw [decide_eq_true_eq]
  omega

/-- C43 is false: whenever the largest value is a power of two (or zero, or the negative of one), the counts
leave out every occurrence of it. -/
theorem C43_maximum_not_counted (fuel : Nat) (v : Int) (vs : List Int) (bs : List Bucket)
    (hf : ∀ x ∈ v :: vs, Fits x) (h : histBuckets fuel v vs = .ok bs) (mx : Int) (hm : IsMax mx (v :: vs))
    (hb : Boundary mx) : (bs.map (·.count)).sum = howMany (v :: vs) (fun x => decide (x < mx)) ∧
      (bs.map (·.count)).sum < (v :: vs).length := by
  obtain ⟨mn, mx', lo, hi, h1, h2, h3, h4, h5, h6, h7, h8⟩ := histBuckets_spec hf h
  have := max_unique hm h2
  subst this
  have hle : hi ≤ mx := by
    rcases h7 with rfl | h7
    · simp only [Contiguous] at h4
      have := h3.2.1
      have := h1.2 mx h2.1
      omega
    · exact h7.2.2 mx hb (Int.le_refl _)
  have e : hi = mx := by omega
  subst e
  have hs : (bs.map (·.count)).sum = howMany (v :: vs) (fun x => decide (x < hi)) := by
    rw [(contiguous_count _ bs lo hi h4 h5).2]
    simp only [howMany]
    congr 1
    apply List.filter_congr
    intro x hx
    have hlo : lo ≤ x := Int.le_trans h3.2.1 (h1.2 x hx)
    simp [hlo]
  refine ⟨hs, ?_⟩
  rw [hs, howMany]
  rcases Nat.lt_or_ge ((v :: vs).filter fun x => decide (x < hi)).length (v :: vs).length with h | h
  · exact h
  · exfalso
    have := List.filter_eq_self.1 (List.filter_sublist.eq_of_length_le h) hi h2.1
    simp at this

/-- the smallest case: one value, no bucket -/
example : histBuckets 300 4 [] = .ok [] := by rfl
/-- and one with a value that is counted -/
example : histBuckets 300 1 [2] = .ok [⟨1, 2, 1⟩] := by rfl
/-- and one where all are counted -/
example : histBuckets 300 (-3) [5, 0, 5] =
    .ok [⟨-4, -2, 1⟩, ⟨-2, -1, 0⟩, ⟨-1, 0, 0⟩, ⟨0, 1, 1⟩, ⟨1, 2, 0⟩, ⟨2, 4, 0⟩, ⟨4, 8, 2⟩] := by rfl
example : ¬ Boundary 5 := by
  rintro (h | ⟨k, h | h⟩)
  · omega
  · rcases Nat.lt_or_ge k 3 with hk | hk
    · have : k = 0 ∨ k = 1 ∨ k = 2 := by omega
      rcases this with rfl | rfl | rfl <;> simp at h
    · have := p2_le.2 hk; omega
  · have := p2_pos k; omega

/-- C43, C45: what `print` does with a histogram of at least one integer between `-2^126` and `2^125`, to a sink that
accepts everything: one line per bucket, and a line feed. -/
theorem C43_print_histogram (cfg : Cfg) (st : State) (e : Expr) (v : Int) (vs : List Int)
    (h : evalExpr cfg st e = .ok (.array ((v :: vs).map Value.int) true))
    (hlo : ∀ x ∈ v :: vs, -(2 ^ 126) ≤ x) (hhi : ∀ x ∈ v :: vs, x ≤ 2 ^ 125)
    (hr : st.sink.room = none) (hfu : 258 ≤ cfg.fuel) :
    ∃ bs ls, histBuckets cfg.fuel v vs = .ok bs ∧ List.Forall₂ (IsLine (v :: vs).length) bs ls ∧
      (evalStmt cfg (.print e) st).2 = .ok ∧
      (evalStmt cfg (.print e) st).1.sink.out = st.sink.out ++ ls.flatten ++ ['\n'] := by
  have c1 : -(2:Int) ^ 127 < -(2 ^ 126) := by decide
  have c2 : (2:Int) ^ 125 < 2 ^ 126 := p2_lt.2 (by decide)
  have c3 : (2:Int) ^ 126 < 2 ^ 127 := p2_lt.2 (by decide)
  have hf : ∀ x ∈ v :: vs, Fits x := fun x hx => ⟨by have := hlo x hx; omega, by have := hhi x hx; omega⟩
  obtain ⟨bs, hbs⟩ := histBuckets_ok hfu hf (fun x hx => by have := hhi x hx; omega)
  obtain ⟨mn, mx, lo, hi, h1, h2, h3, h4, h5, h6, h7, h8⟩ := histBuckets_spec hf hbs
  have hlo' : -(2 ^ 126) ≤ lo := h3.2.2 _ (boundary_neg 126) (hlo mn h1.1)
  have hbound : ∀ b ∈ bs, Boundary b.start ∧ Boundary b.stop ∧ Fits b.start ∧ Fits b.stop ∧ b.start ≠ i128Min ∧
      b.stop ≠ i128Min ∧ b.start < 2 ^ 126 ∧ b.stop < 2 ^ 126 := by
    intro b hb
    obtain ⟨g1, g2, g3, g4⟩ := contiguous_bounds bs lo hi h4 b hb
    obtain ⟨f1, f2, f3⟩ := h8 b hb
    have hhi' : hi ≤ 2 ^ 125 := by
      rcases h7 with rfl | h7
      · simp at hb
      · exact h7.2.2 _ (boundary_pow 125) (hhi mx h2.1)
    refine ⟨f3, g4, f1, f2, ?_, ?_, by omega, by omega⟩ <;> simp only [i128Min] <;> omega
  obtain ⟨t, ht⟩ := bucketLines_ok cfg.build cfg.fuel (v :: vs).length bs (fun k hk => by
    obtain ⟨g1, g2, g3, g4, g5, g6, g7, g8⟩ := hbound k hk
    exact bucketLine_ok _ _ _ (by omega) k g1 g2 g3 g4 g5 g6 g7 g8)
  obtain ⟨ls, e1, e2⟩ := bucketLines_spec _ _ _ bs t ht
  refine ⟨bs, ls, hbs, ?_, ?_⟩
  · clear ht e1 hbs h7 h8 h4
    induction e2 with
    | nil => exact .nil
    | @cons k l bs ls hkl _ ih =>
      refine .cons ?_ (ih (fun b hb => h5 b (by simp [hb])) (fun b hb => hbound b (by simp [hb])))
      obtain ⟨g1, g2, g3, g4, g5, g6, g7, g8⟩ := hbound k (by simp)
      exact bucketLine_isLine _ _ _ (by simp) k (by rw [h5 k (by simp)]; exact howMany_le _ _) g1 g2 g3 g4 g5 g6 hkl
  · have hp : printText cfg (.array ((v :: vs).map Value.int) true) = .ok t := by
      simp only [printText]
      rw [asHist_ints, hbs]
      exact ht
    rw [evalStmt, evalPrint, h]
    simp only [hp, State.write, Sink.write, hr]
    rw [e1]
    simp

/-- C43: printing an empty histogram prints an empty line. -/
theorem C43_print_empty (cfg : Cfg) (st : State) (e : Expr) (h : evalExpr cfg st e = .ok (.array [] true))
    (hr : st.sink.room = none) : (evalStmt cfg (.print e) st).2 = .ok ∧
      (evalStmt cfg (.print e) st).1.sink.out = st.sink.out ++ ['\n'] := by
  rw [evalStmt, evalPrint, h]
  simp only [printText, asHist, histInts, bind, Except.bind, State.write, Sink.write, hr]
  simp

/-- `hist() + 4` prints an empty line: the value 4 is not shown at all. -/
theorem C43_every_value_shown_false (cfg : Cfg) (st : State) (e : Expr)
    (h : evalExpr cfg st e = .ok (.array [.int 4] true)) (hr : st.sink.room = none) (hfu : 258 ≤ cfg.fuel) :
    (evalStmt cfg (.print e) st).1.sink.out = st.sink.out ++ ['\n'] := by
  obtain ⟨bs, ls, h1, h2, -, h3⟩ := C43_print_histogram cfg st e 4 [] h (by decide) (by decide) hr hfu
  have hm := C43_maximum_not_counted cfg.fuel 4 [] bs (by decide) h1 4 (by simp [IsMax])
    (by have := boundary_pow 2; simpa using this)
  have hbs : bs = [] := by
    unfold histBuckets at h1
    simp only [bind, Except.bind, List.foldl_nil] at h1
    cases hp : previousPower2 cfg.fuel 4 with
    | error e => rw [hp] at h1; cases h1
    | ok q =>
      rw [hp] at h1
      have : q = 4 := previousPower2_boundary (by have := boundary_pow 2; simpa using this) (by decide) hp
      subst this
      simp only at h1
      obtain ⟨n, hn⟩ : ∃ n, cfg.fuel = n + 1 := ⟨cfg.fuel - 1, by omega⟩
      rw [hn, bucketLoop] at h1
      simpa using h1.symm
  subst hbs
  cases h2
  simpa using h3

/-- the hypothesis is met by the expression `hist() + 4` in every state with the built-in `hist` -/
example (cfg : Cfg) (st : State) (h : st.vars.get s!' "hist" = some (.func .hist)) :
    evalExpr cfg st (.bin .plus (.call (.ident s!' "hist") []) (.int 4)) = .ok (.array [.int 4] true) := by
  simp [evalExpr, evalArgs, h, orErr, callFn, Value.asFunction, histFn, ensure, bind, Except.bind, binop, plusOp]

/-! ### C45: bars and labels -/

/-- C45: every bar is at most 50 characters wide. -/
theorem C45_bar_width (b : Build) (fuel : Nat) (v : Int) (vs : List Int) (bs : List Bucket)
    (hf : ∀ x ∈ v :: vs, Fits x) (h : histBuckets fuel v vs = .ok bs) :
    ∀ k ∈ bs, k.count * 50 / (v :: vs).length ≤ 50 ∧
      ∀ l, bucketLine b fuel (v :: vs).length k = .ok l → ∃ head, l = head ++ s!' " |" ++
        column 50 (List.replicate (k.count * 50 / (v :: vs).length) '@') ++ s!' "|\n" := by
  intro k hk
  obtain ⟨mn, mx, lo, hi, h1, h2, h3, h4, h5, h6, h7, h8⟩ := histBuckets_spec hf h
  have hc : k.count ≤ (v :: vs).length := by rw [h5 k hk]; exact howMany_le _ _
  refine ⟨?_, ?_⟩
  · exact Nat.div_le_of_le_mul (Nat.le_trans (Nat.mul_le_mul_right 50 hc) (by rw [Nat.mul_comm]; exact Nat.le_refl _))
  · intro l hl
    unfold bucketLine at hl
    simp only [bind, Except.bind] at hl
    cases hs : numBytesToPretty b fuel k.start with
    | error e => rw [hs] at hl; cases hl
    | ok s =>
      cases he : numBytesToPretty b fuel k.stop with
      | error e => rw [hs, he] at hl; cases hl
      | ok e =>
        rw [hs, he] at hl
        simp only [Except.ok.injEq] at hl
        exact ⟨_, hl.symm⟩

/-- C45: printing a histogram of any values never panics: the power-of-two assertion is never tripped. In
a build with overflow checks this needs values of at least `-2^126`. -/
theorem C45_labels_never_panic (b : Build) (fuel : Nat) (vec : List Value)
    (hf : ∀ i, Value.int i ∈ vec → Fits i) (hb : b.ovfChecks = true → ∀ i, Value.int i ∈ vec → -(2 ^ 126) ≤ i) :
    asHist b fuel vec ≠ .error .panic := by
  intro hp
  rcases histInts_cases vec with ⟨vals, rfl⟩ | ⟨_, _, _, _, _, h⟩
  · cases vals with
    | nil => simp [asHist, histInts, bind, Except.bind] at hp
    | cons v vs =>
      have hf' : ∀ x ∈ v :: vs, Fits x := fun x hx => hf x (List.mem_map.2 ⟨x, hx, rfl⟩)
      have hb' : b.ovfChecks = true → ∀ x ∈ v :: vs, -(2 ^ 126) ≤ x :=
        fun ho x hx => hb ho x (List.mem_map.2 ⟨x, hx, rfl⟩)
      rw [asHist_ints] at hp
      rcases histBuckets_only fuel v vs with ⟨bs, hbs⟩ | hbs
      · rw [hbs] at hp
        obtain ⟨mn, mx, lo, hi, h1, h2, h3, h4, h5, h6, h7, h8⟩ := histBuckets_spec hf' hbs
        rcases bucketLines_only b fuel (v :: vs).length bs (fun k hk => by
          obtain ⟨f1, f2, f3⟩ := h8 k hk
          obtain ⟨g1, g2, g3, g4⟩ := contiguous_bounds bs lo hi h4 k hk
          have c1 : -(2:Int) ^ 127 < -(2 ^ 126) := by decide
          have hl : b.ovfChecks = true → -(2 ^ 126) ≤ lo :=
            fun ho => h3.2.2 _ (boundary_neg 126) (hb' ho mn h1.1)
          refine bucketLine_only b fuel _ k f3 g4 f1 f2 ?_ ?_ <;> intro ho <;> have := hl ho <;>
            simp only [i128Min] <;> omega) with ⟨t, ht⟩ | ht
        · simp only [ht] at hp; cases hp
        · simp only [ht] at hp; cases hp
      · rw [hbs] at hp; cases hp
  · unfold asHist at hp
    rw [h] at hp
    cases hp

set_option maxRecDepth 100000 in
/-- In a debug build the smallest 128-bit integer does trip an overflow check. -/
theorem C45_debug_min_panics : asHist ⟨true⟩ 300 [.int (-(2 ^ 127)), .int 0] = .error .panic := by rfl

/-- C45: labels are as documented (`1K` for 1024 and so on), for every boundary a bucket can have, except
the smallest 128-bit integer. -/
theorem C45_labels (b : Build) (fuel : Nat) (p : Int) (hp : Boundary p) (hf : Fits p) (hm : p ≠ -(2 ^ 127))
    (h : p < 2 ^ 126) (hfu : 128 ≤ fuel) : ∃ t, numBytesToPretty b fuel p = .ok t ∧ IsLabel p t := by
  obtain ⟨t, ht⟩ := numBytes_ok b fuel (by omega) hp hf hm h
  exact ⟨t, ht, numBytes_label b fuel hp hf hm ht⟩

/-- some labels -/
example : IsLabel 1024 s!' "1K" ∧ IsLabel (-2 ^ 33) s!' "-8G" :=
  ⟨.inr (.inl ⟨10, rfl, by rfl⟩), .inr (.inr ⟨33, rfl, by rfl⟩)⟩

end Btrd
