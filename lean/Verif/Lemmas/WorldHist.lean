/-
Histogram diagrams against the rules of `Spec/World`.
-/
import Verif.Lemmas.HistText
import Verif.Lemmas.Complaints
import Verif.Spec.World

namespace Btrd
open Spec

theorem powText_inj {a b : Nat} {s t : Str} (h : (2:Int) ^ a = 2 ^ b) (hs : s = powText a) (ht : t = powText b) : s = t := by
  rw [hs, ht, p2_inj h]

theorem label_unique {p : Int} {s t : Str} (h : IsLabel p s) (h' : IsLabel p t) : s = t := by
  rcases h with ⟨rfl, rfl⟩ | ⟨k, rfl, rfl⟩ | ⟨k, rfl, rfl⟩ <;>
    rcases h' with ⟨e, rfl⟩ | ⟨j, e, rfl⟩ | ⟨j, e, rfl⟩
  · rfl
  · have := p2_pos j; omega
  · have := p2_pos j; omega
  · have := p2_pos k; omega
  · rw [p2_inj e]
  · have := p2_pos k; have := p2_pos j; omega
  · have := p2_pos k; omega
  · have := p2_pos k; have := p2_pos j; omega
  · rw [p2_inj (by omega : (2:Int) ^ k = 2 ^ j)]

theorem smallest_label : numBytesToPretty ⟨false⟩ 128 (-(2 ^ 127)) = .ok s!' "--154742504910672534362390528T" := by
  with_unfolding_all rfl

theorem smallest_label_debug : numBytesToPretty ⟨true⟩ 128 (-(2 ^ 127)) = .error .panic := by
  with_unfolding_all rfl

theorem numBytes_mono (b : Build) {f g : Nat} {p : Int} {t : Str} (h : numBytesToPretty b f p = .ok t) (hg : f ≤ g) :
    numBytesToPretty b g p = .ok t := by
  unfold numBytesToPretty at h ⊢
  simp only [bind, Except.bind] at h ⊢
  cases hp : previousPower2 f p with
  | error e => rw [hp] at h; cases h
  | ok q =>
    rw [hp] at h
    rw [previousPower2_mono hp hg]
    exact h

theorem numBytes_panic_mono (b : Build) {f g : Nat} {p : Int} (h : numBytesToPretty b f p = .error .panic) (hg : f ≤ g) :
    numBytesToPretty b g p = .error .panic := by
  unfold numBytesToPretty at h ⊢
  simp only [bind, Except.bind] at h ⊢
  rcases previousPower2_only f p with ⟨q, hp⟩ | hp
  · rw [hp] at h
    rw [previousPower2_mono hp hg]
    exact h
  · rw [hp] at h; cases h

/-- labels, for every boundary and with any number of steps that suffices -/
theorem label_iff (b : Build) {f : Nat} (hf : 128 ≤ f) {p : Int} (hp : Boundary p) (hfit : Fits p) (hlt : p < 2 ^ 126) (t : Str) :
    numBytesToPretty b f p = .ok t ↔ LabelIn (b.ovfChecks = false) p t := by
  by_cases hm : p = -(2 ^ 127)
  · subst hm
    obtain ⟨o⟩ := b
    cases o with
    | false =>
      rw [numBytes_mono _ smallest_label hf]
      constructor
      · intro h; cases h; exact .inr ⟨rfl, rfl, rfl⟩
      · rintro (⟨h, -⟩ | ⟨-, -, rfl⟩)
        · exact absurd rfl h
        · rfl
    | true =>
      rw [numBytes_panic_mono _ smallest_label_debug hf]
      constructor
      · intro h; cases h
      · rintro (⟨h, -⟩ | ⟨h, -⟩)
        · exact absurd rfl h
        · cases h
  · have hm' : p ≠ i128Min := hm
    obtain ⟨s, hs⟩ := numBytes_ok b f (by omega) hp hfit hm' hlt
    have hl := numBytes_label b f hp hfit hm' hs
    rw [hs]
    constructor
    · intro h; cases h; exact .inl ⟨hm, hl⟩
    · rintro (⟨-, h⟩ | ⟨-, h, -⟩)
      · rw [label_unique hl h]
      · exact absurd h hm

theorem bar_iff {c total n : Nat} (ht : 0 < total) : (n * total ≤ c * 50 ∧ c * 50 < (n + 1) * total) ↔ n = c * 50 / total := by
  constructor
  · rintro ⟨h1, h2⟩
    have a1 := (Nat.le_div_iff_mul_le ht).2 h1
    have a2 := (Nat.div_lt_iff_lt_mul ht).2 h2
    omega
  · rintro rfl
    refine ⟨Nat.div_mul_le_self _ _, ?_⟩
    have := Nat.lt_div_mul_add (a := c * 50) ht
    rw [Nat.add_mul, Nat.one_mul]
    exact this

theorem line_iff (b : Build) {f : Nat} (hf : 128 ≤ f) {total : Nat} (ht : 0 < total) (k : Bucket)
    (h1 : Boundary k.start) (h2 : Boundary k.stop) (f1 : Fits k.start) (f2 : Fits k.stop)
    (l1 : k.start < 2 ^ 126) (l2 : k.stop < 2 ^ 126) (l : Str) :
    bucketLine b f total k = .ok l ↔ LineIn (b.ovfChecks = false) total k l := by
  constructor
  · intro h
    obtain ⟨s, hs, h⟩ := bind_ok h
    obtain ⟨e, he, h⟩ := bind_ok h
    cases h
    obtain ⟨b1, b2⟩ := (bar_iff (c := k.count) ht).2 rfl
    refine ⟨s, e, k.count * 50 / total, (label_iff b hf h1 f1 l1 s).1 hs, (label_iff b hf h2 f2 l2 e).1 he, b1, b2, ?_⟩
    rw [numeral_nat]
    rfl
  · rintro ⟨s, e, n, hs, he, b1, b2, rfl⟩
    have := (bar_iff ht).1 ⟨b1, b2⟩
    subst this
    rw [bucketLine, (label_iff b hf h1 f1 l1 s).2 hs]
    simp only [bind, Except.bind]
    rw [(label_iff b hf h2 f2 l2 e).2 he, numeral_nat]
    rfl

theorem contiguous_le : ∀ {bs : List Bucket} {lo hi : Int}, Contiguous lo hi bs → lo ≤ hi := by
  intro bs
  induction bs with
  | nil => intro lo hi h; simp only [Contiguous] at h; omega
  | cons d bs ih =>
    intro lo hi h
    obtain ⟨rfl, h2, h3⟩ := h
    have := ih h3
    have := h2.2.1
    omega

theorem contiguous_det (c : Int → Int → Nat) : ∀ {bs bs' : List Bucket} {lo hi : Int}, Contiguous lo hi bs → Contiguous lo hi bs' →
    (∀ b ∈ bs, b.count = c b.start b.stop) → (∀ b ∈ bs', b.count = c b.start b.stop) → bs = bs' := by
  intro bs
  induction bs with
  | nil =>
    intro bs' lo hi h h' _ _
    simp only [Contiguous] at h
    cases bs' with
    | nil => rfl
    | cons d bs' =>
      obtain ⟨h1, h2, h3⟩ := h'
      have := contiguous_le h3
      have := h2.2.1
      omega
  | cons d bs ih =>
    intro bs' lo hi h h' hc hc'
    obtain ⟨h1, h2, h3⟩ := h
    cases bs' with
    | nil =>
      simp only [Contiguous] at h'
      have := contiguous_le h3
      have := h2.2.1
      omega
    | cons d' bs' =>
      obtain ⟨h1', h2', h3'⟩ := h'
      have e1 : d.start = d'.start := by rw [h1, h1']
      have e2 : d.stop = d'.stop := next_unique h2 (by rw [e1]; exact h2')
      have e3 : d.count = d'.count := by rw [hc d (by simp), hc' d' (by simp), e1, e2]
      have : d = d' := by cases d; cases d'; simp_all
      subst this
      rw [ih h3 h3' (fun b hb => hc b (by simp [hb])) (fun b hb => hc' b (by simp [hb]))]

theorem ceil_unique {x p q : Int} (hp : IsCeil x p) (hq : IsCeil x q) : p = q := by
  have h1 := hp.2.2 q hq.1 hq.2.1
  have h2 := hq.2.2 p hp.1 hp.2.1
  omega

theorem buckets_unique {vals : List Int} {bs bs' : List Bucket} (h : BucketsOf vals bs) (h' : BucketsOf vals bs') : bs = bs' := by
  obtain ⟨h1, h2, h3, h4, h5, h6⟩ := h
  obtain ⟨g1, g2, g3, g4, g5, g6⟩ := h'
  have := min_unique h1 g1
  subst this
  have := max_unique h2 g2
  subst this
  have := floor_unique h3 g3
  subst this
  have := ceil_unique h4 g4
  subst this
  exact contiguous_det (fun s e => howMany vals fun x => decide (s ≤ x ∧ x < e)) h5 g5 h6 g6

theorem buckets_of {fuel : Nat} {v : Int} {vs : List Int} {bs : List Bucket} (hf : ∀ x ∈ v :: vs, Fits x)
    (h : histBuckets fuel v vs = .ok bs) :
    BucketsOf (v :: vs) bs ∧ ∀ b ∈ bs, Fits b.start ∧ Fits b.stop ∧ Boundary b.start ∧ Boundary b.stop ∧ b.start < b.stop := by
  obtain ⟨mn, mx, lo, hi, h1, h2, h3, h4, h5, h6, h7, h8⟩ := histBuckets_spec hf h
  have hc : IsCeil mx hi := by
    rcases h7 with rfl | h7
    · simp only [Contiguous] at h4
      subst h4
      have a1 := h3.2.1
      have a2 := h1.2 mx h2.1
      have : mx = lo := by omega
      subst this
      exact ⟨h3.1, Int.le_refl _, fun q _ hq => hq⟩
    · exact h7
  refine ⟨.mk h1 h2 h3 hc h4 h5, ?_⟩
  intro b hb
  obtain ⟨g1, g2, g3⟩ := h8 b hb
  obtain ⟨_, _, g4, g5⟩ := contiguous_bounds bs lo hi h4 b hb
  exact ⟨g1, g2, g3, g5, g4⟩

theorem bucketLines_iff (b : Build) (fuel total : Nat) : ∀ (bs : List Bucket) (t : Str),
    bucketLines b fuel total bs = .ok t ↔
      ∃ ls, t = ls.flatten ∧ List.Forall₂ (fun k l => bucketLine b fuel total k = .ok l) bs ls := by
  intro bs
  induction bs with
  | nil =>
    intro t
    constructor
    · intro h; cases h; exact ⟨[], rfl, .nil⟩
    · rintro ⟨ls, rfl, h⟩; cases h; rfl
  | cons k bs ih =>
    intro t
    constructor
    · exact bucketLines_spec b fuel total _ t
    · rintro ⟨ls, rfl, h⟩
      cases h with
      | @cons _ l _ ls h1 h2 =>
        have := (ih _).2 ⟨ls, rfl, h2⟩
        rw [bucketLines, h1, this]
        rfl

theorem forall₂_congr {α β : Type} {P Q : α → β → Prop} : ∀ {xs : List α} {ys : List β},
    (∀ x ∈ xs, ∀ y, P x y → Q x y) → List.Forall₂ P xs ys → List.Forall₂ Q xs ys := by
  intro xs
  induction xs with
  | nil => intro ys _ h; cases h; exact .nil
  | cons x xs ih =>
    intro ys hc h
    cases h with
    | cons h1 h2 => exact .cons (hc x (by simp) _ h1) (ih (fun z hz => hc z (by simp [hz])) h2)

theorem forall₂_each {α β : Type} {P : α → β → Prop} : ∀ {xs : List α} {ys : List β},
    List.Forall₂ P xs ys → ∀ x ∈ xs, ∃ y, P x y := by
  intro xs
  induction xs with
  | nil => intro ys _ x h; simp at h
  | cons x xs ih =>
    intro ys h z hz
    cases h with
    | cons h1 h2 =>
      rcases List.mem_cons.1 hz with rfl | hz
      · exact ⟨_, h1⟩
      · exact ih h2 z hz

theorem numBytes_big (b : Build) (fuel : Nat) {p : Int} (hp : 2 ^ 126 ≤ p) : numBytesToPretty b fuel p = .error .diverge := by
  rw [numBytesToPretty, previousPower2_diverges p hp]
  rfl

theorem max_exists : ∀ (v : Int) (vs : List Int), ∃ m, IsMax m (v :: vs) := fun v vs => ⟨_, foldl_max_spec vs v⟩

theorem bucketLoop_mono (pf pg : Nat) (hp : pf ≤ pg) (vals : List Int) (mx : Int) : ∀ {f g : Nat} {cur : Int} {bs : List Bucket},
    bucketLoop pf vals mx f cur = .ok bs → f ≤ g → bucketLoop pg vals mx g cur = .ok bs := by
  intro f
  induction f with
  | zero => intro g cur bs h; cases h
  | succ f ih =>
    intro g cur bs h hg
    obtain ⟨g, rfl⟩ : ∃ k, g = k + 1 := ⟨g - 1, by omega⟩
    rw [bucketLoop] at h ⊢
    split
    · rename_i hc
      rw [if_pos hc] at h
      obtain ⟨nx, h1, h⟩ := bind_ok h
      obtain ⟨rest, h2, h⟩ := bind_ok h
      rw [nextPower2_mono h1 hp]
      simp only [bind, Except.bind]
      rw [ih h2 (by omega)]
      exact h
    · rename_i hc
      rw [if_neg hc] at h
      exact h

theorem asHist_mono (b : Build) {f g : Nat} {xs : List Value} {t : Str} (h : asHist b f xs = .ok t) (hg : f ≤ g) :
    asHist b g xs = .ok t := by
  rcases histInts_cases xs with ⟨vals, rfl⟩ | ⟨vals, v, rest, rfl, hv, hh⟩
  · cases vals with
    | nil => exact h
    | cons v vs =>
      rw [asHist_ints] at h ⊢
      cases hb : histBuckets f v vs with
      | error e => rw [hb] at h; cases h
      | ok bs =>
        rw [hb] at h
        have hb' : histBuckets g v vs = .ok bs := by
          obtain ⟨cur, h1, h2⟩ := bind_ok hb
          rw [histBuckets, previousPower2_mono h1 hg]
          exact bucketLoop_mono f g hg _ _ h2 hg
        rw [hb']
        dsimp only at h ⊢
        obtain ⟨ls, rfl, hl⟩ := (bucketLines_iff ..).1 h
        refine (bucketLines_iff ..).2 ⟨ls, rfl, forall₂_congr ?_ hl⟩
        intro k _ l h
        obtain ⟨s, hs, h⟩ := bind_ok h
        obtain ⟨e, he, h⟩ := bind_ok h
        cases h
        rw [bucketLine, numBytes_mono b hs hg]
        simp only [bind, Except.bind]
        rw [numBytes_mono b he hg]
  · rw [asHist, hh] at h; cases h

/-- a value above 2^125: a bucket reaches up to 2^126, whose label is never found -/
theorem buckets_reach {vals : List Int} {bs : List Bucket} (h : BucketsOf vals bs) {x : Int} (hx : x ∈ vals) (hb : 2 ^ 125 < x) :
    (∃ mn, IsMin mn vals ∧ 2 ^ 126 ≤ mn) ∨ ∃ k ∈ bs, 2 ^ 126 ≤ k.stop := by
  obtain ⟨h1, h2, h3, h4, h5, h6⟩ := h
  rename_i lo hi mn mx
  have hmx := h2.2 x hx
  have hhi : 2 ^ 126 ≤ hi := by
    rcases h4.1 with rfl | ⟨k, rfl | rfl⟩
    · have := h4.2.1; have := p2_pos 125; omega
    · have h' := h4.2.1
      have : (2:Int) ^ 125 < 2 ^ k := by omega
      have := p2_lt.1 this
      exact p2_le.2 (by omega)
    · have := h4.2.1; have := p2_pos 125; have := p2_pos k; omega
  have last : ∀ {bs : List Bucket} {lo hi : Int}, Contiguous lo hi bs → lo < hi → ∃ k ∈ bs, k.stop = hi := by
    intro bs
    induction bs with
    | nil => intro lo hi h hl; simp only [Contiguous] at h; omega
    | cons d bs ih =>
      intro lo hi h hl
      obtain ⟨rfl, h2, h3⟩ := h
      rcases Int.lt_or_le d.stop hi with hlt | hge
      · obtain ⟨k, hk, e⟩ := ih h3 hlt
        exact ⟨k, by simp [hk], e⟩
      · have := contiguous_le h3
        exact ⟨d, by simp, by omega⟩
  rcases Int.lt_or_le lo hi with hlt | hge
  · obtain ⟨k, hk, e⟩ := last h5 hlt
    exact .inr ⟨k, hk, by omega⟩
  · exact .inl ⟨mn, h1, by have := h3.2.1; omega⟩

/-- **the diagrams of the code are those of the rules** -/
theorem drawn_iff (b : Build) (xs : List Value) (hx : ∀ i, Value.int i ∈ xs → Fits i) (t : Str) :
    (∃ n, asHist b n xs = .ok t) ↔ Diagram (b.ovfChecks = false) xs t := by
  have c2 : (2:Int) ^ 125 < 2 ^ 126 := p2_lt.2 (by decide)
  have good : ∀ {v : Int} {vs : List Int} {bs : List Bucket} {n : Nat}, (∀ x ∈ v :: vs, Fits x) → (∀ x ∈ v :: vs, x ≤ 2 ^ 125) →
      histBuckets n v vs = .ok bs → ∀ k ∈ bs, Boundary k.start ∧ Boundary k.stop ∧ Fits k.start ∧ Fits k.stop ∧
        k.start < 2 ^ 126 ∧ k.stop < 2 ^ 126 := by
    intro v vs bs n hf hm hb k hk
    obtain ⟨⟨h1, h2, h3, h4, h5, h6⟩, h8⟩ := buckets_of hf hb
    rename_i lo hi mn mx
    obtain ⟨g1, g2, g3, g4, g5⟩ := h8 k hk
    have hhi : hi ≤ 2 ^ 125 := h4.2.2 _ (boundary_pow 125) (hm mx h2.1)
    obtain ⟨e1, e2, e3, e4⟩ := contiguous_bounds bs lo hi h5 k hk
    exact ⟨g3, g4, g1, g2, by omega, by omega⟩
  constructor
  · rintro ⟨n, h⟩
    rcases histInts_cases xs with ⟨vals, rfl⟩ | ⟨vals, v, rest, rfl, hv, hh⟩
    · cases vals with
      | nil => cases h; exact .nil
      | cons v vs =>
        have hf : ∀ x ∈ v :: vs, Fits x := fun x hm => hx x (List.mem_map_of_mem hm)
        have h := asHist_mono b h (Nat.le_max_left n 128)
        have hn : 128 ≤ max n 128 := Nat.le_max_right ..
        generalize max n 128 = m at h hn
        rw [asHist_ints] at h
        cases hb : histBuckets m v vs with
        | error e => rw [hb] at h; cases h
        | ok bs =>
          rw [hb] at h
          dsimp only at h
          obtain ⟨ls, rfl, hl⟩ := (bucketLines_iff ..).1 h
          obtain ⟨h1, h2⟩ := buckets_of hf hb
          have hm : ∀ x ∈ v :: vs, x ≤ 2 ^ 125 := by
            intro x hxm
            rcases Int.lt_or_le (2 ^ 125) x with hlt | hle
            · exfalso
              rcases buckets_reach h1 hxm hlt with ⟨mn, g1, g2⟩ | ⟨k, hk, g1⟩
              · have := min_unique g1 (foldl_min_spec vs v)
                rw [histBuckets, ← this, previousPower2_diverges mn g2] at hb
                cases hb
              · obtain ⟨l, g2⟩ := forall₂_each hl k hk
                obtain ⟨s, _, g3⟩ := bind_ok g2
                obtain ⟨e, g4, _⟩ := bind_ok g3
                rw [numBytes_big b m g1] at g4
                cases g4
            · exact hle
          refine .mk (by simp) hm h1 (forall₂_congr ?_ hl)
          intro k hk l hkl
          obtain ⟨g1, g2, g3, g4, g5, g6⟩ := good hf hm hb k hk
          exact (line_iff b hn (by simp) k g1 g2 g3 g4 g5 g6 l).1 hkl
    · rw [asHist, hh] at h; cases h
  · intro h
    cases h with
    | nil => exact ⟨0, rfl⟩
    | @mk vals bs ls hne hm hb hl =>
      cases vals with
      | nil => exact absurd rfl hne
      | cons v vs =>
        have hf : ∀ x ∈ v :: vs, Fits x := fun x hm => hx x (List.mem_map_of_mem hm)
        obtain ⟨bs', hb'⟩ := histBuckets_ok (fuel := 258) (Nat.le_refl _) hf (fun x hxm => by have := hm x hxm; omega)
        have := buckets_unique hb (buckets_of hf hb').1
        subst this
        refine ⟨258, ?_⟩
        rw [asHist_ints, hb']
        refine (bucketLines_iff ..).2 ⟨ls, rfl, forall₂_congr ?_ hl⟩
        intro k hk l hkl
        obtain ⟨g1, g2, g3, g4, g5, g6⟩ := good hf hm hb' k hk
        exact (line_iff b (by omega) (by simp) k g1 g2 g3 g4 g5 g6 l).2 hkl

end Btrd
