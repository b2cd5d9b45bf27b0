/-
Sharper forms of three properties that are false of the code: exactly when they hold (C60, C69, C72).
-/
import Verif.Props.Search

namespace Btrd
open Spec

/-! ### C60 -/

/-- a search that is continued gives everything asked for, or fails because it cannot go on behind the largest offset -/
theorem searchLoop_whole {k : Kernel} {trees : Trees} (hk : Honours k trees) (hw : WellOrdered trees) :
    ∀ (fuel i : Nat) (args : SearchArgs) (p rest : List Item) (c : Nat), matching trees args = rest →
    (p ++ rest).Pairwise (fun a b => KeyLt (keyOf a) (keyOf b)) → rest.length < fuel →
    searchLoop k true fuel i args p c = .ok (p ++ rest, c) ∨ searchLoop k true fuel i args p c = .error (.err .bumpOffset) := by
  intro fuel
  induction fuel with
  | zero => intro i args p rest c _ _ h; omega
  | succ fuel ih =>
    intro i args p rest c hm hs hl
    rcases searchLoop_honoured hk hw fuel i args p rest c hm hs with ⟨rfl, h⟩ | ⟨q, x, rest', rfl, h⟩
    · left; rw [h]; simp
    · rcases h with ⟨-, args', h1, h2⟩ | ⟨-, h2⟩
      · rw [h2]
        have := ih (i + 1) args' (p ++ (q ++ [x])) rest' c h1 (by simpa using hs) (by simp at hl; omega)
        simpa using this
      · exact .inr h2

/-- one item per call: the search fails at the first item with the largest offset -/
theorem searchLoop_single {trees : Trees} (hs : ∀ t, ∀ it ∈ trees t, Storable it) (hw : WellOrdered trees) :
    ∀ (fuel i : Nat) (args : SearchArgs) (p rest : List Item) (c : Nat), matching trees args = rest →
    (p ++ rest).Pairwise (fun a b => KeyLt (keyOf a) (keyOf b)) → rest.length < fuel →
    (∃ it ∈ rest, ¬ it.1.offset + 1 < 2 ^ 64) →
    searchLoop (batchKernel trees fun _ => 0) true fuel i args p c = .error (.err .bumpOffset) := by
  have hk := batchKernel_honours trees hs fun _ => 0
  intro fuel
  induction fuel with
  | zero => intro i args p rest c _ _ h; omega
  | succ fuel ih =>
    intro i args p rest c hm hsrt hl hx
    rcases searchLoop_answered hk hw fuel i args p rest c hm hsrt with ⟨rfl, h⟩ | ⟨q, x, rest', rfl, ⟨buf, hb⟩, h⟩
    · obtain ⟨it, h1, -⟩ := hx; cases h1
    · have hq : q = [] := by
        simp only [batchKernel, Reply.data.injEq] at hb
        have hle : (fit 1 bufSize (matching trees args)).length ≤ 1 := by
          cases matching trees args with
          | nil => simp [fit]
          | cons a l =>
            simp only [fit]
            split <;> simp
        have h1 := hb.1
        rw [Nat.zero_add] at h1
        have : q.length = 0 := by omega
        exact List.eq_nil_of_length_eq_zero this
      subst hq
      rcases h with ⟨ho, args', h1, h2⟩ | ⟨-, h2⟩
      · rw [h2]
        refine ih (i + 1) args' _ rest' c h1 (by simpa using hsrt) (by simp at hl; omega) ?_
        obtain ⟨it, hit, hbig⟩ := hx
        simp only [List.nil_append, List.cons_append, List.mem_cons] at hit
        rcases hit with rfl | hit
        · exact absurd ho hbig
        · exact ⟨it, hit, hbig⟩
      · exact h2

/-- **C60** No search with an upper bound gives less than everything asked for, or anything else, in silence: on every
kernel that keeps its promise it gives exactly the items asked for, or fails. -/
theorem C60_bounded_all_or_error (k : Kernel) (trees : Trees) (hw : WellOrdered trees) (hk : Honours k trees)
    (a : SearchArgs) (hb : Bounded a) (fuel : Nat) (hf : (matching trees a).length < fuel) :
    Fs.search fuel (.mounted k) a = .ok (matching trees a) ∨
      Fs.search fuel (.mounted k) a = .error (.err .bumpOffset) := by
  rw [search_bounded fuel k a hb]
  have hs : ([] ++ matching trees a).Pairwise (fun a b => KeyLt (keyOf a) (keyOf b)) := (hw a.treeId).1.filter _
  rcases searchLoop_whole hk hw fuel 0 a [] (matching trees a) 0 rfl hs hf with h | h
  · left; rw [h]; simp
  · right; rw [h]

/-- **C60**, exactly: a search with an upper bound is complete however the kernel splits its replies if and only if no
item asked for has the largest offset there is. -/
theorem C60_exact (trees : Trees) (hw : WellOrdered trees) (hst : ∀ t, ∀ it ∈ trees t, Storable it) (a : SearchArgs)
    (hb : Bounded a) (fuel : Nat) (hf : (matching trees a).length < fuel) :
    (∀ k, Honours k trees → Fs.search fuel (.mounted k) a = .ok (matching trees a)) ↔
      ∀ it ∈ matching trees a, it.1.offset ≠ 2 ^ 64 - 1 := by
  have hs : ([] ++ matching trees a).Pairwise (fun a b => KeyLt (keyOf a) (keyOf b)) := (hw a.treeId).1.filter _
  constructor
  · intro h it hit he
    have h1 := h _ (batchKernel_honours trees hst fun _ => 0)
    rw [search_bounded fuel _ a hb,
      searchLoop_single hst hw fuel 0 a [] (matching trees a) 0 rfl hs hf ⟨it, hit, by omega⟩] at h1
    simp at h1
  · intro h k hk
    refine C60_bounded_complete_partial k trees hw hk a hb (fun it hit => ?_) fuel hf
    have h1 := h it hit
    have h2 := (hst _ it (List.mem_filter.1 hit).1).2.2.1
    omega

/-- witness: both sides, with an item of the largest offset in the middle and a bounded request -/
example : ∃ k, Honours k (fun t => if t = 5 then [(⟨7, 256, 2 ^ 64 - 1, 1, 1⟩, [9]), (⟨7, 257, 0, 1, 1⟩, [9])] else []) ∧
    Fs.search 3 (.mounted k) { allOfTree5 with maxTransid := 2 ^ 64 - 2 } ≠ .ok [(⟨7, 256, 2 ^ 64 - 1, 1, 1⟩, [9]), (⟨7, 257, 0, 1, 1⟩, [9])] := by
  have hw : WellOrdered (fun t => if t = 5 then [(⟨7, 256, 2 ^ 64 - 1, 1, 1⟩, [9]), (⟨7, 257, 0, 1, 1⟩, [9])] else []) := by
    intro t
    by_cases h : t = 5
    · simp only [if_pos h]; decide
    · simp only [if_neg h]; simp
  have hst : ∀ t, ∀ it ∈ (fun t => if t = 5 then [(⟨7, 256, 2 ^ 64 - 1, 1, 1⟩, [9]), (⟨7, 257, 0, 1, 1⟩, [9])] else []) t, Storable it := by
    intro t
    by_cases h : t = 5
    · simp only [if_pos h]; decide
    · simp only [if_neg h]; simp
  have hx := C60_exact _ hw hst { allOfTree5 with maxTransid := 2 ^ 64 - 2 } (by unfold Bounded; decide) 3 (by decide)
  have hm : matching (fun t => if t = 5 then [(⟨7, 256, 2 ^ 64 - 1, 1, 1⟩, [9]), (⟨7, 257, 0, 1, 1⟩, [9])] else [])
    { allOfTree5 with maxTransid := 2 ^ 64 - 2 } = [(⟨7, 256, 2 ^ 64 - 1, 1, 1⟩, [9]), (⟨7, 257, 0, 1, 1⟩, [9])] := by decide
  apply Classical.byContradiction
  intro hno
  refine (hx.1 fun k hk => ?_) (⟨7, 256, 2 ^ 64 - 1, 1, 1⟩, [9]) (by rw [hm]; simp) rfl
  rw [hm]
  apply Classical.byContradiction
  intro hne
  exact hno ⟨k, hk, hne⟩

/-! ### C69 -/

/-- a character that a path may have: printable ASCII other than quotes and the backslash -/
def Spec.PathChar (c : Char) : Prop := 32 ≤ c.toNat ∧ c.toNat ≤ 126 ∧ c ≠ '"' ∧ c ≠ '\'' ∧ c ≠ '\\'

set_option maxRecDepth 100000 in
theorem encodeChar_text (c : Char) : (PathChar c → (String.utf8EncodeChar c).flatMap byteText = [c]) ∧
    1 ≤ ((String.utf8EncodeChar c).flatMap byteText).length ∧
    (¬ PathChar c → 2 ≤ ((String.utf8EncodeChar c).flatMap byteText).length) := by
  have hlen : ∀ l : Bytes, l.length ≤ (l.flatMap byteText).length := by
    intro l
    induction l with
    | nil => simp
    | cons b l ih =>
      have := byteText_pos b
      simp only [List.flatMap_cons, List.length_append, List.length_cons]
      omega
  by_cases h : c.toNat ≤ 127
  · have he : String.utf8EncodeChar c = [UInt8.ofNat c.toNat] := by
      have hv : c.val.toNat ≤ 127 := h
      simp only [String.utf8EncodeChar]
      rw [if_pos hv]
      rfl
    have key : ∀ n : Nat, n ≤ 127 → (((32 ≤ n ∧ n ≤ 126 ∧ n ≠ 34 ∧ n ≠ 39 ∧ n ≠ 92) → byteText (UInt8.ofNat n) = [Char.ofNat n]) ∧
        (¬ (32 ≤ n ∧ n ≤ 126 ∧ n ≠ 34 ∧ n ≠ 39 ∧ n ≠ 92) → 2 ≤ (byteText (UInt8.ofNat n)).length)) := by
      intro n hn
      have : n ∈ List.range 128 := by simp; omega
      revert n
      have hall : ∀ n ∈ List.range 128, (((32 ≤ n ∧ n ≤ 126 ∧ n ≠ 34 ∧ n ≠ 39 ∧ n ≠ 92) → byteText (UInt8.ofNat n) = [Char.ofNat n]) ∧
        (¬ (32 ≤ n ∧ n ≤ 126 ∧ n ≠ 34 ∧ n ≠ 39 ∧ n ≠ 92) → 2 ≤ (byteText (UInt8.ofNat n)).length)) := by decide
      intro n _ hm
      exact hall n hm
    have hc : Char.ofNat c.toNat = c := Char.ofNat_toNat c
    have hpc : PathChar c ↔ (32 ≤ c.toNat ∧ c.toNat ≤ 126 ∧ c.toNat ≠ 34 ∧ c.toNat ≠ 39 ∧ c.toNat ≠ 92) := by
      have hne : ∀ d : Char, c ≠ d ↔ c.toNat ≠ d.toNat := fun d =>
        ⟨fun h he => h (by rw [← hc, he, Char.ofNat_toNat]), fun h he => h (by rw [he])⟩
      unfold PathChar
      rw [hne, hne, hne]
      exact Iff.rfl
    have hk := key c.toNat h
    rw [he, hpc]
    simp only [List.flatMap_cons, List.flatMap_nil, List.append_nil]
    rw [hc] at hk
    exact ⟨hk.1, byteText_pos _, hk.2⟩
  · have h2 : 2 ≤ (String.utf8EncodeChar c).length := by
      have hv : ¬ c.val.toNat ≤ 127 := h
      simp only [String.utf8EncodeChar]
      rw [if_neg hv]
      split
      · simp
      · split <;> simp
    have := hlen (String.utf8EncodeChar c)
    exact ⟨fun hp => absurd hp.2.1 (by omega), by omega, fun _ => by omega⟩

theorem path_text (s : Str) : s.length ≤ ((utf8 s).flatMap byteText).length ∧
    ((∀ c ∈ s, PathChar c) → (utf8 s).flatMap byteText = s) ∧
    ((∃ c ∈ s, ¬ PathChar c) → s.length < ((utf8 s).flatMap byteText).length) := by
  induction s with
  | nil => simp [utf8]
  | cons c s ih =>
    obtain ⟨h1, h2, h3⟩ := ih
    obtain ⟨g1, g2, g3⟩ := encodeChar_text c
    have he : (utf8 (c :: s)).flatMap byteText = (String.utf8EncodeChar c).flatMap byteText ++ (utf8 s).flatMap byteText := by
      simp [utf8]
    rw [he]
    refine ⟨by simp only [List.length_append, List.length_cons]; omega, fun h => ?_, fun h => ?_⟩
    · rw [g1 (h c (by simp)), h2 fun d hd => h d (by simp [hd])]
      rfl
    · simp only [List.length_append, List.length_cons]
      obtain ⟨d, hd, hbad⟩ := h
      rcases List.mem_cons.1 hd with rfl | hd
      · have := g3 hbad; omega
      · have := h3 ⟨d, hd, hbad⟩; omega

/-- **C69**, exactly: `filesystem "…"` selects the filesystem at the path that was written, whatever there is on the
machine, if and only if every character of the path is a printable ASCII character other than quotes and the backslash. -/
theorem C69_exact (s : Str) :
    (∀ (cfg : Cfg) (st : State), (evalStmt cfg (.filesystem (.str s)) st).2 = .ok ↔ ∃ fs, Fs.new cfg.host s = .ok fs) ↔
      ∀ c ∈ s, PathChar c := by
  have hp := path_text s
  have hev : ∀ (cfg : Cfg) (st : State), evalExpr cfg st (.str s) = .ok (.str (utf8 s)) := fun cfg st => by rw [evalExpr]
  constructor
  · intro h
    apply Classical.byContradiction
    intro hbad
    have hbad : ∃ c ∈ s, ¬ PathChar c := by
      apply Classical.byContradiction
      intro hno
      exact hbad fun c hc => Classical.byContradiction fun hn => hno ⟨c, hc, hn⟩
    have hlong := hp.2.2 hbad
    have hne : (utf8 s).flatMap byteText ≠ s := fun he => by rw [he] at hlong; omega
    have hx := (h { demo with host := ⟨fun p => if p = s then some ⟨some 0x9123683e, fun _ _ => .errno⟩ else none, fun _ => none, none⟩ }
      (State.new demo none)).2 ⟨.mounted fun _ _ => .errno, by simp [Fs.new, Fs.newMounted, btrfsFsType]⟩
    rw [filesystem_path _ _ _ _ (hev _ _)] at hx
    simp [Fs.new, hne] at hx
  · intro h cfg st
    rw [filesystem_path _ _ _ _ (hev _ _), hp.2.1 h]
    cases Fs.new cfg.host s <;> simp

example : ¬ ∀ c ∈ s!' "/mnt/my \"disk\"", PathChar c := by
  intro h
  exact (h '"' (by decide)).2.2.1 rfl
example : ∀ c ∈ s!' "/mnt/my disk #1", PathChar c := by unfold PathChar; decide

/-! ### C72 -/

/-- **C72**, exactly: every header of a reply is at a multiple of eight if and only if the payloads of all items but the
last are multiples of eight bytes long. -/
theorem C72_exact (q : List Item) :
    (∀ p ∈ headerPositions 0 q, p % 8 = 0) ↔ ∀ it ∈ q.dropLast, it.2.length % 8 = 0 := by
  have key : ∀ (q : List Item) (off : Nat), off % 8 = 0 →
      ((∀ p ∈ headerPositions off q, p % 8 = 0) ↔ ∀ it ∈ q.dropLast, it.2.length % 8 = 0) := by
    intro q
    induction q with
    | nil => intro off _; simp [headerPositions]
    | cons it q ih =>
      intro off ho
      cases q with
      | nil => simp [headerPositions, ho]
      | cons it' q =>
        have hd : (it :: it' :: q).dropLast = it :: (it' :: q).dropLast := rfl
        rw [hd, headerPositions]
        simp only [List.mem_cons, forall_eq_or_imp]
        constructor
        · rintro ⟨-, h⟩
          have h0 : (off + 32 + it.2.length) % 8 = 0 := h _ (by rw [headerPositions]; simp)
          have hl : it.2.length % 8 = 0 := by omega
          exact ⟨hl, (ih _ h0).1 h⟩
        · rintro ⟨hl, h⟩
          have h0 : (off + 32 + it.2.length) % 8 = 0 := by omega
          exact ⟨ho, (ih _ h0).2 h⟩
  exact key q 0 rfl

end Btrd
