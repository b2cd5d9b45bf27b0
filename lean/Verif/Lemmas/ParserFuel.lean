/-
How much the rules of the grammar read: a success returns a suffix of the input, a repeated rule reads
at least one character per item, and the nesting bounds of `exprF` and `stmtsF` are irrelevant once they
exceed the length of the input.
-/
import Verif.Model.Parse

namespace Btrd
open P

/-- a success leaves a suffix of the input -/
def Reads {α : Type} (p : P α) : Prop := ∀ s a s', p s = some (a, s') → ∃ t, s = t ++ s'

/-- a success leaves a proper suffix of the input -/
def Eats {α : Type} (p : P α) : Prop := ∀ s a s', p s = some (a, s') → ∃ t, t ≠ [] ∧ s = t ++ s'

section
variable {α β : Type} {p p' : P α} {q q' : P β}

theorem Eats.reads (h : Eats p) : Reads p := fun s a s' hs => by
  obtain ⟨t, _, ht⟩ := h s a s' hs; exact ⟨t, ht⟩

theorem Reads.le (h : Reads p) {s : Str} {a : α} {s' : Str} (hs : p s = some (a, s')) : s'.length ≤ s.length := by
  obtain ⟨t, rfl⟩ := h s a s' hs; simp

theorem Eats.lt (h : Eats p) {s : Str} {a : α} {s' : Str} (hs : p s = some (a, s')) : s'.length < s.length := by
  obtain ⟨t, ht, rfl⟩ := h s a s' hs
  cases t with
  | nil => exact absurd rfl ht
  | cons => simp; omega

theorem isA_eats (f : Char → Bool) : Eats (isA f) := by
  intro s a s' h
  cases s with
  | nil => simp [isA] at h
  | cons c cs =>
    simp only [isA] at h
    split at h
    · simp only [Option.some.injEq, Prod.mk.injEq] at h; exact ⟨[c], by simp, by simp [h.2]⟩
    · simp at h

theorem sym_eats (c : Char) : Eats (sym c) := isA_eats _

theorem tag_inv : ∀ (t s : Str) (a : Unit) (s' : Str), tag t s = some (a, s') → s = t ++ s'
  | [], s, a, s', h => by simp only [tag, Option.some.injEq, Prod.mk.injEq] at h; simp [h.2]
  | _ :: _, [], a, s', h => by simp [tag] at h
  | t :: ts, c :: cs, a, s', h => by
    simp only [tag] at h
    split at h
    · rename_i hc; rw [tag_inv ts cs a s' h, hc]; rfl
    · simp at h

theorem tag_reads (t : Str) : Reads (tag t) := fun s a s' h => ⟨t, tag_inv t s a s' h⟩

theorem tag_eats {t : Str} (ht : t ≠ []) : Eats (tag t) := fun s a s' h => ⟨t, ht, tag_inv t s a s' h⟩

/-! ### what a success of a combinator is -/

theorem map_some {f : α → β} {s : Str} {b : β} {s' : Str} (h : map f p s = some (b, s')) :
    ∃ a, p s = some (a, s') ∧ b = f a := by
  simp only [map] at h
  split at h
  · rename_i a s2 heq
    simp only [Option.some.injEq, Prod.mk.injEq] at h
    exact ⟨a, by rw [heq, h.2], h.1.symm⟩
  · simp at h

theorem seq_some {s : Str} {r : α × β} {s' : Str} (h : seq p q s = some (r, s')) :
    ∃ s1, p s = some (r.1, s1) ∧ q s1 = some (r.2, s') := by
  simp only [seq] at h
  split at h
  · rename_i a s2 heq
    split at h
    · rename_i b s3 heq2
      simp only [Option.some.injEq, Prod.mk.injEq] at h
      obtain ⟨rfl, rfl⟩ := h
      exact ⟨s2, heq, heq2⟩
    · simp at h
  · simp at h

theorem seqR_some {s : Str} {b : β} {s' : Str} (h : seqR p q s = some (b, s')) :
    ∃ a s1, p s = some (a, s1) ∧ q s1 = some (b, s') := by
  simp only [seqR] at h
  split at h
  · rename_i a s2 heq; exact ⟨a, s2, heq, h⟩
  · simp at h

theorem seqL_some {s : Str} {a : α} {s' : Str} (h : seqL p q s = some (a, s')) :
    ∃ b s1, p s = some (a, s1) ∧ q s1 = some (b, s') := by
  simp only [seqL] at h
  split at h
  · rename_i a s2 heq
    split at h
    · rename_i b s3 heq2
      simp only [Option.some.injEq, Prod.mk.injEq] at h
      obtain ⟨rfl, rfl⟩ := h
      exact ⟨b, s2, heq, heq2⟩
    · simp at h
  · simp at h

theorem alt_some {s : Str} {a : α} {s' : Str} (h : alt p p' s = some (a, s')) :
    p s = some (a, s') ∨ (p s = none ∧ p' s = some (a, s')) := by
  simp only [alt] at h
  split at h
  · rename_i r heq; exact .inl (by rw [heq, h])
  · rename_i heq; exact .inr ⟨heq, h⟩

theorem convert_some {f : α → Option β} {s : Str} {b : β} {s' : Str} (h : convert f p s = some (b, s')) :
    ∃ a, p s = some (a, s') ∧ f a = some b := by
  simp only [convert] at h
  split at h
  · rename_i a s2 heq
    split at h
    · rename_i b2 hb
      simp only [Option.some.injEq, Prod.mk.injEq] at h
      obtain ⟨rfl, rfl⟩ := h
      exact ⟨a, heq, hb⟩
    · simp at h
  · simp at h

theorem opt_some {s : Str} {o : Option α} {s' : Str} (h : opt p s = some (o, s')) :
    (∃ a, o = some a ∧ p s = some (a, s')) ∨ (o = none ∧ p s = none ∧ s' = s) := by
  simp only [opt] at h
  split at h
  · rename_i a s2 heq
    simp only [Option.some.injEq, Prod.mk.injEq] at h
    obtain ⟨rfl, rfl⟩ := h
    exact .inl ⟨a, rfl, heq⟩
  · rename_i heq
    simp only [Option.some.injEq, Prod.mk.injEq] at h
    exact .inr ⟨h.1.symm, heq, h.2.symm⟩

/-! ### reading -/

theorem map_reads {f : α → β} (h : Reads p) : Reads (map f p) := fun s b s' hs => by
  obtain ⟨a, ha, _⟩ := map_some hs; exact h _ _ _ ha

theorem map_eats {f : α → β} (h : Eats p) : Eats (map f p) := fun s b s' hs => by
  obtain ⟨a, ha, _⟩ := map_some hs; exact h _ _ _ ha

theorem convert_reads {f : α → Option β} (h : Reads p) : Reads (convert f p) := fun s b s' hs => by
  obtain ⟨a, ha, _⟩ := convert_some hs; exact h _ _ _ ha

theorem convert_eats {f : α → Option β} (h : Eats p) : Eats (convert f p) := fun s b s' hs => by
  obtain ⟨a, ha, _⟩ := convert_some hs; exact h _ _ _ ha

theorem seq_reads (h : Reads p) (h2 : Reads q) : Reads (seq p q) := fun s r s' hs => by
  obtain ⟨s1, e1, e2⟩ := seq_some hs
  obtain ⟨t, rfl⟩ := h _ _ _ e1; obtain ⟨t2, rfl⟩ := h2 _ _ _ e2
  exact ⟨t ++ t2, by simp⟩

theorem seqR_reads (h : Reads p) (h2 : Reads q) : Reads (seqR p q) := fun s r s' hs => by
  obtain ⟨a, s1, e1, e2⟩ := seqR_some hs
  obtain ⟨t, rfl⟩ := h _ _ _ e1; obtain ⟨t2, rfl⟩ := h2 _ _ _ e2
  exact ⟨t ++ t2, by simp⟩

theorem seqL_reads (h : Reads p) (h2 : Reads q) : Reads (seqL p q) := fun s r s' hs => by
  obtain ⟨a, s1, e1, e2⟩ := seqL_some hs
  obtain ⟨t, rfl⟩ := h _ _ _ e1; obtain ⟨t2, rfl⟩ := h2 _ _ _ e2
  exact ⟨t ++ t2, by simp⟩

theorem alt_reads (h : Reads p) (h2 : Reads p') : Reads (alt p p') := fun s a s' hs => by
  rcases alt_some hs with e | ⟨_, e⟩
  · exact h _ _ _ e
  · exact h2 _ _ _ e

theorem alt_eats (h : Eats p) (h2 : Eats p') : Eats (alt p p') := fun s a s' hs => by
  rcases alt_some hs with e | ⟨_, e⟩
  · exact h _ _ _ e
  · exact h2 _ _ _ e

theorem opt_reads (h : Reads p) : Reads (opt p) := fun s a s' hs => by
  rcases opt_some hs with ⟨a, _, e⟩ | ⟨_, _, rfl⟩
  · exact h _ _ _ e
  · exact ⟨[], rfl⟩

theorem seq_eats_l (h : Eats p) (h2 : Reads q) : Eats (seq p q) := fun s r s' hs => by
  obtain ⟨s1, e1, e2⟩ := seq_some hs
  obtain ⟨t, ht, rfl⟩ := h _ _ _ e1; obtain ⟨t2, rfl⟩ := h2 _ _ _ e2
  exact ⟨t ++ t2, by simp [ht], by simp⟩

theorem seq_eats_r (h : Reads p) (h2 : Eats q) : Eats (seq p q) := fun s r s' hs => by
  obtain ⟨s1, e1, e2⟩ := seq_some hs
  obtain ⟨t, rfl⟩ := h _ _ _ e1; obtain ⟨t2, ht, rfl⟩ := h2 _ _ _ e2
  exact ⟨t ++ t2, by simp [ht], by simp⟩

theorem seqR_eats_l (h : Eats p) (h2 : Reads q) : Eats (seqR p q) := fun s r s' hs => by
  obtain ⟨a, s1, e1, e2⟩ := seqR_some hs
  obtain ⟨t, ht, rfl⟩ := h _ _ _ e1; obtain ⟨t2, rfl⟩ := h2 _ _ _ e2
  exact ⟨t ++ t2, by simp [ht], by simp⟩

theorem seqR_eats_r (h : Reads p) (h2 : Eats q) : Eats (seqR p q) := fun s r s' hs => by
  obtain ⟨a, s1, e1, e2⟩ := seqR_some hs
  obtain ⟨t, rfl⟩ := h _ _ _ e1; obtain ⟨t2, ht, rfl⟩ := h2 _ _ _ e2
  exact ⟨t ++ t2, by simp [ht], by simp⟩

theorem seqL_eats_l (h : Eats p) (h2 : Reads q) : Eats (seqL p q) := fun s r s' hs => by
  obtain ⟨a, s1, e1, e2⟩ := seqL_some hs
  obtain ⟨t, ht, rfl⟩ := h _ _ _ e1; obtain ⟨t2, rfl⟩ := h2 _ _ _ e2
  exact ⟨t ++ t2, by simp [ht], by simp⟩

theorem seqL_eats_r (h : Reads p) (h2 : Eats q) : Eats (seqL p q) := fun s r s' hs => by
  obtain ⟨a, s1, e1, e2⟩ := seqL_some hs
  obtain ⟨t, rfl⟩ := h _ _ _ e1; obtain ⟨t2, ht, rfl⟩ := h2 _ _ _ e2
  exact ⟨t ++ t2, by simp [ht], by simp⟩

theorem manyF_reads (h : Reads p) : ∀ n, Reads (manyF n p)
  | 0 => fun s a s' hs => by
    simp only [manyF, Option.some.injEq, Prod.mk.injEq] at hs; exact ⟨[], by simp [hs.2]⟩
  | n + 1 => fun s a s' hs => by
    simp only [manyF] at hs
    split at hs
    · rename_i a s2 heq
      split at hs
      · rename_i as s3 heq2
        simp only [Option.some.injEq, Prod.mk.injEq] at hs
        obtain ⟨t, rfl⟩ := h _ _ _ heq
        obtain ⟨t2, rfl⟩ := manyF_reads h n _ _ _ heq2
        exact ⟨t ++ t2, by simp [hs.2]⟩
      · simp at hs
    · simp only [Option.some.injEq, Prod.mk.injEq] at hs; exact ⟨[], by simp [hs.2]⟩

theorem many_reads (h : Reads p) : Reads (many p) := fun s => manyF_reads h _ s

theorem many1_some {s : Str} {as : List α} {s' : Str} (h : many1 p s = some (as, s')) :
    as ≠ [] ∧ many p s = some (as, s') := by
  simp only [many1] at h
  split at h
  · rename_i a as' s2 heq
    simp only [Option.some.injEq, Prod.mk.injEq] at h
    obtain ⟨rfl, rfl⟩ := h
    exact ⟨by simp, heq⟩
  · simp at h

theorem many1_eats (h : Eats p) : Eats (many1 p) := fun s as s' hs => by
  obtain ⟨hne, hm⟩ := many1_some hs
  simp only [many, manyF] at hm
  split at hm
  · rename_i a s2 heq
    split at hm
    · rename_i as s3 heq2
      simp only [Option.some.injEq, Prod.mk.injEq] at hm
      obtain ⟨t, ht, rfl⟩ := h _ _ _ heq
      obtain ⟨t2, rfl⟩ := manyF_reads h.reads _ _ _ _ heq2
      exact ⟨t ++ t2, by simp [ht], by simp [hm.2]⟩
    · simp at hm
  · simp only [Option.some.injEq, Prod.mk.injEq] at hm
    exact absurd hm.1.symm hne

theorem times_reads (h : Reads p) : ∀ n, Reads (times n p)
  | 0 => fun s a s' hs => by
    simp only [times, Option.some.injEq, Prod.mk.injEq] at hs; exact ⟨[], by simp [hs.2]⟩
  | n + 1 => fun s a s' hs => by
    simp only [times] at hs
    split at hs
    · rename_i a s2 heq
      split at hs
      · rename_i as s3 heq2
        simp only [Option.some.injEq, Prod.mk.injEq] at hs
        obtain ⟨t, rfl⟩ := h _ _ _ heq
        obtain ⟨t2, rfl⟩ := times_reads h n _ _ _ heq2
        exact ⟨t ++ t2, by simp [hs.2]⟩
      · simp at hs
    · simp at hs

theorem list_reads (h : Reads p) (h2 : Reads q) : Reads (list p q) := fun s as s' hs => by
  simp only [list] at hs
  split at hs
  · rename_i a s2 heq
    split at hs
    · rename_i as s3 heq2
      simp only [Option.some.injEq, Prod.mk.injEq] at hs
      obtain ⟨t, rfl⟩ := h _ _ _ heq
      obtain ⟨t2, rfl⟩ := many_reads (seqR_reads h2 h) _ _ _ heq2
      exact ⟨t ++ t2, by simp [hs.2]⟩
    · simp at hs
  · simp only [Option.some.injEq, Prod.mk.injEq] at hs; exact ⟨[], by simp [hs.2]⟩

/-! ### repetition does not depend on its bound -/

theorem manyF_bound (h : Eats p) : ∀ (n m : Nat) (s : Str), s.length < n → s.length < m →
    manyF n p s = manyF m p s
  | 0, _, _, hn, _ => by omega
  | _, 0, _, _, hm => by omega
  | n + 1, m + 1, s, hn, hm => by
    simp only [manyF]
    cases hp : p s with
    | none => rfl
    | some r =>
      obtain ⟨a, s'⟩ := r
      have hlt := h.lt hp
      simp only
      rw [manyF_bound h n m s' (by omega) (by omega)]

theorem manyF_total : ∀ (n : Nat) (s : Str), ∃ r, manyF n p s = some r
  | 0, s => ⟨_, rfl⟩
  | n + 1, s => by
    simp only [manyF]
    cases hp : p s with
    | none => exact ⟨_, rfl⟩
    | some r =>
      obtain ⟨a, s'⟩ := r
      obtain ⟨⟨as, s2⟩, hr⟩ := manyF_total n s'
      simp only [hr]
      exact ⟨_, rfl⟩

/-- `repeat(0..)` never fails -/
theorem many_total (p : P α) (s : Str) : ∃ r, many p s = some r := manyF_total _ s

theorem many_none {s : Str} (h : p s = none) : many p s = some ([], s) := by
  simp only [many, manyF, h]

theorem many_some (he : Eats p) {s : Str} {a : α} {s' : Str} (h : p s = some (a, s')) :
    many p s = match many p s' with
      | some (as, s'') => some (a :: as, s'')
      | none => none := by
  have hlt := he.lt h
  have h1 : many p s = match manyF s.length p s' with
      | some (as, s'') => some (a :: as, s'')
      | none => none := by
    simp only [many]
    rw [manyF, h]
    rfl
  rw [h1, manyF_bound he s.length (s'.length + 1) s' (by omega) (by omega)]
  rfl

/-- `repeat(0..)` stops where the rule fails. -/
theorem many_stops (he : Eats p) : ∀ (n : Nat) (s : Str) (as : List α) (s' : Str), s.length < n →
    many p s = some (as, s') → p s' = none
  | 0, _, _, _, hn, _ => by omega
  | n + 1, s, as, s', hn, h => by
    cases hp : p s with
    | none =>
      rw [many_none hp] at h
      simp only [Option.some.injEq, Prod.mk.injEq] at h
      rw [← h.2]; exact hp
    | some r =>
      obtain ⟨a, s1⟩ := r
      have hlt := he.lt hp
      rw [many_some he hp] at h
      cases hm : many p s1 with
      | none => rw [hm] at h; simp at h
      | some r2 =>
        obtain ⟨as2, s2⟩ := r2
        rw [hm] at h
        simp only [Option.some.injEq, Prod.mk.injEq] at h
        rw [← h.2]
        exact many_stops he n s1 as2 s2 (by omega) hm

end

/-! ### the rules -/

theorem space_reads : Reads space := map_reads (many_reads (isA_eats _).reads)

theorem special_eats : Eats specialChar :=
  alt_eats (sym_eats _) <| alt_eats (sym_eats _) <| alt_eats (sym_eats _) <|
  alt_eats (map_eats (sym_eats _)) <| alt_eats (map_eats (sym_eats _)) <| alt_eats (map_eats (sym_eats _)) <|
  alt_eats (map_eats (sym_eats _)) (map_eats (sym_eats _))

theorem escape_eats : Eats escapeSequence := seqR_eats_l (sym_eats _) special_eats.reads

theorem stringChar_eats : Eats (alt (isA (fun c => !(c == '\\' || c == '"'))) escapeSequence) :=
  alt_eats (isA_eats _) escape_eats

theorem charString_eats : Eats charString := many1_eats stringChar_eats

theorem utf16Char_eats : Eats utf16Char :=
  seqR_eats_l (tag_eats (by simp)) (convert_reads (times_reads (isA_eats _).reads _))

theorem utf16String_eats : Eats utf16String := map_eats (many1_eats utf16Char_eats)

theorem stringPart_eats : Eats (alt charString utf16String) := alt_eats charString_eats utf16String_eats

theorem stringLit_eats : Eats stringLit :=
  map_eats (seqL_eats_l (seqR_eats_l (sym_eats _) (many_reads stringPart_eats.reads)) (sym_eats _).reads)

theorem string_eats : Eats string := map_eats stringLit_eats

theorem integer_eats : Eats integer :=
  alt_eats (map_eats (seq_eats_l (isA_eats _) (many_reads (isA_eats _).reads))) (map_eats (sym_eats _))

theorem number_eats : Eats number := convert_eats (seq_eats_r (opt_reads (sym_eats _).reads) integer_eats)

theorem constant_eats : Eats constant :=
  alt_eats (map_eats number_eats) <| alt_eats (map_eats (tag_eats (by simp))) (map_eats (tag_eats (by simp)))

theorem ident_eats : Eats ident := map_eats (seq_eats_l (isA_eats _) (many_reads (isA_eats _).reads))

theorem typeSpecifier_eats : Eats typeSpecifier := seqR_eats_r (seqL_reads (tag_reads _) space_reads) ident_eats

section
variable {sub : P Expr} (hs : Reads sub)
include hs

theorem primary_eats : Eats (primaryExpr sub) :=
  alt_eats constant_eats <| alt_eats ident_eats <| alt_eats string_eats <|
    map_eats (seqL_eats_r (seqL_reads (seqR_reads (sym_eats _).reads hs) space_reads) (sym_eats _))

theorem postfixOp_eats : Eats (postfixOp sub) :=
  alt_eats (map_eats (seqL_eats_r (seqL_reads (seqR_reads (sym_eats _).reads
    (list_reads hs (seqR_reads space_reads (sym_eats _).reads))) space_reads) (sym_eats _))) <|
  alt_eats (map_eats (seqL_eats_r (seqL_reads (seqR_reads (sym_eats _).reads hs) space_reads) (sym_eats _)))
    (map_eats (seqR_eats_l (sym_eats _) ident_eats.reads))

theorem postfixItem_eats : Eats (seqR space (postfixOp sub)) := seqR_eats_r space_reads (postfixOp_eats hs)

theorem postfix_eats : Eats (postfixExpr sub) :=
  map_eats (seq_eats_l (primary_eats hs) (many_reads (postfixItem_eats hs).reads))

end

theorem prefixOp_eats : Eats prefixOp :=
  alt_eats (map_eats (tag_eats (by simp))) <| alt_eats (map_eats (tag_eats (by simp))) <|
  alt_eats (map_eats (tag_eats (by simp)))
    (map_eats (seqL_eats_r (seqL_reads (seqR_reads (seqR_reads (tag_reads _) space_reads) typeSpecifier_eats.reads)
      space_reads) (tag_eats (by simp))))

theorem prefixItem_eats : Eats (seqL prefixOp space) := seqL_eats_l prefixOp_eats space_reads

theorem unary_eats {sub : P Expr} (hs : Reads sub) : Eats (unaryExpr sub) :=
  map_eats (seq_eats_r (seqL_reads (many_reads prefixItem_eats.reads) space_reads) (postfix_eats hs))

theorem binItem_eats {ops : P BinOp} {next : P Expr} (ho : Reads ops) (hn : Eats next) :
    Eats (seq (seqL (seqR space ops) space) next) :=
  seq_eats_r (seqL_reads (seqR_reads space_reads ho) space_reads) hn

theorem binLevel_eats {ops : P BinOp} {next : P Expr} (ho : Reads ops) (hn : Eats next) : Eats (binLevel ops next) :=
  map_eats (seq_eats_l hn (many_reads (binItem_eats ho hn).reads))

theorem opTag_reads (t : Str) (o : BinOp) : Reads (opTag t o) := map_reads (tag_reads _)

section
variable {sub : P Expr} (hs : Reads sub)
include hs

theorem mult_eats : Eats (multExpr sub) :=
  binLevel_eats (alt_reads (opTag_reads _ _) (alt_reads (opTag_reads _ _) (opTag_reads _ _))) (unary_eats hs)
theorem add_eats : Eats (addExpr sub) := binLevel_eats (alt_reads (opTag_reads _ _) (opTag_reads _ _)) (mult_eats hs)
theorem shift_eats : Eats (shiftExpr sub) := binLevel_eats (alt_reads (opTag_reads _ _) (opTag_reads _ _)) (add_eats hs)
theorem relation_eats : Eats (relationExpr sub) :=
  binLevel_eats (alt_reads (opTag_reads _ _) (alt_reads (opTag_reads _ _)
    (alt_reads (opTag_reads _ _) (opTag_reads _ _)))) (shift_eats hs)
theorem eq_eats : Eats (eqExpr sub) :=
  map_eats (seq_eats_l (relation_eats hs) (opt_reads (binItem_eats
    (alt_reads (opTag_reads _ _) (opTag_reads _ _)) (relation_eats hs)).reads))
theorem bitAnd_eats : Eats (bitAndExpr sub) := binLevel_eats (map_reads (sym_eats _).reads) (eq_eats hs)
theorem bitXor_eats : Eats (bitXorExpr sub) := binLevel_eats (map_reads (sym_eats _).reads) (bitAnd_eats hs)
theorem bitOr_eats : Eats (bitOrExpr sub) := binLevel_eats (map_reads (sym_eats _).reads) (bitXor_eats hs)
theorem and_eats : Eats (andExpr sub) := binLevel_eats (opTag_reads _ _) (bitOr_eats hs)
theorem or_eats : Eats (orExpr sub) := binLevel_eats (opTag_reads _ _) (and_eats hs)

end

theorem exprF_eats : ∀ n, Eats (exprF n)
  | 0 => fun s a s' h => by simp [exprF] at h
  | n + 1 => seqR_eats_r space_reads (or_eats (exprF_eats n).reads)

theorem expr_eats : Eats expr := fun s => exprF_eats _ s

theorem assign_eats : Eats assignStmt :=
  alt_eats (map_eats (seq_eats_r (seqL_reads (seqL_reads expr_eats.reads space_reads) (tag_reads _)) expr_eats)) <|
  alt_eats (map_eats (seq_eats_r (seqL_reads (seqL_reads expr_eats.reads space_reads) (tag_reads _)) expr_eats))
    (map_eats (seq_eats_r (seqL_reads (seqL_reads expr_eats.reads space_reads) (sym_eats _).reads) expr_eats))

theorem jump_eats : Eats jumpStmt := alt_eats (map_eats (tag_eats (by simp))) (map_eats (tag_eats (by simp)))

theorem builtin_eats : Eats builtinStmt :=
  alt_eats (map_eats (seqR_eats_r (seqR_reads (tag_reads _) space_reads) string_eats)) <|
  alt_eats (seqR_eats_r (tag_reads _) (map_eats expr_eats)) <|
  alt_eats (map_eats (tag_eats (by simp))) (map_eats (tag_eats (by simp)))

theorem exprStmt_eats : Eats exprStmt := map_eats expr_eats

theorem stmtSemicolon_eats : Eats stmtSemicolon :=
  seqL_eats_r (seqL_reads (alt_reads builtin_eats.reads <| alt_reads jump_eats.reads <|
    alt_reads assign_eats.reads exprStmt_eats.reads) space_reads) (sym_eats _)

section
variable {sub : P (List Stmt)} (hs : Reads sub)
include hs

theorem ifElse_eats : Eats (ifElseStmt sub) :=
  map_eats (seq_eats_l
    (seqL_eats_r (seqL_reads (seq_reads (seqL_reads (seqL_reads (seqR_reads (tag_reads _) expr_eats.reads)
      space_reads) (sym_eats _).reads) hs) space_reads) (sym_eats _))
    (opt_reads (seqL_reads (seqL_reads (seqR_reads (seqR_reads (seqR_reads (seqR_reads space_reads (tag_reads _))
      space_reads) (sym_eats _).reads) hs) space_reads) (sym_eats _).reads)))

theorem while_eats : Eats (whileStmt sub) :=
  map_eats (seqL_eats_r (seqL_reads (seq_reads (seqL_reads (seqL_reads (seqR_reads (tag_reads _) expr_eats.reads)
    space_reads) (sym_eats _).reads) hs) space_reads) (sym_eats _))

theorem for_eats : Eats (forStmt sub) :=
  map_eats (seqL_eats_r (seqL_reads (seq_reads (seqL_reads (seqL_reads
    (seq_reads (seqL_reads (seqL_reads (seqR_reads (seqR_reads (tag_reads _) space_reads) ident_eats.reads)
      space_reads) (tag_reads _)) expr_eats.reads) space_reads) (sym_eats _).reads) hs) space_reads) (sym_eats _))

theorem block_eats : Eats (blockStmt sub) := alt_eats (ifElse_eats hs) (alt_eats (while_eats hs) (for_eats hs))

theorem semis_reads : Reads (many (seqR space (sym ';'))) :=
  many_reads (seqR_reads space_reads (sym_eats _).reads)

theorem stmt_eats : Eats (stmt sub) :=
  seqL_eats_l (seqR_eats_r space_reads (alt_eats stmtSemicolon_eats (block_eats hs))) (semis_reads hs)

end

theorem stmtsF_reads : ∀ n, Reads (stmtsF n)
  | 0 => fun s a s' h => by simp [stmtsF] at h
  | n + 1 => many_reads (stmt_eats (stmtsF_reads n)).reads

theorem stmts_reads : Reads stmts := fun s => stmtsF_reads _ s

/-! ### the nesting bounds are irrelevant -/

/-- the parsers agree on inputs no longer than `k` -/
def AgreeTo (k : Nat) {α : Type} (p p' : P α) : Prop := ∀ s : Str, s.length ≤ k → p s = p' s

section
variable {α β : Type} {k : Nat} {p p' : P α} {q q' : P β}

theorem AgreeTo.refl (k : Nat) (p : P α) : AgreeTo k p p := fun _ _ => rfl

theorem AgreeTo.mono {j : Nat} (h : AgreeTo k p p') (hj : j ≤ k) : AgreeTo j p p' := fun s hs => h s (by omega)

theorem agree_map {f : α → β} (h : AgreeTo k p p') : AgreeTo k (map f p) (map f p') := fun s hs => by
  simp only [map, h s hs]

theorem agree_alt {p2 p2' : P α} (h : AgreeTo k p p') (h2 : AgreeTo k p2 p2') :
    AgreeTo k (alt p p2) (alt p' p2') := fun s hs => by
  simp only [alt, h s hs, h2 s hs]

theorem agree_opt (h : AgreeTo k p p') : AgreeTo k (opt p) (opt p') := fun s hs => by
  simp only [opt, h s hs]

theorem agree_seq (hr : Reads p) (h : AgreeTo k p p') (h2 : AgreeTo k q q') :
    AgreeTo k (seq p q) (seq p' q') := fun s hs => by
  simp only [seq, ← h s hs]
  cases hp : p s with
  | none => rfl
  | some r =>
    obtain ⟨a, s'⟩ := r
    have := hr.le hp
    simp only [h2 s' (by omega)]

theorem agree_seqR (hr : Reads p) (h : AgreeTo k p p') (h2 : AgreeTo k q q') :
    AgreeTo k (seqR p q) (seqR p' q') := fun s hs => by
  simp only [seqR, ← h s hs]
  cases hp : p s with
  | none => rfl
  | some r =>
    obtain ⟨a, s'⟩ := r
    have := hr.le hp
    simp only [h2 s' (by omega)]

theorem agree_seqL (hr : Reads p) (h : AgreeTo k p p') (h2 : AgreeTo k q q') :
    AgreeTo k (seqL p q) (seqL p' q') := fun s hs => by
  simp only [seqL, ← h s hs]
  cases hp : p s with
  | none => rfl
  | some r =>
    obtain ⟨a, s'⟩ := r
    have := hr.le hp
    simp only [h2 s' (by omega)]

/-- after a rule that consumes, the second rule need only agree on shorter inputs -/
theorem agree_seqR_lt {n : Nat} (hr : Eats p) (h2 : AgreeTo n q q') :
    AgreeTo (n + 1) (seqR p q) (seqR p q') := fun s hs => by
  simp only [seqR]
  cases hp : p s with
  | none => rfl
  | some r =>
    obtain ⟨a, s'⟩ := r
    have := hr.lt hp
    simp only [h2 s' (by omega)]

theorem agree_seq_lt {n : Nat} (hr : Eats p) (h : AgreeTo (n + 1) p p') (h2 : AgreeTo n q q') :
    AgreeTo (n + 1) (seq p q) (seq p' q') := fun s hs => by
  simp only [seq, ← h s hs]
  cases hp : p s with
  | none => rfl
  | some r =>
    obtain ⟨a, s'⟩ := r
    have := hr.lt hp
    simp only [h2 s' (by omega)]

theorem agree_manyF (hr : Reads p) (h : AgreeTo k p p') : ∀ n, AgreeTo k (manyF n p) (manyF n p')
  | 0 => fun _ _ => rfl
  | n + 1 => fun s hs => by
    simp only [manyF, ← h s hs]
    cases hp : p s with
    | none => rfl
    | some r =>
      obtain ⟨a, s'⟩ := r
      have := hr.le hp
      simp only [agree_manyF hr h n s' (by omega)]

theorem agree_many (hr : Reads p) (h : AgreeTo k p p') : AgreeTo k (many p) (many p') := fun s hs =>
  agree_manyF hr h _ s hs

theorem agree_list (hr : Reads p) (hq : Reads q) (h : AgreeTo k p p') : AgreeTo k (list p q) (list p' q) := fun s hs => by
  simp only [list, ← h s hs]
  cases hp : p s with
  | none => rfl
  | some r =>
    obtain ⟨a, s'⟩ := r
    have := hr.le hp
    simp only [agree_many (seqR_reads hq hr) (agree_seqR hq (AgreeTo.refl _ _) h) s' (by omega)]

end

section
variable {k : Nat} {sub sub' : P Expr} (hs : Reads sub) (h : AgreeTo k sub sub')
include hs h

theorem agree_primary : AgreeTo (k + 1) (primaryExpr sub) (primaryExpr sub') :=
  agree_alt (AgreeTo.refl _ _) <| agree_alt (AgreeTo.refl _ _) <| agree_alt (AgreeTo.refl _ _) <|
    agree_map (agree_seqL (seqL_reads (seqR_reads (sym_eats _).reads hs) space_reads)
      (agree_seqL (seqR_reads (sym_eats _).reads hs) (agree_seqR_lt (sym_eats _) h) (AgreeTo.refl _ _))
      (AgreeTo.refl _ _))

theorem agree_postfixOp : AgreeTo (k + 1) (postfixOp sub) (postfixOp sub') := by
  have hsep : Reads (seqR space (sym ',')) := seqR_reads space_reads (sym_eats _).reads
  refine agree_alt (agree_map ?_) (agree_alt (agree_map ?_) (AgreeTo.refl _ _))
  · exact agree_seqL (seqL_reads (seqR_reads (sym_eats _).reads (list_reads hs hsep)) space_reads)
      (agree_seqL (seqR_reads (sym_eats _).reads (list_reads hs hsep))
        (agree_seqR_lt (sym_eats _) (agree_list hs hsep h)) (AgreeTo.refl _ _)) (AgreeTo.refl _ _)
  · exact agree_seqL (seqL_reads (seqR_reads (sym_eats _).reads hs) space_reads)
      (agree_seqL (seqR_reads (sym_eats _).reads hs) (agree_seqR_lt (sym_eats _) h) (AgreeTo.refl _ _))
      (AgreeTo.refl _ _)

theorem agree_postfix : AgreeTo (k + 1) (postfixExpr sub) (postfixExpr sub') :=
  agree_map (agree_seq (primary_eats hs).reads (agree_primary hs h)
    (agree_many (postfixItem_eats hs).reads (agree_seqR space_reads (AgreeTo.refl _ _) (agree_postfixOp hs h))))

theorem agree_unary : AgreeTo (k + 1) (unaryExpr sub) (unaryExpr sub') :=
  agree_map (agree_seq (seqL_reads (many_reads prefixItem_eats.reads) space_reads) (AgreeTo.refl _ _)
    (agree_postfix hs h))

end

theorem agree_binLevel {k : Nat} {ops : P BinOp} {next next' : P Expr} (ho : Reads ops) (hn : Eats next)
    (h : AgreeTo k next next') : AgreeTo k (binLevel ops next) (binLevel ops next') :=
  agree_map (agree_seq hn.reads h (agree_many (binItem_eats ho hn).reads
    (agree_seq (seqL_reads (seqR_reads space_reads ho) space_reads) (AgreeTo.refl _ _) h)))

section
variable {k : Nat} {sub sub' : P Expr} (hs : Reads sub) (h : AgreeTo k sub sub')
include hs h

theorem agree_relation : AgreeTo (k + 1) (relationExpr sub) (relationExpr sub') :=
  agree_binLevel (alt_reads (opTag_reads _ _) (alt_reads (opTag_reads _ _)
    (alt_reads (opTag_reads _ _) (opTag_reads _ _)))) (shift_eats hs) <|
  agree_binLevel (alt_reads (opTag_reads _ _) (opTag_reads _ _)) (add_eats hs) <|
  agree_binLevel (alt_reads (opTag_reads _ _) (opTag_reads _ _)) (mult_eats hs) <|
  agree_binLevel (alt_reads (opTag_reads _ _) (alt_reads (opTag_reads _ _) (opTag_reads _ _))) (unary_eats hs) <|
  agree_unary hs h

theorem agree_eq : AgreeTo (k + 1) (eqExpr sub) (eqExpr sub') :=
  agree_map (agree_seq (relation_eats hs).reads (agree_relation hs h) (agree_opt
    (agree_seq (seqL_reads (seqR_reads space_reads (alt_reads (opTag_reads _ _) (opTag_reads _ _))) space_reads)
      (AgreeTo.refl _ _) (agree_relation hs h))))

theorem agree_or : AgreeTo (k + 1) (orExpr sub) (orExpr sub') :=
  agree_binLevel (opTag_reads _ _) (and_eats hs) <|
  agree_binLevel (opTag_reads _ _) (bitOr_eats hs) <|
  agree_binLevel (map_reads (sym_eats _).reads) (bitXor_eats hs) <|
  agree_binLevel (map_reads (sym_eats _).reads) (bitAnd_eats hs) <|
  agree_binLevel (map_reads (sym_eats _).reads) (eq_eats hs) <|
  agree_eq hs h

end

/-! ### a level fails where its operands cannot start -/

theorem binLevel_none {ops : P BinOp} {next : P Expr} {s : Str} (h : next s = none) : binLevel ops next s = none := by
  simp only [binLevel, map, seq, h]

theorem eqExpr_none {sub : P Expr} {s : Str} (h : relationExpr sub s = none) : eqExpr sub s = none := by
  simp only [eqExpr, map, seq, h]

theorem add_none {sub : P Expr} {s : Str} (h : unaryExpr sub s = none) : addExpr sub s = none :=
  binLevel_none (binLevel_none h)

theorem relation_none {sub : P Expr} {s : Str} (h : unaryExpr sub s = none) : relationExpr sub s = none :=
  binLevel_none (binLevel_none (add_none h))

theorem eq_none {sub : P Expr} {s : Str} (h : unaryExpr sub s = none) : eqExpr sub s = none :=
  eqExpr_none (relation_none h)

theorem bitXor_none {sub : P Expr} {s : Str} (h : unaryExpr sub s = none) : bitXorExpr sub s = none :=
  binLevel_none (binLevel_none (eq_none h))

theorem bitOr_none {sub : P Expr} {s : Str} (h : unaryExpr sub s = none) : bitOrExpr sub s = none :=
  binLevel_none (bitXor_none h)

theorem or_none {sub : P Expr} {s : Str} (h : unaryExpr sub s = none) : orExpr sub s = none :=
  binLevel_none (binLevel_none (bitOr_none h))

theorem or_empty (sub : P Expr) : orExpr sub [] = none := or_none rfl

theorem exprF_empty : ∀ n, exprF n [] = none
  | 0 => rfl
  | n + 1 => by
    have h : exprF (n + 1) [] = orExpr (exprF n) [] := rfl
    rw [h, or_empty]

theorem expr_empty : expr [] = none := exprF_empty _

theorem stmt_empty (sub : P (List Stmt)) : stmt sub [] = none := by
  have ha : assignStmt [] = none := by simp only [assignStmt, alt, map, seq, seqL, expr_empty]
  have hx : exprStmt [] = none := by simp only [exprStmt, map, expr_empty]
  have hb : builtinStmt [] = none := rfl
  have hj : jumpStmt [] = none := rfl
  have hs : stmtSemicolon [] = none := by simp only [stmtSemicolon, seqL, alt, ha, hx, hb, hj]
  have hk : blockStmt sub [] = none := rfl
  have hsp : space [] = some ((), []) := rfl
  simp only [stmt, seqL, seqR, hsp, alt, hs, hk]

/-- Any two bounds larger than the input give the same expression. -/
theorem exprF_bound : ∀ (k n m : Nat), k < n → k < m → AgreeTo k (exprF n) (exprF m)
  | _, 0, _, hn, _ => by omega
  | _, _, 0, _, hm => by omega
  | 0, n + 1, m + 1, _, _ => fun s hs => by
    have hnil : s = [] := List.length_eq_zero_iff.1 (by omega)
    subst hnil
    rw [exprF_empty, exprF_empty]
  | k + 1, n + 1, m + 1, hn, hm => by
    have ih := exprF_bound k n m (by omega) (by omega)
    intro s hs
    simp only [exprF]
    exact agree_seqR space_reads (AgreeTo.refl _ _) (agree_or (exprF_eats n).reads ih) s hs

theorem exprF_eq_expr {n : Nat} {s : Str} (h : s.length < n) : exprF n s = expr s :=
  exprF_bound s.length n (s.length + 1) h (by omega) s (by omega)

/-- The unfolded grammar of expressions: the nested rule is the rule itself. -/
theorem expr_unfold (s : Str) : expr s = seqR space (orExpr expr) s := by
  have h1 : exprF (s.length + 1) s = seqR space (orExpr (exprF s.length)) s := rfl
  rw [expr, h1]
  cases hl : s.length with
  | zero =>
    have hnil : s = [] := List.length_eq_zero_iff.1 hl
    subst hnil
    have h2 : ∀ sub, seqR space (orExpr sub) [] = orExpr sub [] := fun _ => rfl
    rw [h2, h2, or_empty, or_empty]
  | succ n =>
    have hag : AgreeTo n (exprF (n + 1)) expr := fun t ht => exprF_eq_expr (by omega)
    exact agree_seqR space_reads (AgreeTo.refl _ _) (agree_or (exprF_eats _).reads hag) s (by omega)

section
variable {k : Nat} {sub sub' : P (List Stmt)} (hs : Reads sub) (h : AgreeTo k sub sub')
include hs h

theorem agree_block : AgreeTo (k + 1) (blockStmt sub) (blockStmt sub') := by
  refine agree_alt (agree_map ?_) (agree_alt (agree_map ?_) (agree_map ?_))
  · refine agree_seq (seqL_reads (seqL_reads (seq_reads (seqL_reads (seqL_reads (seqR_reads (tag_reads _) expr_eats.reads)
      space_reads) (sym_eats _).reads) hs) space_reads) (sym_eats _).reads) ?_ (agree_opt ?_)
    · refine agree_seqL (seqL_reads (seq_reads (seqL_reads (seqL_reads (seqR_reads (tag_reads _) expr_eats.reads)
        space_reads) (sym_eats _).reads) hs) space_reads) ?_ (AgreeTo.refl _ _)
      refine agree_seqL (seq_reads (seqL_reads (seqL_reads (seqR_reads (tag_reads _) expr_eats.reads)
        space_reads) (sym_eats _).reads) hs) ?_ (AgreeTo.refl _ _)
      exact agree_seq_lt (seqL_eats_r (seqL_reads (seqR_reads (tag_reads _) expr_eats.reads) space_reads) (sym_eats _))
        (AgreeTo.refl _ _) h
    · have hpre : Eats (seqR (seqR (seqR space (tag s!' "else")) space) (sym '{')) :=
        seqR_eats_r (seqR_reads (seqR_reads space_reads (tag_reads _)) space_reads) (sym_eats _)
      exact agree_seqL (seqL_reads (seqR_reads hpre.reads hs) space_reads)
        (agree_seqL (seqR_reads hpre.reads hs) (agree_seqR_lt hpre h) (AgreeTo.refl _ _)) (AgreeTo.refl _ _)
  · have hpre : Eats (seqL (seqL (seqR (tag s!' "while") expr) space) (sym '{')) :=
      seqL_eats_r (seqL_reads (seqR_reads (tag_reads _) expr_eats.reads) space_reads) (sym_eats _)
    exact agree_seqL (seqL_reads (seq_reads hpre.reads hs) space_reads)
      (agree_seqL (seq_reads hpre.reads hs) (agree_seq_lt hpre (AgreeTo.refl _ _) h) (AgreeTo.refl _ _))
      (AgreeTo.refl _ _)
  · have hpre : Eats (seqL (seqL (seq (seqL (seqL (seqR (seqR (tag s!' "for") space) ident) space) (tag s!' "in")) expr)
        space) (sym '{')) :=
      seqL_eats_r (seqL_reads (seq_reads (seqL_reads (seqL_reads (seqR_reads (seqR_reads (tag_reads _) space_reads)
        ident_eats.reads) space_reads) (tag_reads _)) expr_eats.reads) space_reads) (sym_eats _)
    exact agree_seqL (seqL_reads (seq_reads hpre.reads hs) space_reads)
      (agree_seqL (seq_reads hpre.reads hs) (agree_seq_lt hpre (AgreeTo.refl _ _) h) (AgreeTo.refl _ _))
      (AgreeTo.refl _ _)

theorem agree_stmt : AgreeTo (k + 1) (stmt sub) (stmt sub') :=
  agree_seqL (seqR_reads space_reads (alt_reads stmtSemicolon_eats.reads (block_eats hs).reads))
    (agree_seqR space_reads (AgreeTo.refl _ _) (agree_alt (AgreeTo.refl _ _) (agree_block hs h))) (AgreeTo.refl _ _)

end

/-- Any two bounds larger than the input give the same statements. -/
theorem stmtsF_bound : ∀ (k n m : Nat), k < n → k < m → AgreeTo k (stmtsF n) (stmtsF m)
  | _, 0, _, hn, _ => by omega
  | _, _, 0, _, hm => by omega
  | 0, n + 1, m + 1, _, _ => fun s hs => by
    have hnil : s = [] := List.length_eq_zero_iff.1 (by omega)
    subst hnil
    simp only [stmtsF, many_none (stmt_empty _)]
  | k + 1, n + 1, m + 1, hn, hm => by
    have ih := stmtsF_bound k n m (by omega) (by omega)
    intro s hs
    simp only [stmtsF]
    exact agree_many (stmt_eats (stmtsF_reads n)).reads (agree_stmt (stmtsF_reads n) ih) s hs

theorem stmtsF_eq_stmts {n : Nat} {s : Str} (h : s.length < n) : stmtsF n s = stmts s :=
  stmtsF_bound s.length n (s.length + 1) h (by omega) s (by omega)

/-- The unfolded grammar of programs: the nested rule is the rule itself. -/
theorem stmts_unfold (s : Str) : stmts s = many (stmt stmts) s := by
  have h1 : stmtsF (s.length + 1) s = many (stmt (stmtsF s.length)) s := rfl
  rw [stmts, h1]
  cases hl : s.length with
  | zero =>
    have hnil : s = [] := List.length_eq_zero_iff.1 hl
    subst hnil
    simp only [many_none (stmt_empty _)]
  | succ n =>
    have hag : AgreeTo n (stmtsF (n + 1)) stmts := fun t ht => stmtsF_eq_stmts (by omega)
    exact agree_many (stmt_eats (stmtsF_reads _)).reads (agree_stmt (stmtsF_reads _) hag) s (by omega)

end Btrd
