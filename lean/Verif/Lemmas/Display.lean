/-
Lemmas about displaying values.
-/
import Verif.Spec.Display
import Verif.Model.Hist

namespace Btrd
open Spec

theorem forall_byte {P : UInt8 → Prop} (h : ∀ n, n < 256 → P (UInt8.ofNat n)) (b : UInt8) : P b := by
  have := h b.toNat (UInt8.toNat_lt b)
  rwa [UInt8.ofNat_toNat] at this

/-! ### strings -/

/-- undo the escaping of one byte -/
def unescape1 : Bytes → UInt8
  | [c] => c
  | [_, c] => if c = 116 then 9 else if c = 114 then 13 else if c = 110 then 10 else c
  | [_, _, h, l] =>
    let d (c : UInt8) : UInt8 := if c < 58 then c - 48 else c - 87
    d h * 16 + d l
  | _ => 0

set_option maxRecDepth 100000 in
theorem unescape1_escape (b : UInt8) : unescape1 (escapeDefault b) = b :=
  forall_byte (P := fun b => unescape1 (escapeDefault b) = b) (by decide) b

/-- the three shapes of an escaped byte -/
def shapeB (l : Bytes) : Bool :=
  match l with
  | [c] => c != 92
  | [a, c] => a == 92 && c != 120
  | [a, x, _, _] => a == 92 && x == 120
  | _ => false

set_option maxRecDepth 100000 in
theorem shape_escape (b : UInt8) : shapeB (escapeDefault b) = true :=
  forall_byte (P := fun b => shapeB (escapeDefault b) = true) (by decide) b

theorem shape_prefix {l m r s : Bytes} (hl : shapeB l = true) (hm : shapeB m = true) (h : l ++ r = m ++ s) :
    l = m ∧ r = s := by
  unfold shapeB at hl hm
  split at hl <;> split at hm <;> simp_all

def escByte (w : Bool) (b : UInt8) : Bytes :=
  if !w && isAsciiWhitespace b then [b] else escapeDefault b

set_option maxRecDepth 100000 in
theorem shape_escByte (w : Bool) (b : UInt8) : shapeB (escByte w b) = true := by
  unfold escByte
  split
  · rename_i h
    simp only [isAsciiWhitespace, Bool.and_eq_true, Bool.or_eq_true, beq_iff_eq] at h
    rcases h.2 with (((h | h) | h) | h) | h <;> subst h <;> rfl
  · exact shape_escape b

set_option maxRecDepth 100000 in
theorem escByte_inj (w : Bool) (a b : UInt8) (h : escByte w a = escByte w b) : a = b := by
  unfold escByte at h
  have key : ∀ x y : UInt8, isAsciiWhitespace x = true → isAsciiWhitespace y = false → [x] ≠ escapeDefault y := by
    intro x y hx hy he
    have h1 := unescape1_escape y
    rw [← he] at h1
    simp only [unescape1] at h1
    subst h1
    rw [hx] at hy
    cases hy
  split at h <;> rename_i h1 <;> split at h <;> rename_i h2
  · simpa using h
  · simp only [Bool.and_eq_true, Bool.not_eq_true', not_and, Bool.not_eq_true] at h1 h2
    exact absurd h (key a b h1.2 (h2 h1.1))
  · simp only [Bool.and_eq_true, Bool.not_eq_true', not_and, Bool.not_eq_true] at h1 h2
    exact absurd h.symm (key b a h2.2 (h1 h2.1))
  · rw [← unescape1_escape a, ← unescape1_escape b, h]

theorem escapeBytes_inj (w : Bool) : ∀ s t : Bytes, escapeBytes w s = escapeBytes w t → s = t := by
  intro s
  induction s with
  | nil =>
    intro t h
    cases t with
    | nil => rfl
    | cons b t =>
      have hb := shape_escByte w b
      have h : ([] : Bytes) = escByte w b ++ escapeBytes w t := by simpa [escapeBytes, escByte] using h
      have : escByte w b = [] := by
        have := congrArg List.length h
        simp only [List.length_nil, List.length_append] at this
        exact List.eq_nil_of_length_eq_zero (by omega)
      rw [this] at hb
      simp [shapeB] at hb
  | cons a s ih =>
    intro t h
    cases t with
    | nil =>
      have hb := shape_escByte w a
      have h : escByte w a ++ escapeBytes w s = ([] : Bytes) := by simpa [escapeBytes, escByte] using h
      have : escByte w a = [] := by simpa using (List.append_eq_nil_iff.1 h).1
      rw [this] at hb
      simp [shapeB] at hb
    | cons b t =>
      have h : escByte w a ++ escapeBytes w s = escByte w b ++ escapeBytes w t := by
        simpa [escapeBytes, escByte] using h
      obtain ⟨h1, h2⟩ := shape_prefix (shape_escByte w a) (shape_escByte w b) h
      rw [escByte_inj w a b h1, ih t h2]

set_option maxRecDepth 100000 in
theorem escapeDefault_printable (b : UInt8) : ∀ c ∈ escapeDefault b, 32 ≤ c ∧ c ≤ 126 :=
  forall_byte (P := fun b => ∀ c ∈ escapeDefault b, 32 ≤ c ∧ c ≤ 126) (by decide) b

theorem escapeBytes_mem {w : Bool} {s : Bytes} {c : UInt8} (h : c ∈ escapeBytes w s) :
    (32 ≤ c ∧ c ≤ 126) ∨ (w = false ∧ isAsciiWhitespace c = true) := by
  unfold escapeBytes at h
  obtain ⟨b, -, hb⟩ := List.mem_flatMap.1 h
  split at hb
  · rename_i h
    simp only [List.mem_singleton] at hb
    subst hb
    simp only [Bool.and_eq_true, Bool.not_eq_true'] at h
    exact .inr h
  · exact .inl (escapeDefault_printable b c hb)

set_option maxRecDepth 100000 in
theorem escapeBytes_ascii (w : Bool) (s : Bytes) : (escapeBytes w s).all (· < 128) = true := by
  rw [List.all_eq_true]
  intro c hc
  rw [decide_eq_true_eq]
  rcases escapeBytes_mem hc with ⟨-, h⟩ | ⟨-, h⟩
  · exact UInt8.lt_of_le_of_lt h (by decide)
  · simp only [isAsciiWhitespace, Bool.or_eq_true, beq_iff_eq] at h
    rcases h with (((h | h) | h) | h) | h <;> subst h <;> decide

theorem fromAscii_escape (w : Bool) (s : Bytes) :
    fromAscii (escapeBytes w s) = .ok ((escapeBytes w s).map fun b => Char.ofNat b.toNat) := by
  simp only [fromAscii, escapeBytes_ascii, if_true]

set_option maxRecDepth 100000 in
theorem charOfByte (b : UInt8) : (Char.ofNat b.toNat).toNat = b.toNat :=
  forall_byte (P := fun b => (Char.ofNat b.toNat).toNat = b.toNat) (by decide) b

theorem charMap_inj : ∀ a b : Bytes,
    (a.map fun b => Char.ofNat b.toNat) = (b.map fun b => Char.ofNat b.toNat) → a = b := by
  intro a
  induction a with
  | nil => intro b h; cases b with
    | nil => rfl
    | cons => simp at h
  | cons x a ih =>
    intro b h
    cases b with
    | nil => simp at h
    | cons y b =>
      simp only [List.map_cons, List.cons.injEq] at h
      have : x = y := by
        have := congrArg Char.toNat h.1
        rw [charOfByte, charOfByte] at this
        exact UInt8.toNat_inj.1 this
      rw [this, ih b h.2]

set_option maxRecDepth 100000 in
theorem escape_byteText (b : UInt8) : (escapeDefault b).map (fun b => Char.ofNat b.toNat) = byteText b :=
  forall_byte (P := fun b => (escapeDefault b).map (fun b => Char.ofNat b.toNat) = byteText b) (by decide) b

theorem escapeBytes_byteText (s : Bytes) :
    (escapeBytes true s).map (fun b => Char.ofNat b.toNat) = s.flatMap byteText := by
  induction s with
  | nil => rfl
  | cons b s ih =>
    simp only [escapeBytes, List.flatMap_cons, Bool.not_true, Bool.false_and] at ih ⊢
    simp only [List.map_append, if_neg (Bool.false_ne_true)] at ih ⊢
    rw [escape_byteText, ih]

/-! ### lines -/

/-- no line breaks inside -/
def Flat (l : Str) : Prop := ∀ c ∈ l, c ≠ '\n' ∧ c ≠ '\r'

theorem lines_flat_cons {l : Str} (hl : Flat l) (rest : Str) : lines (l ++ '\n' :: rest) = l :: lines rest := by
  induction l with
  | nil => simp [lines]
  | cons c l ih =>
    have hc := hl c (by simp)
    have hr := ih (fun d hd => hl d (by simp [hd]))
    simp only [List.cons_append, lines, hc.1, hc.2, if_false, false_and, hr, lines.consHead]

theorem lines_flat {l : Str} (hl : Flat l) (hne : l ≠ []) : lines l = [l] := by
  induction l with
  | nil => exact absurd rfl hne
  | cons c l ih =>
    have hc := hl c (by simp)
    cases l with
    | nil => simp [lines, hc.1, hc.2, lines.consHead]
    | cons d l =>
      have hr := ih (fun d hd => hl d (by simp [hd])) (by simp)
      rw [lines]
      simp only [hc.1, hc.2, if_false, false_and, hr, lines.consHead]

theorem addComma_ne {ls : List Str} (h : ls ≠ []) : addComma ls ≠ [] := by
  cases ls with
  | nil => exact absurd rfl h
  | cons l ls => cases ls <;> simp [addComma]

theorem unlines_comma : ∀ ls : List Str, ls ≠ [] → unlines ls ++ [','] = unlines (addComma ls)
  | [], h => absurd rfl h
  | [l], _ => by simp [unlines, addComma]
  | l :: m :: ls, _ => by
    have := unlines_comma (m :: ls) (by simp)
    have hne := addComma_ne (ls := m :: ls) (by simp)
    have h1 : unlines (l :: m :: ls) = l ++ ['\n'] ++ unlines (m :: ls) := by rw [unlines]; simp
    have h2 : addComma (l :: m :: ls) = l :: addComma (m :: ls) := by rw [addComma]; simp
    rw [h1, h2]
    cases h : addComma (m :: ls) with
    | nil => exact absurd h hne
    | cons x xs =>
      have h3 : unlines (l :: x :: xs) = l ++ ['\n'] ++ unlines (x :: xs) := by rw [unlines]; simp
      rw [h3, ← h, ← this, List.append_assoc]

theorem lines_unlines : ∀ ls : List Str, (∀ l ∈ ls, Flat l) → (ls.getLast? ≠ some []) → lines (unlines ls) = ls
  | [], _, _ => by simp [unlines, lines]
  | [l], h, hl => by
    rw [unlines]
    exact lines_flat (h l (by simp)) (by simpa using hl)
  | l :: m :: ls, h, hl => by
    have ih := lines_unlines (m :: ls) (fun x hx => h x (by simp [hx])) (by simpa using hl)
    rw [unlines]
    · rw [List.append_assoc, List.singleton_append, lines_flat_cons (h l (by simp)), ih]
    · simp

theorem addComma_last : ∀ ls : List Str, (addComma ls).getLast? ≠ some []
  | [] => by simp [addComma]
  | [l] => by simp [addComma]
  | l :: m :: ls => by
    have := addComma_last (m :: ls)
    have hne := addComma_ne (ls := m :: ls) (by simp)
    rw [addComma]
    · cases h : addComma (m :: ls) with
      | nil => exact absurd h hne
      | cons x xs =>
        rw [h] at this
        rw [List.getLast?_cons_cons]
        exact this
    · simp

theorem addComma_flat : ∀ ls : List Str, (∀ l ∈ ls, Flat l) → ∀ l ∈ addComma ls, Flat l
  | [], _ => by simp [addComma]
  | [l], h => by
    simp only [addComma, List.mem_singleton, forall_eq]
    intro c hc
    simp only [List.mem_append, List.mem_singleton] at hc
    rcases hc with hc | rfl
    · exact h l (by simp) c hc
    · decide
  | l :: m :: ls, h => by
    have := addComma_flat (m :: ls) (fun x hx => h x (by simp [hx]))
    rw [addComma]
    · intro x hx
      simp only [List.mem_cons] at hx
      rcases hx with rfl | hx
      · exact h _ (by simp)
      · exact this x hx
    · simp

/-- the lines of a shown value with a comma after it -/
theorem lines_comma {ls : List Str} (hne : ls ≠ []) (hf : ∀ l ∈ ls, Flat l) :
    lines (unlines ls ++ [',']) = addComma ls := by
  rw [unlines_comma ls hne]
  exact lines_unlines _ (addComma_flat ls hf) (addComma_last ls)

/-! ### printable lines -/

def PlainLine (l : Str) : Prop := ∀ c ∈ l, Printable c

theorem PlainLine.flat {l : Str} (h : PlainLine l) : Flat l := by
  intro c hc
  have := h c hc
  constructor <;> rintro rfl <;> revert this <;> unfold Printable <;> decide

theorem plainLine_append {a b : Str} (ha : PlainLine a) (hb : PlainLine b) : PlainLine (a ++ b) := by
  intro c hc
  rcases List.mem_append.1 hc with h | h
  · exact ha c h
  · exact hb c h

instance (c : Char) : Decidable (Printable c) := by unfold Printable; infer_instance
instance (l : Str) : Decidable (PlainLine l) := by unfold PlainLine; infer_instance

theorem plain_digits (n : Nat) : PlainLine (Nat.toDigits 10 n) := by
  intro c hc
  have h := Nat.isDigit_of_mem_toDigits (b := 10) (by decide) (by decide) hc
  simp only [Char.isDigit, ge_iff_le, Bool.and_eq_true, decide_eq_true_eq] at h
  have h1 : 48 ≤ c.val.toNat := by have := UInt32.le_iff_toNat_le.1 h.1; simpa using this
  have h2 : c.val.toNat ≤ 57 := by have := UInt32.le_iff_toNat_le.1 h.2; simpa using this
  exact ⟨by simp only [Char.toNat]; omega, by simp only [Char.toNat]; omega⟩

theorem plain_int (i : Int) : PlainLine (intDisplay i) := by
  unfold intDisplay
  split
  · intro c hc
    simp only [List.mem_cons] at hc
    rcases hc with rfl | hc
    · decide
    · exact plain_digits _ c hc
  · exact plain_digits _

set_option maxRecDepth 100000 in
theorem plain_byteText (b : UInt8) : PlainLine (byteText b) :=
  forall_byte (P := fun b => PlainLine (byteText b)) (by decide) b

theorem plain_str (s : Bytes) : PlainLine (s.flatMap byteText) := by
  intro c hc
  obtain ⟨b, -, hb⟩ := List.mem_flatMap.1 hc
  exact plain_byteText b c hb

theorem addComma_plain : ∀ ls : List Str, (∀ l ∈ ls, PlainLine l) → ∀ l ∈ addComma ls, PlainLine l
  | [], _ => by simp [addComma]
  | [l], h => by
    simp only [addComma, List.mem_singleton, forall_eq]
    exact plainLine_append (h l (by simp)) (by decide)
  | l :: m :: ls, h => by
    have := addComma_plain (m :: ls) (fun x hx => h x (by simp [hx]))
    rw [addComma]
    · intro x hx
      simp only [List.mem_cons] at hx
      rcases hx with rfl | hx
      · exact h _ (by simp)
      · exact this x hx
    · simp

theorem deeper_plain {ls : List Str} (h : ∀ l ∈ ls, PlainLine l) : ∀ l ∈ deeper ls, PlainLine l := by
  intro l hl
  simp only [deeper, List.mem_map] at hl
  obtain ⟨m, hm, rfl⟩ := hl
  exact plainLine_append (by decide) (h m hm)

theorem labelled_plain {label : Str} {ls : List Str} (hl : PlainLine label) (h : ∀ l ∈ ls, PlainLine l) :
    ∀ l ∈ labelled label ls, PlainLine l := by
  cases ls with
  | nil => simp [labelled]
  | cons m ls =>
    simp only [labelled, List.mem_cons, forall_eq_or_imp]
    exact ⟨plainLine_append hl (h m (by simp)), fun l hl' => h l (by simp [hl'])⟩

mutual
theorem shown_plain : ∀ v : Value, PlainNames v → ∀ l ∈ shown v, PlainLine l
  | .int i, _ => by simpa [shown, intDisplay] using plain_int i
  | .str s, _ => by simpa only [shown, List.mem_singleton, forall_eq] using plain_str s
  | .bool b, _ => by cases b <;> simp only [shown, List.mem_singleton, forall_eq] <;> decide
  | .func f, _ => by cases f <;> simp only [shown, List.mem_singleton, forall_eq] <;> decide
  | .array vec _, h => by
    simp only [PlainNames] at h
    have := shownItems_plain vec h
    simp only [shown, List.mem_append, List.mem_singleton]
    rintro l ((rfl | hl) | rfl)
    · decide
    · exact this l hl
    · decide
  | .struct name _ fields, h => by
    simp only [PlainNames] at h
    have := shownFields_plain fields h.2
    simp only [shown, List.mem_append, List.mem_singleton]
    rintro l ((rfl | hl) | rfl)
    · exact plainLine_append (plainLine_append (by decide) h.1) (by decide)
    · exact this l hl
    · decide
theorem shownItems_plain : ∀ vs : List Value, plainItems vs → ∀ l ∈ shownItems vs, PlainLine l
  | [], _ => by simp [shownItems]
  | v :: vs, h => by
    simp only [plainItems] at h
    have h1 := deeper_plain (addComma_plain _ (shown_plain v h.1))
    have h2 := shownItems_plain vs h.2
    simp only [shownItems, List.mem_append]
    rintro l (hl | hl)
    · exact h1 l hl
    · exact h2 l hl
theorem shownFields_plain : ∀ fs : List (Str × Value), plainFields fs → ∀ l ∈ shownFields fs, PlainLine l
  | [], _ => by simp [shownFields]
  | (n, v) :: fs, h => by
    simp only [plainFields] at h
    have h1 := deeper_plain (labelled_plain (label := ['.'] ++ n ++ s!' " = ")
      (plainLine_append (plainLine_append (by decide) h.1) (by decide)) (addComma_plain _ (shown_plain v h.2.1)))
    have h2 := shownFields_plain fs h.2.2
    simp only [shownFields, List.mem_append]
    rintro l (hl | hl)
    · exact h1 l hl
    · exact h2 l hl
end

theorem shown_ne (v : Value) : shown v ≠ [] := by cases v <;> simp [shown]

/-! ### the display of a value is its lines -/

/-- every line followed by a line feed -/
def terminated (ls : List Str) : Str := ls.flatMap (· ++ ['\n'])

theorem unlines_snoc (ls : List Str) (l : Str) : unlines (ls ++ [l]) = terminated ls ++ l := by
  induction ls with
  | nil => simp [unlines, terminated]
  | cons m ls ih =>
    have : ls ++ [l] ≠ [] := by simp
    rw [List.cons_append]
    cases h : ls ++ [l] with
    | nil => exact absurd h this
    | cons x xs =>
      rw [unlines, ← h, ih]
      · simp [terminated]
      · simp

theorem indentLines_eq (ls : List Str) : indentLines ls = terminated (deeper ls) := by
  induction ls with
  | nil => rfl
  | cons l ls ih =>
    simp only [indentLines, List.flatMap_cons, deeper, List.map_cons, terminated, indent1] at ih ⊢
    rw [ih]

theorem terminated_append (a b : List Str) : terminated (a ++ b) = terminated a ++ terminated b := by
  simp [terminated]

theorem fieldDisplay_eq (name : Str) {ls : List Str} (hne : ls ≠ []) (hf : ∀ l ∈ ls, Flat l) :
    fieldDisplay name (unlines ls) =
      .ok (terminated (deeper (labelled (['.'] ++ name ++ s!' " = ") (addComma ls)))) := by
  rw [fieldDisplay, lines_comma hne hf]
  have := addComma_ne hne
  cases h : addComma ls with
  | nil => exact absurd h this
  | cons l m =>
    simp only [labelled, deeper, List.map_cons]
    simp only [terminated, List.flatMap_cons, indent1, indentLines_eq, deeper]
    simp

mutual
theorem display_shown : ∀ v : Value, PlainNames v → v.display = .ok (unlines (shown v))
  | .int i, _ => by simp [Value.display, shown, unlines, intDisplay]
  | .str s, _ => by
    simp only [Value.display, fromAscii_escape, escapeBytes_byteText, shown, unlines]
  | .bool b, _ => by cases b <;> rfl
  | .func f, _ => by simp [Value.display, shown, unlines]
  | .array vec _, h => by
    simp only [PlainNames] at h
    have := displayItems_shown vec h
    simp only [Value.display, this, shown]
    rw [unlines_snoc, terminated_append]
    simp [terminated]
  | .struct name _ fields, h => by
    simp only [PlainNames] at h
    have := displayFields_shown fields h.2
    simp only [Value.display, this, shown]
    rw [unlines_snoc, terminated_append]
    simp [terminated]
theorem displayItems_shown : ∀ vs : List Value, plainItems vs → displayItems vs = .ok (terminated (shownItems vs))
  | [], _ => rfl
  | v :: vs, h => by
    simp only [plainItems] at h
    have h1 := display_shown v h.1
    have h2 := displayItems_shown vs h.2
    simp only [displayItems, h1, h2, shownItems, terminated_append]
    rw [lines_comma (shown_ne v) (fun l hl => (shown_plain v h.1 l hl).flat), indentLines_eq]
theorem displayFields_shown : ∀ fs : List (Str × Value), plainFields fs →
    displayFields fs = .ok (terminated (shownFields fs))
  | [], _ => rfl
  | (n, v) :: fs, h => by
    simp only [plainFields] at h
    have h1 := display_shown v h.2.1
    have h2 := displayFields_shown fs h.2.2
    simp only [displayFields, h1, h2, shownFields, terminated_append]
    rw [fieldDisplay_eq n (shown_ne v) (fun l hl => (shown_plain v h.2.1 l hl).flat)]
end

/-! ### displaying never fails, whatever the names -/

theorem lines_comma_ne (t : Str) : lines (t ++ [',']) ≠ [] := by
  induction t with
  | nil => simp [lines, lines.consHead]
  | cons c t ih =>
    simp only [List.cons_append, lines]
    split
    · simp
    · split
      · exact ih
      · cases lines (t ++ [',']) <;> simp [lines.consHead]

mutual
theorem display_total : ∀ v : Value, ∃ t, v.display = .ok t
  | .int i => ⟨_, rfl⟩
  | .str s => by simp only [Value.display, fromAscii_escape]; exact ⟨_, rfl⟩
  | .bool b => ⟨_, rfl⟩
  | .func f => ⟨_, rfl⟩
  | .array vec _ => by
    obtain ⟨t, h⟩ := displayItems_total vec
    simp only [Value.display, h]; exact ⟨_, rfl⟩
  | .struct name _ fields => by
    obtain ⟨t, h⟩ := displayFields_total fields
    simp only [Value.display, h]; exact ⟨_, rfl⟩
theorem displayItems_total : ∀ vs : List Value, ∃ t, displayItems vs = .ok t
  | [] => ⟨_, rfl⟩
  | v :: vs => by
    obtain ⟨t, h⟩ := display_total v
    obtain ⟨u, h'⟩ := displayItems_total vs
    simp only [displayItems, h, h']; exact ⟨_, rfl⟩
theorem displayFields_total : ∀ fs : List (Str × Value), ∃ t, displayFields fs = .ok t
  | [] => ⟨_, rfl⟩
  | (n, v) :: fs => by
    obtain ⟨t, h⟩ := display_total v
    obtain ⟨u, h'⟩ := displayFields_total fs
    have := lines_comma_ne t
    simp only [displayFields, h, h', fieldDisplay]
    cases hl : lines (t ++ [',']) with
    | nil => exact absurd hl this
    | cons l ls => exact ⟨_, rfl⟩
end

end Btrd
