/-
C41, C42: printed text.
-/
import Verif.Lemmas.Display
import Verif.Model.Eval

namespace Btrd
open Spec

/-- C41: turning a byte string into text never fails, with white space escaped (`w = true`) or left alone;
the text is printable ASCII, except for white space that was asked to be left alone. -/
theorem C41_string_text_total (w : Bool) (s : Bytes) :
    ∃ t, (Value.str s).asString w = .ok t ∧ ∀ c ∈ t, Printable c ∨ (w = false ∧ AsciiSpace c) := by
  refine ⟨_, fromAscii_escape w s, ?_⟩
  intro c hc
  obtain ⟨b, hb, rfl⟩ := List.mem_map.1 hc
  rcases escapeBytes_mem hb with ⟨h1, h2⟩ | ⟨h1, h2⟩
  · left
    rw [Printable, charOfByte]
    exact ⟨UInt8.le_iff_toNat_le.1 h1, UInt8.le_iff_toNat_le.1 h2⟩
  · right
    refine ⟨h1, ?_⟩
    rw [AsciiSpace, charOfByte]
    simp only [isAsciiWhitespace, Bool.or_eq_true, beq_iff_eq] at h2
    rcases h2 with (((h | h) | h) | h) | h <;> subst h <;> decide

/-- C41: different byte strings have different texts. -/
theorem C41_string_text_injective (w : Bool) (s t : Bytes)
    (h : (Value.str s).asString w = (Value.str t).asString w) : s = t := by
  simp only [Value.asString, fromAscii_escape, Except.ok.injEq] at h
  exact escapeBytes_inj w s t (charMap_inj _ _ h)

/-- C41: the text with white space escaped is the concatenation of the texts of the bytes. -/
theorem C41_string_text_bytewise (s : Bytes) : (Value.str s).asString true = .ok (s.flatMap byteText) := by
  simp only [Value.asString, fromAscii_escape, escapeBytes_byteText]

/-- C41: and so is what an interactive expression statement or `str()` shows of a string. -/
theorem C41_string_display (s : Bytes) : (Value.str s).display = .ok (s.flatMap byteText) := by
  simp only [Value.display, fromAscii_escape, escapeBytes_byteText]

/-- C41: what `print` writes for an expression with a string value, to a sink that accepts everything: the
text with white space left alone, and a line feed. In particular `print` succeeds. -/
theorem C41_print_string (cfg : Cfg) (st : State) (e : Expr) (s : Bytes) (h : evalExpr cfg st e = .ok (.str s))
    (hr : st.sink.room = none) :
    ∃ t, (Value.str s).asString false = .ok t ∧ (evalStmt cfg (.print e) st).2 = .ok ∧
      (evalStmt cfg (.print e) st).1.sink.out = st.sink.out ++ t ++ ['\n'] := by
  refine ⟨_, fromAscii_escape false s, ?_⟩
  rw [evalStmt, evalPrint, h]
  simp only [printText, Value.asString, fromAscii_escape, State.write, Sink.write, hr]
  simp

/-- C41: two strings that print alike are equal. -/
theorem C41_print_injective (cfg : Cfg) (st : State) (e e' : Expr) (s s' : Bytes)
    (h : evalExpr cfg st e = .ok (.str s)) (h' : evalExpr cfg st e' = .ok (.str s')) (hr : st.sink.room = none)
    (hp : (evalStmt cfg (.print e) st).1.sink.out = (evalStmt cfg (.print e') st).1.sink.out) : s = s' := by
  obtain ⟨t, h1, -, h2⟩ := C41_print_string cfg st e s h hr
  obtain ⟨t', h1', -, h2'⟩ := C41_print_string cfg st e' s' h' hr
  rw [h2, h2'] at hp
  have : t = t' := by simpa using hp
  subst this
  exact C41_string_text_injective false s s' (h1.trans h1'.symm)

/-- the hypotheses of `C41_print_string` are met -/
example (cfg : Cfg) (st : State) : evalExpr cfg st (.str s!' "a\"é\n") = .ok (.str (utf8 s!' "a\"é\n")) := by
  rw [evalExpr]

set_option maxRecDepth 100000 in
/-- and this is what such a string looks like -/
example : (Value.str [97, 34, 0xc3, 0xa9, 10]).display = .ok s!' "a\\\"\\xc3\\xa9\\n" := by rfl

/-- C42: displaying any value, nested to any depth, succeeds. -/
theorem C42_display_total (v : Value) : ∃ t, v.display = .ok t := display_total v

/-- C42: the text of any value whose struct and field names are printable consists of printable lines,
laid out as specified by `shown`. -/
theorem C42_display_layout (v : Value) (h : PlainNames v) :
    v.display = .ok (unlines (shown v)) ∧ ∀ l ∈ shown v, ∀ c ∈ l, Printable c :=
  ⟨display_shown v h, shown_plain v h⟩

theorem unlines_mem : ∀ (ls : List Str) (c : Char), c ∈ unlines ls → c = '\n' ∨ ∃ l ∈ ls, c ∈ l
  | [], c, h => by simp [unlines] at h
  | [l], c, h => .inr ⟨l, by simp, by simpa [unlines] using h⟩
  | l :: m :: ls, c, h => by
    have h3 : unlines (l :: m :: ls) = l ++ ['\n'] ++ unlines (m :: ls) := by rw [unlines]; simp
    rw [h3] at h
    simp only [List.mem_append, List.mem_singleton] at h
    rcases h with (h | h) | h
    · exact .inr ⟨l, by simp, h⟩
    · exact .inl h
    · rcases unlines_mem (m :: ls) c h with h | ⟨x, hx, h⟩
      · exact .inl h
      · exact .inr ⟨x, by simp only [List.mem_cons] at hx ⊢; exact .inr hx, h⟩

/-- C42: and that text is made of printable ASCII characters and line feeds. -/
theorem C42_display_ascii (v : Value) (h : PlainNames v) (t : Str) (ht : v.display = .ok t) :
    ∀ c ∈ t, c = '\n' ∨ Printable c := by
  obtain ⟨h1, h2⟩ := C42_display_layout v h
  rw [h1] at ht
  cases ht
  intro c hc
  rcases unlines_mem _ c hc with rfl | ⟨l, hl, hc⟩
  · exact .inl rfl
  · exact .inr (h2 l hl c hc)

/-- C42: so printing anything that is not a histogram succeeds on a sink that accepts everything. -/
theorem C42_print_total (cfg : Cfg) (st : State) (e : Expr) (v : Value) (h : evalExpr cfg st e = .ok v)
    (hh : ∀ vec, v ≠ .array vec true) (hr : st.sink.room = none) : (evalStmt cfg (.print e) st).2 = .ok := by
  have : ∃ t, printText cfg v = .ok t := by
    unfold printText
    split
    · exact absurd rfl (hh _)
    · exact ⟨_, fromAscii_escape _ _⟩
    · exact display_total _
  obtain ⟨t, ht⟩ := this
  rw [evalStmt, evalPrint, h]
  simp only [ht, State.write, Sink.write, hr]

/-- a nested value and its display -/
def displaySample : Value :=
  .struct s!' "key" none [(s!' "id", .int (-5)), (s!' "names", .array [.str [10], .bool true] false)]

example : PlainNames displaySample := by
  simp only [displaySample, PlainNames, plainFields, plainItems, and_true]
  decide

set_option maxRecDepth 100000 in
example : displaySample.display = .ok
    s!' "struct key {\n    .id = -5,\n    .names = [\n        \\n,\n        true,\n    ],\n}" := by rfl

end Btrd
