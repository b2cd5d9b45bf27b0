/-
C77: `typeof()` and `str()`.
-/
import Verif.Spec.Reflect
import Verif.Props.Builtins
import Verif.Props.Display

namespace Btrd
open Spec

theorem utf8_inj {s t : Str} (h : utf8 s = utf8 t) : s = t := by
  have h1 : s.utf8Encode = t.utf8Encode := congrArg List.toByteArray h
  have h2 : String.ofList s = String.ofList t := by
    rw [← String.toByteArray_inj]
    exact h1
  exact String.ofList_injective h2

theorem callFn_typeOf (cfg : Cfg) (fs : Option Fs) (args : List (R Value)) :
    callFn cfg fs (.ok (.func .typeOf)) args = typeofFn args := rfl
theorem callFn_str (cfg : Cfg) (fs : Option Fs) (args : List (R Value)) :
    callFn cfg fs (.ok (.func .str)) args = strFn args := rfl

theorem typeName_total (v : Value) : ∃ n, TypeName v n := by
  cases v <;> exact ⟨_, by constructor⟩

theorem typeName_typeStr {v : Value} {n : Str} (h : TypeName v n) : v.typeStr = n := by
  cases h <;> rfl

theorem arg1_ok {msg : Str} {args : List (R Value)} {v : Value} (h : arg1 msg args = .ok v) : args = [.ok v] := by
  unfold arg1 at h
  obtain ⟨_, h1, hh⟩ := bind_ok h
  match args, h1, hh with
  | [], h1, _ => exact absurd h1 (by simp [ensure, R.err])
  | [a], _, hh => simp only at hh; rw [hh]
  | _ :: _ :: _, h1, _ => exact absurd h1 (by simp [ensure, R.err])

theorem arg1_one (msg : Str) (r : R Value) : arg1 msg [r] = r := rfl

section
variable (cfg : Cfg) (st : State)

/-- **C77**: `typeof(e)` is the name of the type of `e` -/
theorem C77_typeof (f a : Expr) (v : Value) (n : Str) (hf : evalExpr cfg st f = .ok (.func .typeOf))
    (ha : evalExpr cfg st a = .ok v) (hn : TypeName v n) :
    evalExpr cfg st (.call f [a]) = .ok (.str (utf8 n)) := by
  rw [evalExpr_call cfg st f .typeOf _ hf, List.map_cons, List.map_nil, ha, callFn_typeOf]
  simp only [typeofFn, arg1_one, bind, Except.bind, typeName_typeStr hn]

/-- **C77**: `typeof` takes one argument, of any type -/
theorem C77_typeof_iff (f : Expr) (args : List Expr) (hf : evalExpr cfg st f = .ok (.func .typeOf)) :
    (∃ w, evalExpr cfg st (.call f args) = .ok w) ↔ ∃ a v, args = [a] ∧ evalExpr cfg st a = .ok v := by
  constructor
  · rintro ⟨w, h⟩
    rw [evalExpr_call cfg st f .typeOf _ hf, callFn_typeOf, typeofFn] at h
    obtain ⟨v, h1, -⟩ := bind_ok h
    have := arg1_ok h1
    match args, this with
    | [a], h2 =>
      simp only [List.map_cons, List.map_nil, List.cons.injEq, and_true] at h2
      exact ⟨a, v, rfl, h2⟩
  · rintro ⟨a, v, rfl, ha⟩
    obtain ⟨n, hn⟩ := typeName_total v
    exact ⟨_, C77_typeof cfg st f a v n hf ha hn⟩

theorem sameType_iff {v w : Value} {n m : Str} (hn : TypeName v n) (hm : TypeName w m) : SameType v w ↔ n = m := by
  constructor
  · intro h
    rw [← typeName_typeStr hn, ← typeName_typeStr hm]
    cases h <;> rfl
  · rintro rfl
    cases hn <;> cases hm <;> constructor

theorem eq_strs (s t : Bytes) : binop .eq (.ok (.str s)) (.ok (.str t)) = .ok (.bool (s == t)) := rfl

/-- **C77**: `typeof(a) == typeof(b)` tells whether the two are of the same type -/
theorem C77_same_type (f a b : Expr) (v w : Value) (hf : evalExpr cfg st f = .ok (.func .typeOf))
    (ha : evalExpr cfg st a = .ok v) (hb : evalExpr cfg st b = .ok w) :
    ∃ r, evalExpr cfg st (.bin .eq (.call f [a]) (.call f [b])) = .ok (.bool r) ∧ (r = true ↔ SameType v w) := by
  obtain ⟨n, hn⟩ := typeName_total v
  obtain ⟨m, hm⟩ := typeName_total w
  refine ⟨utf8 n == utf8 m, ?_, ?_⟩
  · rw [evalExpr, C77_typeof cfg st f a v n hf ha hn, C77_typeof cfg st f b w m hf hb hm, eq_strs]
  · rw [beq_iff_eq, sameType_iff hn hm]
    exact ⟨utf8_inj, fun h => by rw [h]⟩

/-- **C77**: `typeof(a) == "..."` tells whether that is the type of `a` -/
theorem C77_type_test (f a : Expr) (v : Value) (n : Str) (hf : evalExpr cfg st f = .ok (.func .typeOf))
    (ha : evalExpr cfg st a = .ok v) :
    ∃ r, evalExpr cfg st (.bin .eq (.call f [a]) (.str n)) = .ok (.bool r) ∧ (r = true ↔ TypeName v n) := by
  obtain ⟨m, hm⟩ := typeName_total v
  refine ⟨utf8 m == utf8 n, ?_, ?_⟩
  · rw [evalExpr, C77_typeof cfg st f a v m hf ha hm, evalExpr, eq_strs]
  · rw [beq_iff_eq]
    constructor
    · intro h
      rw [← utf8_inj h]; exact hm
    · intro h
      rw [← typeName_typeStr h, ← typeName_typeStr hm]

/-- **C77**: `str` leaves a string as it is, byte for byte -/
theorem C77_str_of_string (f a : Expr) (s : Bytes) (hf : evalExpr cfg st f = .ok (.func .str))
    (ha : evalExpr cfg st a = .ok (.str s)) : evalExpr cfg st (.call f [a]) = .ok (.str s) := by
  rw [evalExpr_call cfg st f .str _ hf, List.map_cons, List.map_nil, ha, callFn_str]
  rfl

/-- **C77**: `str` of anything else is the string of its display -/
theorem C77_str_of_other (f a : Expr) (v : Value) (t : Str) (hf : evalExpr cfg st f = .ok (.func .str))
    (ha : evalExpr cfg st a = .ok v) (hv : ∀ s, v ≠ .str s) (ht : v.display = .ok t) :
    evalExpr cfg st (.call f [a]) = .ok (.str (utf8 t)) := by
  rw [evalExpr_call cfg st f .str _ hf, List.map_cons, List.map_nil, ha, callFn_str]
  cases v <;> first | exact absurd rfl (hv _) | simp only [strFn, arg1_one, bind, Except.bind, ht]

/-- **C77**: so `str` takes one argument, of any type, and gives a string -/
theorem C77_str_iff (f : Expr) (args : List Expr) (hf : evalExpr cfg st f = .ok (.func .str)) :
    ((∃ w, evalExpr cfg st (.call f args) = .ok w) ↔ ∃ a v, args = [a] ∧ evalExpr cfg st a = .ok v) ∧
    ∀ w, evalExpr cfg st (.call f args) = .ok w → ∃ s, w = .str s := by
  have key : ∀ a v, evalExpr cfg st a = .ok v → ∃ s, evalExpr cfg st (.call f [a]) = .ok (.str s) := by
    intro a v ha
    by_cases hv : ∃ s, v = .str s
    · obtain ⟨s, rfl⟩ := hv
      exact ⟨s, C77_str_of_string cfg st f a s hf ha⟩
    · obtain ⟨t, ht⟩ := C42_display_total v
      exact ⟨_, C77_str_of_other cfg st f a v t hf ha (fun s h => hv ⟨s, h⟩) ht⟩
  have inv : ∀ w, evalExpr cfg st (.call f args) = .ok w → ∃ a v, args = [a] ∧ evalExpr cfg st a = .ok v := by
    intro w h
    rw [evalExpr_call cfg st f .str _ hf, callFn_str, strFn] at h
    obtain ⟨v, h1, -⟩ := bind_ok h
    have := arg1_ok h1
    match args, this with
    | [a], h2 =>
      simp only [List.map_cons, List.map_nil, List.cons.injEq, and_true] at h2
      exact ⟨a, v, rfl, h2⟩
  refine ⟨⟨fun ⟨w, h⟩ => inv w h, ?_⟩, ?_⟩
  · rintro ⟨a, v, rfl, ha⟩
    obtain ⟨s, h⟩ := key a v ha
    exact ⟨_, h⟩
  · intro w h
    obtain ⟨a, v, rfl, ha⟩ := inv w h
    obtain ⟨s, h'⟩ := key a v ha
    rw [h'] at h
    exact ⟨s, by simpa using h.symm⟩

/-- **C77**: `str(str(e))` is `str(e)` -/
theorem C77_str_idempotent (f a : Expr) (hf : evalExpr cfg st f = .ok (.func .str)) :
    evalExpr cfg st (.call f [.call f [a]]) = evalExpr cfg st (.call f [a]) := by
  cases h : evalExpr cfg st (.call f [a]) with
  | ok w =>
    obtain ⟨s, rfl⟩ := (C77_str_iff cfg st f [a] hf).2 w h
    exact C77_str_of_string cfg st f _ s hf h
  | error e =>
    rw [evalExpr_call cfg st f .str _ hf, List.map_cons, List.map_nil, h, callFn_str]
    rfl

theorem digits_inj {n m : Nat} (h : Nat.toDigits 10 n = Nat.toDigits 10 m) : n = m := by
  have := congrArg (Nat.ofDigitChars 10 · 0) h
  simpa using this

theorem intDisplay_inj {i j : Int} (h : intDisplay i = intDisplay j) : i = j := by
  have hd : ∀ n, '-' ∉ Nat.toDigits 10 n := fun n hm =>
    absurd (Nat.isDigit_of_mem_toDigits (by decide) (by decide) hm) (by decide)
  unfold intDisplay at h
  split at h <;> split at h
  · have := digits_inj (List.cons.inj h).2; omega
  · exact absurd (h ▸ List.mem_cons_self) (hd _)
  · exact absurd (h.symm ▸ List.mem_cons_self) (hd _)
  · have := digits_inj h; omega

/-- **C77**: different integers have different strings -/
theorem C77_str_of_integers (f a b : Expr) (i j : Int) (hf : evalExpr cfg st f = .ok (.func .str))
    (ha : evalExpr cfg st a = .ok (.int i)) (hb : evalExpr cfg st b = .ok (.int j)) :
    ∃ r, evalExpr cfg st (.bin .eq (.call f [a]) (.call f [b])) = .ok (.bool r) ∧ (r = true ↔ i = j) := by
  refine ⟨utf8 (intDisplay i) == utf8 (intDisplay j), ?_, ?_⟩
  · rw [evalExpr, C77_str_of_other cfg st f a _ _ hf ha (by simp) (by rw [Value.display]),
      C77_str_of_other cfg st f b _ _ hf hb (by simp) (by rw [Value.display]), eq_strs]
  · rw [beq_iff_eq]
    exact ⟨fun h => intDisplay_inj (utf8_inj h), fun h => by rw [h]⟩

/-- printed as it is: printable, neither a quote nor a backslash; or a line feed -/
def Unescaped (c : Char) : Prop := c = '\n' ∨ (Printable c ∧ c ≠ '\\' ∧ c ≠ '"' ∧ c ≠ '\'')

instance (c : Char) : Decidable (Unescaped c) := inferInstanceAs (Decidable (_ ∨ _))

theorem unescaped_byte (c : Char) (h : Unescaped c) : c.toNat < 128 := by
  rcases h with rfl | ⟨⟨h1, h2⟩, -⟩
  · decide
  · change c.toNat ≤ 126 at h2; omega

theorem unescaped_char : ∀ n, n < 128 → Unescaped (Char.ofNat n) →
    escapeBytes false (String.utf8EncodeChar (Char.ofNat n)) = [UInt8.ofNat n] := by decide +kernel

theorem unescaped_text (t : Str) (h : ∀ c ∈ t, Unescaped c) : (Value.str (utf8 t)).asString false = .ok t := by
  have key : (escapeBytes false (utf8 t)).map (fun b => Char.ofNat b.toNat) = t := by
    induction t with
    | nil => rfl
    | cons c cs ih =>
      have hc := h c (by simp)
      have hlt := unescaped_byte c hc
      have he := unescaped_char c.toNat hlt (by rw [Char.ofNat_toNat]; exact hc)
      rw [Char.ofNat_toNat] at he
      have : escapeBytes false (utf8 (c :: cs)) = UInt8.ofNat c.toNat :: escapeBytes false (utf8 cs) := by
        have e : utf8 (c :: cs) = String.utf8EncodeChar c ++ utf8 cs := rfl
        rw [e]
        unfold escapeBytes at he ⊢
        rw [List.flatMap_append, he]
        rfl
      rw [this, List.map_cons, ih (fun c hc => h c (by simp [hc]))]
      congr 1
      rw [UInt8.toNat_ofNat_of_lt' (by simp [UInt8.size]; omega), Char.ofNat_toNat]
  simp only [Value.asString, fromAscii_escape, key]

/-- **C77**: printing `str(e)` is printing `e`, when `e` is neither a string nor a histogram and its text needs no
escapes -/
theorem C77_print_str (f a : Expr) (v : Value) (t : Str) (hf : evalExpr cfg st f = .ok (.func .str))
    (ha : evalExpr cfg st a = .ok v) (hv : ∀ s, v ≠ .str s) (hh : ∀ xs, v ≠ .array xs true) (ht : v.display = .ok t)
    (hu : ∀ c ∈ t, Unescaped c) :
    evalStmt cfg (.print (.call f [a])) st = evalStmt cfg (.print a) st := by
  have h1 := C77_str_of_other cfg st f a v t hf ha hv ht
  have h2 : printText cfg (.str (utf8 t)) = .ok t := unescaped_text t hu
  have h3 : printText cfg v = .ok t := by
    unfold printText
    split
    · exact absurd rfl (hh _)
    · exact absurd rfl (hv _)
    · exact ht
  simp only [evalStmt, evalPrint, h1, ha, h2, h3]

/-- **C77**: in particular for integers and Booleans -/
theorem C77_print_str_of_number (f a : Expr) (v : Value) (hf : evalExpr cfg st f = .ok (.func .str))
    (ha : evalExpr cfg st a = .ok v) (hv : (∃ i, v = .int i) ∨ ∃ b, v = .bool b) :
    evalStmt cfg (.print (.call f [a])) st = evalStmt cfg (.print a) st := by
  have hd : ∀ n, ∀ c ∈ Nat.toDigits 10 n, Unescaped c := by
    intro n c hc
    have h1 := Nat.isDigit_of_mem_toDigits (by decide) (by decide) hc
    have h2 : Printable c := plain_digits n c hc
    refine .inr ⟨h2, ?_, ?_, ?_⟩ <;> · rintro rfl; exact absurd h1 (by decide)
  rcases hv with ⟨i, rfl⟩ | ⟨b, rfl⟩
  · refine C77_print_str cfg st f a _ (intDisplay i) hf ha (by simp) (by simp) (by rw [Value.display]) ?_
    intro c hc
    unfold intDisplay at hc
    split at hc
    · rcases List.mem_cons.1 hc with rfl | hc
      · decide
      · exact hd _ c hc
    · exact hd _ c hc
  · refine C77_print_str cfg st f a _ (if b then s!' "true" else s!' "false") hf ha (by simp) (by simp)
      (by rw [Value.display]) ?_
    cases b <;> decide

/-- not for a struct that holds a string with a quote: `str()` escapes it, and `print` escapes the escape -/
example : (Value.array [.str [34]] false).display = .ok s!' "[\n    \\\",\n]" ∧
    (Value.str (utf8 s!' "[\n    \\\",\n]")).asString false = .ok s!' "[\n    \\\\\\\",\n]" := ⟨by rfl, by rfl⟩

end

set_option maxRecDepth 100000 in
/-- the hypotheses are met in a fresh interpreter -/
example (cfg : Cfg) (room : Option Nat) :
    evalExpr cfg (State.new cfg room) (.ident s!' "typeof") = .ok (.func .typeOf) ∧
    evalExpr cfg (State.new cfg room) (.ident s!' "str") = .ok (.func .str) ∧
    evalExpr cfg (State.new cfg room) (.un .minus (.int 5)) = .ok (.int (-5)) :=
  ⟨(C68_functions cfg room _ .typeOf (by decide)).1, (C68_functions cfg room _ .str (by decide)).1,
    by simp only [evalExpr]; rfl⟩

end Btrd
