/-
C92: sessions whose standard input is a file or a pipe.
-/
import Verif.Model.Stdin
import Verif.Spec.Stdin
import Verif.Props.Main
import Verif.Props.Moments

namespace Btrd
open Spec

/-! ### bytes and characters -/

theorem encoded_append (a b : Str) : encoded (a ++ b) = encoded a ++ encoded b := by simp [encoded]

theorem newline_byte (c : Char) (h : (10 : UInt8) ∈ String.utf8EncodeChar c) : c = '\n' := by
  have hb : ∀ n : Nat, (10 : UInt8) = UInt8.ofNat n → 10 = n % 256 := by
    intro n h
    have := congrArg UInt8.toNat h
    simpa using this
  apply Char.toNat_inj.1
  show c.val.toNat = 10
  simp only [String.utf8EncodeChar] at h
  generalize c.val.toNat = v at h ⊢
  split at h
  · simp only [List.mem_singleton] at h
    have := hb _ h
    omega
  split at h
  · simp only [List.mem_cons, List.not_mem_nil, or_false] at h
    rcases h with h | h <;> (have := hb _ h; omega)
  split at h
  · simp only [List.mem_cons, List.not_mem_nil, or_false] at h
    rcases h with h | h | h <;> (have := hb _ h; omega)
  · simp only [List.mem_cons, List.not_mem_nil, or_false] at h
    rcases h with h | h | h | h <;> (have := hb _ h; omega)

theorem newline_encoded (s : Str) : (10 : UInt8) ∈ encoded s ↔ '\n' ∈ s := by
  simp only [encoded, List.mem_flatMap]
  constructor
  · rintro ⟨c, hc, h⟩
    rw [← newline_byte c h]
    exact hc
  · intro h
    exact ⟨_, h, by decide⟩

theorem decode_encoded (s : Str) : decodeUtf8 (encoded s) = some s := (C82_utf8 _ _).2 rfl

theorem encoded_ne_nil {s : Str} (h : s ≠ []) : encoded s ≠ [] := by
  intro e
  apply h
  have := decode_encoded s
  rw [e] at this
  have h0 : decodeUtf8 [] = some [] := decode_encoded []
  rw [h0] at this
  exact (Option.some.inj this).symm

theorem encoded_length (s : Str) : s.length ≤ (encoded s).length := by
  induction s with
  | nil => exact Nat.zero_le _
  | cons c s ih =>
    have h1 : encoded (c :: s) = encoded [c] ++ encoded s := encoded_append [c] s
    have h2 : encoded [c] ≠ [] := encoded_ne_nil (by simp)
    have h3 : 0 < (encoded [c]).length := List.length_pos_iff.2 h2
    rw [h1, List.length_append, List.length_cons]
    omega

/-! ### reading a line -/

theorem takeLine_nl {c : Bytes} (h : 10 ∉ c) (rest : Bytes) : takeLine (c ++ 10 :: rest) = (c ++ [10], rest) := by
  induction c with
  | nil => simp [takeLine]
  | cons b c ih =>
    simp only [List.mem_cons, not_or] at h
    have hb : ¬ b = 10 := fun e => h.1 e.symm
    simp [takeLine, hb, ih h.2]

theorem takeLine_last {c : Bytes} (h : 10 ∉ c) : takeLine c = (c, []) := by
  induction c with
  | nil => rfl
  | cons b c ih =>
    simp only [List.mem_cons, not_or] at h
    have hb : ¬ b = 10 := fun e => h.1 e.symm
    simp [takeLine, hb, ih h.2]

theorem line_or_last (b : Bytes) : 10 ∉ b ∨ ∃ c rest, 10 ∉ c ∧ b = c ++ 10 :: rest := by
  induction b with
  | nil => simp
  | cons x b ih =>
    by_cases hx : x = 10
    · subst hx; exact .inr ⟨[], b, by simp, rfl⟩
    · rcases ih with h | ⟨c, rest, h1, rfl⟩
      · left; simp only [List.mem_cons, not_or]; exact ⟨fun e => hx e.symm, h⟩
      · right; refine ⟨x :: c, rest, ?_, rfl⟩; simp only [List.mem_cons, not_or]; exact ⟨fun e => hx e.symm, h1⟩

theorem textLine_takeLine {body nl : Str} (h : TextLine body nl) (rest : Bytes) :
    takeLine (encoded (body ++ nl) ++ rest) = (encoded (body ++ nl), rest) := by
  obtain ⟨h1, h2, -⟩ := h
  cases h2 with
  | lf =>
    have e : encoded ['\n'] = [10] := by decide
    rw [encoded_append, e, List.append_assoc]
    exact takeLine_nl (mt (newline_encoded body).1 h1) rest
  | crlf =>
    have e : encoded ['\r', '\n'] = [13, 10] := by decide
    rw [encoded_append, e]
    have := takeLine_nl (c := encoded body ++ [13]) (by
      simp only [List.mem_append, List.mem_singleton, not_or]
      exact ⟨mt (newline_encoded body).1 h1, by decide⟩) rest
    simpa using this

/-- how `readlineDirect` sees a complete line -/
theorem readline_line {body nl : Str} (h : TextLine body nl) (input : Str) (hi : body = [] → input = [] ∨ input.getLast? = some '\n')
    (rest : Bytes) (n : Nat) :
    readlineDirect (n + 1) input (encoded (body ++ nl) ++ rest) =
      if needsMoreInput (input ++ body) then readlineDirect n (input ++ (body ++ nl)) rest else (.line (input ++ body), rest) := by
  have hne : encoded (body ++ nl) ≠ [] := encoded_ne_nil (by obtain ⟨-, h2, -⟩ := h; cases h2 <;> simp)
  rw [readlineDirect, textLine_takeLine h rest]
  cases hx : encoded (body ++ nl) with
  | nil => exact absurd hx hne
  | cons x xs =>
    rw [← hx]
    simp only [decode_encoded]
    obtain ⟨h1, h2, h3⟩ := h
    cases h2 with
    | lf =>
      have e1 : (input ++ (body ++ ['\n'])).getLast? = some '\n' := by simp
      have e2 : (input ++ (body ++ ['\n'])).dropLast = input ++ body := by rw [← List.append_assoc]; simp
      have e3 : ((input ++ body).getLast? == some '\r') = false := by
        have h3 := h3 rfl
        cases hb : body.getLast? with
        | none =>
          have hb := List.getLast?_eq_none_iff.1 hb
          subst hb
          rcases hi rfl with rfl | hl
          · rfl
          · simp only [List.append_nil, hl]; decide
        | some c =>
          rw [List.getLast?_append, hb]
          rw [hb] at h3
          simp only [Option.some_or, beq_eq_false_iff_ne]
          exact h3
      simp only [e1, beq_self_eq_true, if_true, e2, Bool.true_and, e3, Bool.false_eq_true, if_false, List.append_nil, List.append_assoc]
    | crlf =>
      have e1 : (input ++ (body ++ ['\r', '\n'])).getLast? = some '\n' := by simp
      have e2 : (input ++ (body ++ ['\r', '\n'])).dropLast = input ++ body ++ ['\r'] := by
        have : input ++ (body ++ ['\r', '\n']) = (input ++ body ++ ['\r']) ++ ['\n'] := by simp
        rw [this, List.dropLast_concat]
      have e3 : (input ++ body ++ ['\r']).getLast? = some '\r' := by simp
      have e4 : (input ++ body ++ ['\r']).dropLast = input ++ body := List.dropLast_concat
      simp only [e1, beq_self_eq_true, if_true, e2, Bool.true_and, e3, e4]
      have e5 : input ++ body ++ ['\r'] ++ ['\n'] = input ++ (body ++ ['\r', '\n']) := by simp
      rw [e5]

theorem needs_iff (s : Str) : needsMoreInput s = true ↔ s.getLast? = some '\\' := by simp [needsMoreInput]

theorem last_append {α : Type} {input body : List α} (hb : body ≠ []) : (input ++ body).getLast? = body.getLast? := by
  rw [List.getLast?_append]
  cases h : body.getLast? with
  | none => exact absurd (List.getLast?_eq_none_iff.1 h) hb
  | some c => rfl

/-- a continued line -/
theorem readline_continued {l : Str} (h : ContinuedLine l) (input : Str) (rest : Bytes) (n : Nat) :
    readlineDirect (n + 1) input (encoded l ++ rest) = readlineDirect n (input ++ l) rest := by
  obtain ⟨body, nl, ht, hb, rfl⟩ := h
  have hne : body ≠ [] := by rintro rfl; cases hb
  rw [readline_line ht input (fun e => absurd e hne) rest n]
  have : needsMoreInput (input ++ body) = true := by rw [needs_iff, last_append hne, hb]
  rw [this]
  rfl

theorem readline_continuedAll : ∀ (ls : List Str), (∀ l ∈ ls, ContinuedLine l) → ∀ (input : Str) (rest : Bytes) (n : Nat),
    readlineDirect (n + ls.length) input (encoded ls.flatten ++ rest) = readlineDirect n (input ++ ls.flatten) rest := by
  intro ls
  induction ls with
  | nil => intro _ input rest n; simp [encoded]
  | cons l ls ih =>
    intro h input rest n
    rw [List.flatten_cons, encoded_append, List.append_assoc, List.length_cons, ← Nat.add_assoc,
      readline_continued (h l (by simp)), ih (fun l hl => h l (by simp [hl])), List.append_assoc]

theorem continued_end (ls : List Str) (h : ∀ l ∈ ls, ContinuedLine l) : ls.flatten = [] ∨ ls.flatten.getLast? = some '\n' := by
  rcases List.eq_nil_or_concat ls with rfl | ⟨init, l, rfl⟩
  · left; rfl
  · right
    obtain ⟨body, nl, ⟨-, h2, -⟩, -, rfl⟩ := h l (by simp)
    cases h2 <;> simp

theorem continued_length (ls : List Str) (h : ∀ l ∈ ls, ContinuedLine l) : ls.length ≤ (encoded ls.flatten).length := by
  refine Nat.le_trans ?_ (encoded_length _)
  induction ls with
  | nil => exact Nat.zero_le _
  | cons l ls ih =>
    have := ih (fun l hl => h l (by simp [hl]))
    obtain ⟨body, nl, ⟨-, h2, -⟩, -, rfl⟩ := h l (by simp)
    rw [List.length_cons, List.flatten_cons, List.length_append, List.length_append]
    cases h2 <;> simp only [List.length_cons, List.length_nil] <;> omega

theorem readline_nothing (n : Nat) (input : Str) : readlineDirect n input [] = (.eof, []) := by
  cases n <;> simp [readlineDirect, takeLine]

theorem readline_unterminated {body : Str} (hb : '\n' ∉ body) (hne : body ≠ []) (input : Str) (n : Nat) :
    readlineDirect (n + 1) input (encoded body) =
      if needsMoreInput (input ++ body) then readlineDirect n (input ++ body) [] else (.line (input ++ body), []) := by
  rw [readlineDirect, takeLine_last (mt (newline_encoded body).1 hb)]
  cases hx : encoded body with
  | nil => exact absurd hx (encoded_ne_nil hne)
  | cons x xs =>
    have hd := decode_encoded body
    rw [hx] at hd
    simp only [hd]
    have e1 : ((input ++ body).getLast? == some '\n') = false := by
      rw [last_append hne, beq_eq_false_iff_ne]
      intro e
      exact hb (List.mem_of_getLast? e)
    simp only [e1, Bool.false_eq_true, if_false, Bool.false_and, List.append_nil]

theorem readline_garbled {line : Bytes} (h : 10 ∉ line) (hg : ∀ s, line ++ [10] ≠ encoded s) (input : Str) (rest : Bytes) (n : Nat) :
    readlineDirect (n + 1) input (line ++ 10 :: rest) = (.otherError, rest) := by
  rw [readlineDirect, takeLine_nl h]
  have hd : decodeUtf8 (line ++ [10]) = none := by
    cases hd : decodeUtf8 (line ++ [10]) with
    | none => rfl
    | some s => exact absurd ((C82_utf8 _ _).1 hd) (hg s)
  cases hx : line ++ [10] with
  | nil => simp at hx
  | cons x xs => rw [hx] at hd; simp [hd]

theorem readline_garbledEnd {line : Bytes} (h : 10 ∉ line) (hg : ∀ s, line ≠ encoded s) (input : Str) (n : Nat) :
    readlineDirect (n + 1) input line = (.otherError, []) := by
  rw [readlineDirect, takeLine_last h]
  have hd : decodeUtf8 line = none := by
    cases hd : decodeUtf8 line with
    | none => rfl
    | some s => exact absurd ((C82_utf8 _ _).1 hd) (hg s)
  cases hx : line with
  | nil => exact absurd hx (hg [])
  | cons x xs => rw [hx] at hd; simp [hd]

/-- the bound on the rounds is enough -/
theorem readline_after (ls : List Str) (h : ∀ l ∈ ls, ContinuedLine l) (rest : Bytes) :
    ∃ n, rest.length ≤ n ∧ readline (encoded ls.flatten ++ rest) = readlineDirect (n + 1) ls.flatten rest := by
  have hl := continued_length ls h
  refine ⟨(encoded ls.flatten).length - ls.length + rest.length, by omega, ?_⟩
  have := readline_continuedAll ls h [] rest ((encoded ls.flatten).length - ls.length + rest.length + 1)
  rw [List.nil_append] at this
  rw [← this, readline]
  congr 1
  rw [List.length_append]
  omega

/-- what is read is what the specification says -/
theorem fed_feed {b : Bytes} {es : List ReplEvent} (h : Fed b es) : ∀ n, b.length < n → feedN n b = es := by
  induction h with
  | @entry ls body nl rest es h1 h2 h3 h4 ih =>
    intro n hn
    obtain ⟨m, -, hr⟩ := readline_after ls h1 (encoded (body ++ nl) ++ rest)
    have hi := continued_end ls h1
    rw [readline_line h2 _ (fun _ => hi)] at hr
    have hneeds : needsMoreInput (ls.flatten ++ body) = false := by
      rw [Bool.eq_false_iff, ne_eq, needs_iff]
      by_cases hb : body = []
      · subst hb
        rcases hi with e | e <;> simp [e]
      · rwa [last_append hb]
    rw [hneeds] at hr
    simp only [Bool.false_eq_true, if_false] at hr
    have e : encoded (ls.flatten ++ body ++ nl) ++ rest = encoded ls.flatten ++ (encoded (body ++ nl) ++ rest) := by
      simp [encoded_append]
    rw [e] at hn ⊢
    obtain ⟨n, rfl⟩ : ∃ k, n = k + 1 := ⟨n - 1, by omega⟩
    rw [feedN, hr]
    simp only
    have hpos : 0 < (encoded (body ++ nl)).length :=
      List.length_pos_iff.2 (encoded_ne_nil (by obtain ⟨-, h2, -⟩ := h2; cases h2 <;> simp))
    rw [ih n (by simp only [List.length_append] at hn; omega)]
  | @last ls body h1 h2 h3 h4 =>
    intro n hn
    obtain ⟨m, -, hr⟩ := readline_after ls h1 (encoded body)
    rw [readline_unterminated h2 h3] at hr
    have hneeds : needsMoreInput (ls.flatten ++ body) = false := by
      rw [Bool.eq_false_iff, ne_eq, needs_iff, last_append h3]
      exact h4
    rw [hneeds] at hr
    simp only [Bool.false_eq_true, if_false] at hr
    have hpos := List.length_pos_iff.2 (encoded_ne_nil h3)
    rw [encoded_append] at hn ⊢
    obtain ⟨n, rfl⟩ : ∃ k, n = k + 2 := ⟨n - 2, by rw [List.length_append] at hn; omega⟩
    rw [feedN, hr]
    simp only [feedN, readline, List.length_nil, readline_nothing]
  | @over ls body h1 h2 h3 =>
    intro n hn
    obtain ⟨m, -, hr⟩ := readline_after ls h1 (encoded body)
    have hr : readline (encoded ls.flatten ++ encoded body) = (.eof, []) := by
      rw [hr]
      by_cases hb : body = []
      · subst hb; exact readline_nothing _ _
      · rw [readline_unterminated h2 hb]
        have hneeds : needsMoreInput (ls.flatten ++ body) = true := by
          rw [needs_iff, last_append hb]
          exact h3.resolve_left hb
        rw [hneeds]
        exact readline_nothing _ _
    rw [encoded_append] at hn ⊢
    obtain ⟨n, rfl⟩ : ∃ k, n = k + 1 := ⟨n - 1, by omega⟩
    rw [feedN, hr]
  | @garbled ls line rest es h1 h2 h3 h4 ih =>
    intro n hn
    obtain ⟨m, -, hr⟩ := readline_after ls h1 (line ++ 10 :: rest)
    rw [readline_garbled h2 h3] at hr
    have e : encoded ls.flatten ++ line ++ [10] ++ rest = encoded ls.flatten ++ (line ++ 10 :: rest) := by simp
    rw [e] at hn ⊢
    obtain ⟨n, rfl⟩ : ∃ k, n = k + 1 := ⟨n - 1, by omega⟩
    rw [feedN, hr]
    simp only
    rw [ih n (by simp only [List.length_append, List.length_cons] at hn; omega)]
  | @garbledEnd ls line h1 h2 h3 =>
    intro n hn
    obtain ⟨m, -, hr⟩ := readline_after ls h1 line
    rw [readline_garbledEnd h2 h3] at hr
    have hpos : 0 < line.length := List.length_pos_iff.2 (fun e => h3 [] (by rw [e]; rfl))
    obtain ⟨n, rfl⟩ : ∃ k, n = k + 2 := ⟨n - 2, by rw [List.length_append] at hn; omega⟩
    rw [feedN, hr]
    simp only [feedN, readline, List.length_nil, readline_nothing]

/-- every input can be read so -/
theorem fed_exists : ∀ (k : Nat) (b : Bytes), b.length ≤ k → ∀ ls : List Str, (∀ l ∈ ls, ContinuedLine l) →
    ∃ es, Fed (encoded ls.flatten ++ b) es := by
  intro k
  induction k with
  | zero =>
    intro b hb ls hls
    have : b = [] := List.length_eq_zero_iff.1 (by omega)
    subst this
    refine ⟨_, by simpa [encoded] using Fed.over (body := []) hls (by simp) (.inl rfl)⟩
  | succ k ih =>
    intro b hb ls hls
    rcases line_or_last b with hn | ⟨c, rest, hn, rfl⟩
    · by_cases hd : ∃ s, b = encoded s
      · obtain ⟨s, rfl⟩ := hd
        have hs := mt (newline_encoded s).2 hn
        by_cases hc : s = [] ∨ s.getLast? = some '\\'
        · exact ⟨_, by rw [← encoded_append]; exact .over hls hs hc⟩
        · simp only [not_or] at hc
          exact ⟨_, by rw [← encoded_append]; exact .last hls hs hc.1 hc.2⟩
      · exact ⟨_, .garbledEnd hls hn (fun s e => hd ⟨s, e⟩)⟩
    · have hrest : rest.length ≤ k := by simp only [List.length_append, List.length_cons] at hb; omega
      have e0 : encoded ls.flatten ++ (c ++ 10 :: rest) = encoded ls.flatten ++ c ++ [10] ++ rest := by simp
      by_cases hd : ∃ s, c ++ [10] = encoded s
      · obtain ⟨s, hs⟩ := hd
        have hsplit : ∃ t, s = t ++ ['\n'] ∧ '\n' ∉ t := by
          rcases List.eq_nil_or_concat s with rfl | ⟨t, x, rfl⟩
          · exact absurd (congrArg List.length hs) (by simp [encoded])
          · rw [List.concat_eq_append] at hs ⊢
            rw [encoded_append] at hs
            have hx : x = '\n' := by
              apply newline_byte
              have h1 : (c ++ [10]).getLast? = some 10 := by simp
              rw [hs, last_append (encoded_ne_nil (by simp))] at h1
              have h2 := List.mem_of_getLast? h1
              simpa [encoded] using h2
            subst hx
            have e : encoded ['\n'] = [10] := by decide
            rw [e] at hs
            have := List.append_cancel_right hs
            exact ⟨t, rfl, fun ht => hn (by rw [this]; exact (newline_encoded t).2 ht)⟩
        obtain ⟨t, rfl, ht⟩ := hsplit
        have hline : ∃ body nl, TextLine body nl ∧ t ++ ['\n'] = body ++ nl := by
          by_cases hr : t.getLast? = some '\r'
          · obtain ⟨body, rfl⟩ := List.getLast?_eq_some_iff.1 hr
            exact ⟨body, ['\r', '\n'], ⟨fun h => ht (by simp [h]), .crlf, fun h => by simp at h⟩, by simp⟩
          · exact ⟨t, ['\n'], ⟨ht, .lf, fun _ => hr⟩, rfl⟩
        obtain ⟨body, nl, hl, hbn⟩ := hline
        rw [hbn] at hs
        by_cases hc : body.getLast? = some '\\'
        · obtain ⟨es, h⟩ := ih rest hrest (ls ++ [body ++ nl]) (by
            intro l hl'
            rcases List.mem_append.1 hl' with h | h
            · exact hls l h
            · simp only [List.mem_singleton] at h; exact ⟨body, nl, hl, hc, h⟩)
          refine ⟨es, ?_⟩
          rw [e0, List.append_assoc _ c, hs]
          simpa [encoded_append] using h
        · obtain ⟨es, h⟩ := ih rest hrest [] (by simp)
          refine ⟨.line (ls.flatten ++ body) :: es, ?_⟩
          rw [e0, List.append_assoc _ c, hs, ← encoded_append, ← List.append_assoc]
          exact .entry hls hl hc (by simpa [encoded] using h)
      · obtain ⟨es, h⟩ := ih rest hrest [] (by simp)
        refine ⟨.otherError :: es, ?_⟩
        rw [e0]
        exact .garbled hls hn (fun s e => hd ⟨s, e⟩) (by simpa [encoded] using h)

/-- **C92**: from a file or a pipe, exactly these events are read. -/
theorem C92_entries (b : Bytes) (es : List ReplEvent) : feed b = es ↔ Fed b es := by
  obtain ⟨es', h⟩ := fed_exists b.length b (Nat.le_refl _) [] (by simp)
  have h : Fed b es' := by simpa [encoded] using h
  have hf : feed b = es' := fed_feed h _ (Nat.lt_succ_self _)
  constructor
  · rintro rfl; rw [hf]; exact h
  · intro h'; exact fed_feed h' _ (Nat.lt_succ_self _)

/-- **C92**: that is a reading of every input, in one way. -/
theorem C92_one_way (b : Bytes) : ∃ es, Fed b es ∧ ∀ es', Fed b es' → es' = es :=
  ⟨feed b, (C92_entries b _).1 rfl, fun _ h => ((C92_entries b _).2 h).symm⟩

/-- **C92**: when no line ends in a backslash (or in a carriage return), each line is an entry, also an empty one. -/
theorem C92_plain_lines (lines : List Str)
    (h : ∀ l ∈ lines, '\n' ∉ l ∧ l.getLast? ≠ some '\\' ∧ l.getLast? ≠ some '\r') :
    feed (encoded (lines.flatMap (· ++ ['\n']))) = lines.map .line ++ [.eof] := by
  rw [C92_entries]
  induction lines with
  | nil => simpa [encoded] using Fed.over (ls := []) (body := []) (by simp) (by simp) (.inl rfl)
  | cons l lines ih =>
    obtain ⟨h1, h2, h3⟩ := h l (by simp)
    have := ih (fun l hl => h l (by simp [hl]))
    rw [List.flatMap_cons, encoded_append]
    simpa using Fed.entry (ls := []) (body := l) (by simp) ⟨h1, .lf, fun _ => h3⟩ h2 this

/-- **C92**: the end of the file is read once, at the end; there are no interrupts. -/
theorem C92_ends_with_eof (b : Bytes) :
    ∃ es, feed b = es ++ [.eof] ∧ ∀ e ∈ es, e = .otherError ∨ ∃ s, e = .line s := by
  have h := (C92_entries b _).1 rfl
  generalize feed b = l at h
  induction h with
  | entry _ _ _ _ ih =>
    obtain ⟨es, rfl, h⟩ := ih
    exact ⟨_ :: es, rfl, by simpa using h⟩
  | last => exact ⟨[_], rfl, by simp⟩
  | over => exact ⟨[], rfl, by simp⟩
  | garbled _ _ _ _ ih =>
    obtain ⟨es, rfl, h⟩ := ih
    exact ⟨_ :: es, rfl, by simpa using h⟩
  | garbledEnd => exact ⟨[_], rfl, by simp⟩

/-- **C92**: no text is lost or invented: each entry is part of the input as it was typed. -/
theorem C92_entry_in_input (b : Bytes) (s : Str) (h : .line s ∈ feed b) : encoded s <:+: b := by
  have hf := (C92_entries b _).1 rfl
  generalize feed b = l at h hf
  induction hf with
  | @entry ls body nl rest es _ _ _ _ ih =>
    simp only [List.mem_cons, ReplEvent.line.injEq] at h
    rcases h with rfl | h
    · exact ⟨[], encoded nl ++ rest, by simp [encoded_append]⟩
    · obtain ⟨x, y, hxy⟩ := ih h
      exact ⟨encoded (ls.flatten ++ body ++ nl) ++ x, y, by simp [← hxy]⟩
  | last =>
    simp only [List.mem_cons, ReplEvent.line.injEq, List.not_mem_nil, or_false, reduceCtorEq] at h
    subst h
    exact List.infix_rfl
  | over => simp at h
  | @garbled ls line rest es _ _ _ _ ih =>
    simp only [List.mem_cons, reduceCtorEq, false_or] at h
    obtain ⟨x, y, hxy⟩ := ih h
    exact ⟨encoded ls.flatten ++ line ++ [10] ++ x, y, by simp [← hxy]⟩
  | garbledEnd => simp at h

/-! ### the session -/

theorem ticks_events (w : Times) : ∀ (es : List ReplEvent) (n : Nat), (ticks w n es).map (·.event) = es := by
  intro es
  induction es with
  | nil => intro n; rfl
  | cons e es ih => intro n; simp [ticks, ih]

theorem println_status (p : Proc) (s : Str) (t : ProcStatus) : (p.println s t).2 = t ∨ (p.println s t).2 = .panicked := by
  simp only [Proc.println]
  cases p.rs.ev.println s with
  | mk ev b => cases b <;> simp

theorem eof_ends (cfg : Cfg) : ∀ (ts : List LiveTick) (p : Proc), .eof ∈ ts.map (·.event) → (procRunL cfg p ts).1.2 ≠ .running := by
  intro ts
  induction ts with
  | nil => intro p h; simp at h
  | cons t ts ih =>
    intro p h
    rw [procRunL]
    cases hs : procStepL cfg t.world (p.meets t.drift) t.event with
    | mk r log =>
      obtain ⟨p', st⟩ := r
      cases st with
      | running =>
        dsimp only
        refine ih p' ?_
        simp only [List.map_cons, List.mem_cons] at h
        rcases h with h | h
        · exfalso
          rw [← h] at hs
          have := congrArg (fun r => r.1.2) hs
          dsimp only [procStepL, procStep] at this
          rcases println_status (p.meets t.drift) s!' "quit" .over with e | e <;> rw [e] at this <;> cases this
        · exact h
      | over => simp
      | panicked => simp
      | hung => simp

/-- **C92**: such a session does not wait for anything: it comes to an end, panics, or never comes back from an entry. -/
theorem C92_ends (cfg : Cfg) (room : Option Nat) (editor saved : Bool) (w : Times) (b : Bytes) :
    (pipedMain cfg room editor saved w b).1.exit ≠ .running := by
  have he : .eof ∈ (ticks w 0 (feed b)).map (·.event) := by
    rw [ticks_events]
    obtain ⟨es, h, -⟩ := C92_ends_with_eof b
    rw [h]
    simp
  unfold pipedMain replMainL
  split
  · have h1 : ∀ r : Proc × ProcStatus, r.2 ≠ .running → (procEnd saved r).exit ≠ .running := by
      rintro ⟨p, s⟩ h
      cases s with
      | running => exact absurd rfl h
      | over => cases saved <;> simp [procEnd]
      | panicked => simp [procEnd]
      | hung => simp [procEnd]
    cases hp : procStart cfg room with
    | mk p s =>
      cases s with
      | running => exact h1 _ (eof_ends _ _ _ he)
      | over => exact h1 _ (by simp)
      | panicked => exact h1 _ (by simp)
      | hung => exact h1 _ (by simp)
  · simp

/-- output without a limit never fails -/
theorem unlimited_output {text : Str} {σ σ' : State} {o : Outcome} (h : Outputs text σ σ' o) (hr : σ.sink.room = none) :
    o = .done ∧ σ'.sink.room = none := by
  cases h with
  | free => exact ⟨rfl, rfl⟩
  | room => cases hr
  | full => cases hr

section
variable {ω : Live} {wraps interactive : Prop}

theorem writes_room {text : Str} {σ σ' : State} {t : Nat} {h : How} (hw : Writes text σ t σ' h) (hr : σ.sink.room = none) :
    σ'.sink.room = none := by
  cases hw with
  | done ho => exact (unlimited_output ho hr).2
  | full ho => exact (unlimited_output ho hr).2

theorem closes_room {σ σ' : State} (h : Closes σ σ') (hr : σ.sink.room = none) : σ'.sink.room = none := by
  obtain ⟨_, _, h, _⟩ := h
  rw [h]
  exact hr

mutual
theorem goes_room {s : Stmt} {σ σ' : State} {t : Nat} {h : How} (hr : σ.sink.room = none) :
    Goes ω wraps interactive s σ t σ' h → σ'.sink.room = none
  | .assign _ _ _ => hr
  | .assignFrom _ => hr
  | .assignAt _ _ => hr
  | .assignTo _ _ _ => hr
  | .ifTrue _ hg hc => closes_room hc (goesAll_room (σ := opened σ) hr hg)
  | .ifFalse _ hg hc => closes_room hc (goesAll_room (σ := opened σ) hr hg)
  | .ifFails _ => hr
  | .while hg hc => closes_room hc (goesOn_room (σ := opened σ) hr hg)
  | .for _ hg hc => closes_room hc (goesThrough_room (σ := opened σ) hr hg)
  | .forOf _ => hr
  | .forKind _ _ => hr
  | .forNoName _ => hr
  | .brk => hr
  | .cont => hr
  | .quit => hr
  | .help hw => writes_room hw hr
  | .filesystem _ _ => hr
  | .filesystemOf _ => hr
  | .filesystemKind _ _ => hr
  | .filesystemFails _ _ => hr
  | .print _ _ hw => writes_room hw hr
  | .printOf _ => hr
  | .printNoDiagram _ _ _ => hr
  | .shown _ _ _ hw => writes_room hw hr
  | .silent _ _ => hr
  | .exprOf _ => hr
theorem goesAll_room {p : List Stmt} {σ σ' : State} {t : Nat} {h : How} (hr : σ.sink.room = none) :
    GoesAll ω wraps interactive p σ t σ' h → σ'.sink.room = none
  | .nil => hr
  | .next h1 h2 => goesAll_room (goes_room hr h1) h2
  | .stop h1 _ => goes_room hr h1
theorem goesOn_room {c : Expr} {p : List Stmt} {σ σ' : State} {t : Nat} {h : How} (hr : σ.sink.room = none) :
    GoesOn ω wraps interactive c p σ t σ' h → σ'.sink.room = none
  | .over _ => hr
  | .again _ h1 _ h2 => goesOn_room (goesAll_room hr h1) h2
  | .broken _ h1 => goesAll_room hr h1
  | .ended _ h1 _ => goesAll_room hr h1
  | .fails _ => hr
theorem goesThrough_room {x : Str} {p : List Stmt} {xs : List Value} {σ σ' : State} {t : Nat} {h : How} (hr : σ.sink.room = none) :
    GoesThrough ω wraps interactive x p xs σ t σ' h → σ'.sink.room = none
  | .over => hr
  | .again ha h1 _ h2 => goesThrough_room (goesAll_room (by exact hr) h1) h2
  | .broken _ h1 => goesAll_room (by exact hr) h1
  | .ended _ h1 _ => goesAll_room (by exact hr) h1
end
end

theorem happens_room {wraps : Prop} {cleaned : Str → Str} {ω : Live} {D D' : Names} {σ σ' : State} {e : ReplEvent}
    {l : List ErrLine} {r : ProcStatus} (h : LiveHappens wraps cleaned ω D σ e D' σ' l r) (hr : σ.sink.room = none) :
    σ'.sink.room = none ∧ r ≠ .panicked := by
  cases h with
  | idle hi hh =>
    cases hh with
    | interrupted => exact ⟨hr, by simp⟩
    | eof ho => exact ⟨(unlimited_output ho hr).2, by simp⟩
    | eofFull ho => exact absurd (unlimited_output ho hr).1 (by simp)
    | readError ho => exact ⟨(unlimited_output ho hr).2, by simp⟩
    | readErrorFull ho => exact absurd (unlimited_output ho hr).1 (by simp)
    | unreadable => exact ⟨hr, by simp⟩
    | refused => exact ⟨hr, by simp⟩
    | runs hs ha => exact absurd ha (hi _ _ rfl hs)
    | fails hs ha => exact absurd ha (hi _ _ rfl hs)
    | quits hs ha => exact absurd ha (hi _ _ rfl hs)
  | runs _ _ _ hg => exact ⟨goesAll_room hr hg, by simp⟩
  | fails _ _ _ hg => exact ⟨goesAll_room hr hg, by simp⟩
  | quits _ _ _ hg => exact ⟨goesAll_room hr hg, by simp⟩

theorem converses_room {wraps : Prop} {cleaned : Str → Str} {D D' : Names} {σ σ' : State} {ts : List LiveTick}
    {l : List ErrLine} {r : ProcStatus} (h : LiveConverses wraps cleaned D σ ts D' σ' l r) (hr : σ.sink.room = none) :
    r ≠ .panicked := by
  induction h with
  | waits => simp
  | next h1 _ ih => exact ih (happens_room h1 hr).1
  | ends h1 _ => exact (happens_room h1 hr).2

/-- **C92**: with a standard output that takes everything, a release build ends such a session with exit status 0 (if the
history can be saved), however many entries were wrong, unless an entry never comes back. -/
theorem C92_success (cfg : Cfg) (hb : cfg.build.ovfChecks = false) (w : Times) (b : Bytes) :
    (pipedMain cfg none true true w b).1.exit = .success ∨ (pipedMain cfg none true true w b).1.exit = .busy := by
  by_cases hne : (pipedMain cfg none true true w b).1.exit = .busy
  · exact .inr hne
  left
  have hrun := C92_ends cfg none true true w b
  have hs := session_seen cfg hb none true (ticks w 0 (feed b)) hne
  have he : (pipedMain cfg none true true w b).1.exit = (replMainL cfg none true true (ticks w 0 (feed b))).1.unwarned.exit := rfl
  rw [he] at hrun ⊢
  generalize (replMainL cfg none true true (ticks w 0 (feed b))).1.unwarned = en at hs hrun
  have h0 : (State.new cfg none).sink.room = none := rfl
  cases hs with
  | mute ho => exact absurd (unlimited_output ho h0).1 (by simp)
  | waits => exact absurd rfl hrun
  | over => rfl
  | unsaved _ _ h => cases h
  | panics ho hc => exact absurd rfl (converses_room hc (unlimited_output ho h0).2)

set_option maxRecDepth 100000 in
/-- **C92**: the same text as a script is judged as a whole: a wrong entry fails it. Both kinds of runs of one wrong
line, in any build and world: -/
theorem C92_script_differs (cfg : Cfg) (w : Times) (ω : Live) :
    (scriptMainL cfg none ω (some (encoded s!' "x;\n"))).1.exit = .failure ∧
    (pipedMain cfg none true true w (encoded s!' "x;\n")).1.exit = .success := by
  constructor
  · unfold scriptMainL
    dsimp only
    rw [decode_encoded]
    rfl
  · unfold pipedMain
    have h : feed (encoded s!' "x;\n") = [.line s!' "x;", .eof] := C92_plain_lines [s!' "x;"] (by decide)
    rw [h]
    rfl

/-! ### an input that cannot be read -/

/-- every `readline` fails: then the session prints `quit` again and again, logs an error each time, and never ends
(release or not, whatever the world); standard input being a directory is such a case. -/
theorem C92_broken_input (cfg : Cfg) (saved : Bool) (w : Times) (k : Nat) :
    replMainL cfg none true saved (ticks w 0 (List.replicate k .otherError)) =
      (⟨banner ++ (List.replicate k quitLine).flatten, List.replicate k .logged, .running⟩, []) := by
  have key : ∀ (k n : Nat) (p : Proc), p.rs.ev.sink.room = none →
      ∃ p', procRunL { cfg with interactive := true } p (ticks w n (List.replicate k .otherError)) = ((p', .running), []) ∧
        p'.rs.ev.sink.out = p.rs.ev.sink.out ++ (List.replicate k quitLine).flatten ∧
        p'.err = p.err ++ List.replicate k .logged := by
    intro k
    induction k with
    | zero => intro n p _; exact ⟨p, rfl, by simp, by simp⟩
    | succ k ih =>
      intro n p hp
      obtain ⟨⟨sem, ⟨⟨out, room⟩, vars, fs⟩⟩, err⟩ := p
      dsimp only at hp
      subst hp
      have hs : procStepL { cfg with interactive := true } (w n).2
          (Proc.meets ⟨⟨sem, ⟨⟨out, none⟩, vars, fs⟩⟩, err⟩ (w n).1) .otherError =
          ((⟨⟨sem, ⟨⟨out ++ quitLine, none⟩, vars, fs.map (w n).1⟩⟩, err ++ [.logged]⟩, .running), []) := rfl
      obtain ⟨p', h1, h2, h3⟩ := ih (n + 1) ⟨⟨sem, ⟨⟨out ++ quitLine, none⟩, vars, fs.map (w n).1⟩⟩, err ++ [.logged]⟩ rfl
      refine ⟨p', ?_, ?_, ?_⟩
      · rw [List.replicate_succ, ticks, procRunL]
        dsimp only
        rw [hs]
        dsimp only
        rw [h1]
        rfl
      · rw [h2, List.replicate_succ, List.flatten_cons, List.append_assoc]
      · rw [h3, List.replicate_succ, List.append_assoc]; rfl
  rcases welcome_rule cfg none with ⟨σ, ho, hst⟩ | ⟨σ, ho, hst⟩
  · obtain ⟨p', h1, h2, h3⟩ := key k 0 ⟨⟨AState.new, σ⟩, []⟩ (unlimited_output ho rfl).2
    have hout : σ.sink.out = banner := by
      cases ho
      rfl
    unfold replMainL
    simp only [if_true, hst, h1, procEnd]
    rw [h2, h3, hout]
    rfl
  · exact absurd (unlimited_output ho rfl).1 (by simp)

/-! ### witnesses -/

/-- an entry of two lines, an empty one, one with a carriage return, garbage, and an entry that is never completed -/
example : feed (encoded s!' "a \\\nb\n\nc\r\n" ++ [0xFF, 10] ++ encoded s!' "d;\\") =
    [.line s!' "a \\\nb", .line [], .line s!' "c", .otherError, .eof] := by
  decide +kernel

end Btrd
