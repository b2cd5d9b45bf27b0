/-
C89: the message about a text that is no program.
-/
import Verif.Lemmas.Unread
import Verif.Lemmas.Complaints
import Verif.Spec.Unread

namespace Btrd
open P Spec

theorem spells_iff {text : Str} {p : List Stmt} : Spells text p ↔ parse text = some p := (C73_exact text p).symm

/-- the model's error is the position behind the longest program -/
theorem parseError_breaks {s : Str} (h : parse s = none) : ∃ pos c, parseError s = .parse pos c ∧ BreaksOff s pos c := by
  obtain ⟨q, r, c, r', h1, h2⟩ := parse_none h
  have hpe : parseError s = .parse (s.length - (r'.length + 1)) c := by
    simp only [parseError, seqL, h1, h2]
  obtain ⟨x, ts, rfl, g1, g2⟩ := stmts_sound _ _ (Nat.le_refl _) _ _ h1
  obtain ⟨w, hw, rfl, hn⟩ := space_stops h2
  have hlen : (x ++ (w ++ c :: r')).length - (r'.length + 1) = (x ++ w).length := by
    simp only [List.length_append, List.length_cons]; omega
  have hsh : x ++ (w ++ c :: r') = (x ++ w) ++ c :: r' := by simp
  refine ⟨_, c, hpe, ?_⟩
  rw [hlen, hsh]
  refine ⟨by simp, ⟨q, ts, g2, ?_⟩, ?_⟩
  · rw [List.take_left']
    · exact g1.post hw
    · rfl
  · intro n hn1 hn2 p hp
    have hp := spells_iff.1 hp
    obtain ⟨q', r1, r2, k1, k2, k3⟩ := parse_far (r := ((x ++ w) ++ c :: r').drop n) hp
    rw [List.take_append_drop, ← hsh, h1] at k1
    simp only [Option.some.injEq, Prod.mk.injEq] at k1
    rw [← k1.2, h2] at k2
    simp only [Option.some.injEq, Prod.mk.injEq, true_and] at k2
    rw [← k2] at k3
    simp only [List.length_drop, List.length_append, List.length_cons] at k3 hn1 hn2
    omega

theorem breaks_unique {s : Str} {m n : Nat} {c d : Char} (h : BreaksOff s m c) (h' : BreaksOff s n d) : m = n ∧ c = d := by
  have key : ∀ {m n : Nat} {c d : Char}, BreaksOff s m c → BreaksOff s n d → n ≤ m := by
    intro m n c d h h'
    apply Classical.byContradiction
    intro hlt
    obtain ⟨p, hp⟩ := h'.before
    have : n < s.length := by
      have := h'.found
      rw [List.getElem?_eq_some_iff] at this
      exact this.1
    exact h.longest n (by omega) (by omega) p hp
  have hmn : m = n := Nat.le_antisymm (key h' h) (key h h')
  subst hmn
  have := h.found
  rw [h'.found] at this
  exact ⟨rfl, (Option.some.inj this).symm⟩

theorem breaks_none {s : Str} {n : Nat} {c : Char} (h : BreaksOff s n c) : parse s = none := by
  cases hp : parse s with
  | none => rfl
  | some p =>
    have hl : n < s.length := by
      have := h.found
      rw [List.getElem?_eq_some_iff] at this
      exact this.1
    exact absurd (spells_iff.2 hp) (by simpa using h.longest s.length hl (Nat.le_refl _) p)

/-- **C89** A text is no program exactly if its reading breaks off somewhere, and then the error names that place: the
position behind the longest initial part of the text that is a program, and the character there. -/
theorem C89_breaks_off (s : Str) (pos : Nat) (c : Char) :
    parse s = none ∧ parseError s = .parse pos c ↔ BreaksOff s pos c := by
  constructor
  · rintro ⟨h, he⟩
    obtain ⟨pos', c', h1, h2⟩ := parseError_breaks h
    rw [he] at h1
    cases h1
    exact h2
  · intro h
    have hn := breaks_none h
    obtain ⟨pos', c', h1, h2⟩ := parseError_breaks hn
    obtain ⟨rfl, rfl⟩ := breaks_unique h h2
    exact ⟨hn, h1⟩

theorem parse_none_iff (s : Str) : parse s = none ↔ ∃ pos c, BreaksOff s pos c :=
  ⟨fun h => let ⟨pos, c, _, h2⟩ := parseError_breaks h; ⟨pos, c, h2⟩, fun ⟨_, _, h⟩ => breaks_none h⟩

/-- **C89** Every text is a program in writing or breaks off at one place, never both. -/
theorem C89_either (s : Str) : ((∃ p, Spells s p) ∧ ¬ ∃ pos c, BreaksOff s pos c) ∨
    ((¬ ∃ p, Spells s p) ∧ ∃ pos c, BreaksOff s pos c ∧ ∀ pos' c', BreaksOff s pos' c' → pos' = pos ∧ c' = c) := by
  rw [← parse_none_iff]
  cases hp : parse s with
  | some p => exact .inl ⟨⟨p, spells_iff.2 hp⟩, by simp⟩
  | none =>
    obtain ⟨pos, c, -, h⟩ := parseError_breaks hp
    refine .inr ⟨?_, pos, c, h, fun _ _ h' => breaks_unique h' h⟩
    rintro ⟨p, h'⟩
    rw [spells_iff, hp] at h'
    cases h'

theorem prog_append {v : Str → Str → Prop} {u : List Str → Prop} : ∀ {p q ts us}, ProgFormV v u p ts → ProgFormV v u q us →
    ProgFormV v u (p ++ q) (ts ++ us)
  | _, _, _, _, .nil, h2 => h2
  | _, _, _, _, .cons s ss a b ha hb, h2 => by
    rw [List.append_assoc]
    exact .cons s _ a _ ha (prog_append hb h2)

/-- **C89** What stands there is no blank, and no statement begins there: the place is where the first statement begins
that cannot be read, however far inside this statement the mistake is. -/
theorem C89_statement {s : Str} {pos : Nat} {c : Char} (h : BreaksOff s pos c) : ¬ Blank [c] ∧
    ∀ (a : Stmt) (ts : List Str) (w : Str), StmtFormV Parted Free a ts → Loose ts w → ¬ w <+: s.drop pos := by
  obtain ⟨hf, ⟨p, hp⟩, hl⟩ := h
  rw [List.getElem?_eq_some_iff] at hf
  obtain ⟨hlt, hc⟩ := hf
  have htake : ∀ w, w <+: s.drop pos → s.take (pos + w.length) = s.take pos ++ w := by
    rintro w ⟨r, hr⟩
    have : s = s.take pos ++ (w ++ r) := by rw [hr, List.take_append_drop]
    conv => lhs; rw [this]
    rw [← List.append_assoc, List.take_left']
    simp only [List.length_append, List.length_take]; omega
  have hle : ∀ w, w <+: s.drop pos → pos + w.length ≤ s.length := by
    intro w hw
    have := hw.length_le
    simp only [List.length_drop] at this
    omega
  constructor
  · intro hb
    have hpre : [c] <+: s.drop pos := by
      rw [List.drop_eq_getElem_cons hlt, hc]
      exact ⟨_, rfl⟩
    obtain ⟨ts, h1, h2⟩ := hp
    refine hl (pos + 1) (by omega) (by omega) p ⟨ts, h1, ?_⟩
    have e : s.take (pos + 1) = s.take pos ++ [c] := htake [c] hpre
    rw [e]
    exact h2.post hb
  · intro a ts w ha hw hpre
    have hne : w ≠ [] := by
      rintro rfl
      cases hts : ts with
      | nil => exact stmtForm_ne ha hts
      | cons t ts' =>
        rw [hts] at hw ha
        obtain ⟨g, r, he, -, -⟩ := hw.uncons
        have ht : t = [] := by
          have := congrArg List.length he
          simp only [List.length_nil, List.length_append] at this
          exact List.eq_nil_of_length_eq_zero (by omega)
        subst ht
        have := parse_loose (.cons a [] _ _ ha .nil) (by rw [List.append_nil]; exact hw)
        exact absurd this (by rw [show parse [] = some [] from rfl]; simp)
    obtain ⟨us, h1, h2⟩ := hp
    have hlw := List.length_pos_iff.2 hne
    refine hl (pos + w.length) (by omega) (hle w hpre) (p ++ [a]) ⟨us ++ ts, ?_, ?_⟩
    · exact prog_append h1 (by have := ProgFormV.cons a [] ts [] ha .nil; rwa [List.append_nil] at this)
    · rw [htake w hpre]
      exact h2.append hw

/-- **C89** An entry or script that is no program ends with the message about the place, and changes nothing. -/
theorem C89_message (cfg : Cfg) (rs : RState) (cmd m : Str) (h : Unread cmd m) :
    ∃ er, runtimeEval cfg rs cmd = (rs, .fail (.err er)) ∧ er.text = some m := by
  cases h with
  | @«at» pos c h =>
    obtain ⟨h1, h2⟩ := (C89_breaks_off cmd pos c).2 h
    refine ⟨.parse pos c, ?_, ?_⟩
    · unfold runtimeEval; rw [h1, h2]
    · rw [Err.text, numeral_nat]

theorem unread_iff {s : Str} : parse s = none ↔ ∃ m, Unread s m := by
  rw [parse_none_iff]
  exact ⟨fun ⟨pos, c, h⟩ => ⟨_, .at h⟩, fun ⟨_, .at h⟩ => ⟨_, _, h⟩⟩

theorem unread_text {s : Str} (h : parse s = none) : ∃ m, Unread s m ∧ (parseError s).text = some m := by
  obtain ⟨pos, c, h1, h2⟩ := parseError_breaks h
  exact ⟨_, .at h2, by rw [h1, Err.text, numeral_nat]⟩

theorem unread_unique {s m m' : Str} (h : Unread s m) (h' : Unread s m') : m = m' := by
  cases h with
  | «at» h =>
    cases h' with
    | «at» h' =>
      obtain ⟨rfl, rfl⟩ := breaks_unique h h'
      rfl

theorem spells_unique {s : Str} {p q : List Stmt} (h : Spells s p) (h' : Spells s q) : p = q := by
  rw [spells_iff] at h h'
  rw [h] at h'
  exact Option.some.inj h'

theorem unread_no {s m : Str} {p : List Stmt} (h : Unread s m) (h' : Spells s p) : False := by
  rw [spells_iff, unread_iff.2 ⟨m, h⟩] at h'
  cases h'

set_option maxRecDepth 100000 in
/-- witness: a mistake deep inside the second statement is reported at its beginning -/
example : BreaksOff s!' "x = 1; while x < 9 { x += ; } print x;" 7 'w' :=
  (C89_breaks_off _ _ _).1 ⟨by with_unfolding_all rfl, by with_unfolding_all rfl⟩

end Btrd
