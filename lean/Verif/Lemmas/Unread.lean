/-
How far the parser reads: at least to the end of every initial part of the text that is a program (C89).
-/
import Verif.Props.Accept

namespace Btrd
open P Spec

/-- after `stmts` and blanks there is no more left than `r` -/
def Within (s : Str) (n : Nat) : Prop := ∃ q r r', stmts s = some (q, r) ∧ space r = some ((), r') ∧ r'.length ≤ n

theorem space_short (s : Str) : ∃ r, space s = some ((), r) ∧ r.length ≤ s.length := by
  obtain ⟨⟨u, r⟩, h⟩ : ∃ x, space s = some x := by
    obtain ⟨⟨us, r⟩, h⟩ := many_total (isA isSpaceChar) s
    exact ⟨((), r), by rw [space, map, h]⟩
  obtain ⟨t, rfl⟩ := space_reads _ _ _ h
  exact ⟨r, h, by simp⟩

theorem stmts_total (s : Str) : ∃ q r, stmts s = some (q, r) ∧ r.length ≤ s.length := by
  obtain ⟨⟨q, r⟩, h⟩ := many_total (stmt stmts) s
  have h' : stmts s = some (q, r) := by rw [stmts_unfold]; exact h
  obtain ⟨t, rfl⟩ := stmts_reads _ _ _ h'
  exact ⟨q, r, h', by simp⟩

theorem within_self (s : Str) : Within s s.length := by
  obtain ⟨q, r, h1, h2⟩ := stmts_total s
  obtain ⟨r', h3, h4⟩ := space_short r
  exact ⟨q, r, r', h1, h3, by omega⟩

theorem Within.mono {s : Str} {m n : Nat} (h : Within s m) (hn : m ≤ n) : Within s n := by
  obtain ⟨q, r, r', h1, h2, h3⟩ := h
  exact ⟨q, r, r', h1, h2, by omega⟩

/-- a statement, and then more -/
theorem within_step {s r : Str} {a : Stmt} {n : Nat} (h : stmt stmts s = some (a, r)) (hr : Within r n) : Within s n := by
  obtain ⟨q, r1, r2, h1, h2, h3⟩ := hr
  refine ⟨a :: q, r1, r2, ?_, h2, h3⟩
  rw [stmts_unfold] at h1 ⊢
  rw [many_some (stmt_eats stmts_reads) h, h1]

theorem space_skip {w s : Str} (hw : Blank w) : space (w ++ s) = space s := by
  obtain ⟨r, h, -⟩ := space_short s
  obtain ⟨v, hv, rfl, hn⟩ := space_stops h
  rw [space_blank hv hn, ← List.append_assoc, space_blank (blank_append hw hv) hn]

theorem stmt_skip {w s : Str} (hw : Blank w) : stmt stmts (w ++ s) = stmt stmts s := by
  simp only [stmt, seqL, seqR, space_skip hw]

/-- blanks in front do not matter -/
theorem within_blank {w s : Str} (hw : Blank w) : Within (w ++ s) s.length := by
  cases h : stmt stmts (w ++ s) with
  | none =>
    obtain ⟨r, h1, h2⟩ := space_short s
    refine ⟨[], w ++ s, r, ?_, ?_, h2⟩
    · rw [stmts_unfold, many_none h]
    · rw [space_skip hw, h1]
  | some x =>
    obtain ⟨a, r⟩ := x
    have h' := h
    rw [stmt_skip hw] at h'
    obtain ⟨t, -, rfl⟩ := stmt_eats stmts_reads _ _ _ h'
    exact within_step h ((within_self r).mono (by simp))

/-- a statement in writing is read at least to its end -/
theorem far_stmt {text w rest : Str} (h : Far text) (hb : Begins text) (hw : Blank w) :
    ∃ a r, stmt stmts (w ++ (text ++ rest)) = some (a, r) ∧ r.length ≤ rest.length := by
  obtain ⟨a, r1, us, r, h1, h2, h3⟩ := h rest
  have h2' : many (seqR space (sym ';')) r1 = some (us, r) := h2
  refine ⟨a, r, ?_, h3⟩
  simp only [stmt, seqL, seqR, space_blank hw (hb.head rest), h1]
  simp only [h2']

/-- a program in writing is read at least to its end, whatever follows -/
theorem prog_far : ∀ {p ts}, ProgFormV Parted Free p ts → ∀ body, Packed ts body → ∀ w r, Blank w →
    Within (w ++ (body ++ r)) r.length
  | _, _, .nil, body, hs => by
    cases hs
    intro w r hw
    exact within_blank hw
  | _, _, .cons s [] a b ha hb, body, hs => by
    cases hb
    rw [List.append_nil] at hs
    obtain ⟨⟨-, hf⟩, hb⟩ := stmt_reads1 ha body hs
    intro w r hw
    obtain ⟨x, r1, h1, h2⟩ := far_stmt (rest := r) hf hb hw
    exact within_step h1 ((within_self r1).mono h2)
  | _, _, .cons s (s' :: ss) a b ha hb, body, hs => by
    have hbne : b ≠ [] := by
      cases hb with
      | cons _ _ a' b' ha' hb' =>
        intro h
        exact stmtForm_ne ha' (List.append_eq_nil_iff.1 h).1
    obtain ⟨t, b', rfl⟩ := List.exists_cons_of_ne_nil hbne
    obtain ⟨ta, w3, tb, rfl, hta, htb, hw3⟩ := packed_append (stmtForm_ne ha) hs
    obtain ⟨⟨h1, -⟩, hbg⟩ := stmt_reads1 ha ta hta
    have ih := prog_far hb tb htb
    have hfol : ∀ r, Follows (w3 ++ (tb ++ r)) := by
      intro r
      generalize t :: b' = bs at hb htb
      cases hb with
      | cons _ _ a' b' ha' hb' =>
        obtain ⟨ta', w4, tb', rfl, hta', htb', hw4⟩ : ∃ ta' w4 tb', tb = ta' ++ (w4 ++ tb') ∧ Packed a' ta' ∧ Packed b' tb' ∧ Blank w4 := by
          cases b' with
          | nil =>
            rw [List.append_nil] at htb
            exact ⟨tb, [], [], by simp, htb, .nil, blank_nil⟩
          | cons t' b =>
            obtain ⟨x, y, z, h1, h2, h3, h4⟩ := packed_append (stmtForm_ne ha') htb
            exact ⟨x, y, z, h1, h2, h3, h4⟩
        have := (stmt_reads1 ha' ta' hta').2.follows w3 (w4 ++ tb' ++ r) hw3
        simpa using this
    intro w r hw
    have hsh : w ++ (ta ++ (w3 ++ tb) ++ r) = w ++ (ta ++ (w3 ++ (tb ++ r))) := by simp
    rw [hsh]
    exact within_step (stmt_ok h1 hbg hw (hfol r)) (ih w3 r hw3)

/-- **the parser reads at least to the end of every initial part that is a program** -/
theorem parse_far {x r : Str} {p : List Stmt} (h : parse x = some p) : Within (x ++ r) r.length := by
  obtain ⟨ts, hl, hf⟩ := parse_sound h
  obtain ⟨w, text, w2, hw, hw2, hk, rfl⟩ := hl.packed
  obtain ⟨q, r1, r2, h1, h2, h3⟩ := prog_far hf text hk w (w2 ++ r) hw
  have hsh : w ++ text ++ w2 ++ r = w ++ (text ++ (w2 ++ r)) := by simp
  refine ⟨q, r1, r2, by rw [hsh]; exact h1, h2, ?_⟩
  obtain ⟨t, ht⟩ := stmts_reads _ _ _ h1
  obtain ⟨v, hv, rfl, hn⟩ := space_stops h2
  apply Classical.byContradiction
  intro hlong
  have hlong : r.length < r2.length := by omega
  have h4 : (w ++ text) ++ (w2 ++ r) = (t ++ v) ++ r2 := by
    have : w ++ (text ++ (w2 ++ r)) = (w ++ text) ++ (w2 ++ r) := by simp
    rw [← this, ht]; simp
  have h5 : r2 <:+ w2 ++ r :=
    List.suffix_of_suffix_length_le ⟨t ++ v, h4.symm⟩ ⟨w ++ text, rfl⟩ h3
  obtain ⟨y, hy⟩ := h5
  have h6 : y.length < w2.length := by
    have := congrArg List.length hy
    simp only [List.length_append] at this
    omega
  obtain ⟨z, hz⟩ : ∃ z, w2 = y ++ z :=
    let ⟨z, hz⟩ := List.prefix_of_prefix_length_le (l₁ := y) (l₂ := w2) (l₃ := w2 ++ r) ⟨r2, hy⟩ ⟨r, rfl⟩ (by omega)
    ⟨z, hz.symm⟩
  subst hz
  have h7 : r2 = z ++ r := by
    rw [List.append_assoc] at hy
    exact List.append_cancel_left hy
  cases z with
  | nil => simp at h6
  | cons c z =>
    rw [h7] at hn
    have h8 : isSpaceChar c = true := (isSpaceChar_iff c).2 (hw2 c (by simp))
    have h9 := noHead_cons.1 (show NoHead isSpaceChar (c :: (z ++ r)) from hn)
    rw [h8] at h9
    cases h9

/-- where the reading of a text that is no program breaks off -/
theorem parse_none {s : Str} (h : parse s = none) : ∃ q r c r', stmts s = some (q, r) ∧ space r = some ((), c :: r') := by
  obtain ⟨q, r, h1, -⟩ := stmts_total s
  obtain ⟨r', h2, -⟩ := space_short r
  cases r' with
  | nil =>
    have : parse s = some q := by simp only [parse, seqL, h1, h2, eof]
    rw [this] at h
    cases h
  | cons c r' => exact ⟨q, r, c, r', h1, h2⟩

end Btrd
