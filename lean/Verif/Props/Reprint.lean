/-
C74 without conditions: every accepted program has a text with short literals, on one line.
-/
import Verif.Props.Exact

namespace Btrd
open P Spec

/-- a token, and the same token with a string literal in its short spelling -/
def Twin (t t' : Str) : Prop := t = t' ∨ ∃ s, Literal s t ∧ t' = quoted s

theorem Twin.same {t t' : Str} (h : Twin t t') (hq : t'.head? ≠ some '"') : t = t' := by
  rcases h with h | ⟨s, _, rfl⟩
  · exact h
  · exact absurd rfl hq

abbrev Twins := List.Forall₂ Twin

theorem twins_refl : ∀ ts : List Str, Twins ts ts
  | [] => .nil
  | _ :: ts => .cons (.inl rfl) (twins_refl ts)

theorem twins_append {a a' b b' : List Str} (h : Twins a a') (h2 : Twins b b') : Twins (a ++ b) (a' ++ b') := by
  induction h with
  | nil => exact h2
  | cons h _ ih => exact .cons h ih

theorem twins_split : ∀ {a' b' ts : List Str}, Twins ts (a' ++ b') → ∃ a b, ts = a ++ b ∧ Twins a a' ∧ Twins b b'
  | [], b', ts, h => ⟨[], ts, rfl, .nil, h⟩
  | t' :: a', b', ts, h => by
    cases h with
    | cons h1 h2 =>
      obtain ⟨a, b, rfl, h3, h4⟩ := twins_split h2
      exact ⟨_ :: a, b, rfl, .cons h1 h3, h4⟩

theorem twins_uncons {t' : Str} {b' ts : List Str} (h : Twins ts (t' :: b')) (hq : t'.head? ≠ some '"') :
    ∃ b, ts = t' :: b ∧ Twins b b' := by
  cases h with
  | cons h1 h2 => exact ⟨_, by rw [h1.same hq], h2⟩

theorem twins_one {t' : Str} {ts : List Str} (h : Twins ts [t']) (hq : t'.head? ≠ some '"') : ts = [t'] := by
  obtain ⟨b, rfl, h2⟩ := twins_uncons h hq
  cases h2
  rfl

theorem name_unquoted {x : Str} (h : Name x) : x.head? ≠ some '"' := by
  obtain ⟨c, cs, rfl, hc, _⟩ := h
  simp only [List.head?_cons, ne_eq, Option.some.injEq]
  rintro rfl
  revert hc; unfold Letter; decide

theorem literal_unique {s s' t : Str} (h : Literal s t) (h' : Literal s' t) : s = s' := by
  obtain ⟨b, hb, rfl⟩ := h
  obtain ⟨b', hb', e⟩ := h'
  have : b = b' := by simpa using e
  subst this
  exact C09_body_unique hb hb'

mutual
/-- an expression in another spelling -/
theorem expr_respell : ∀ {e : Expr} {ts' : List Str}, ExprText e ts' → ∀ {ts}, Twins ts ts' → ExprText e ts
  | _, _, .ident x hx, ts, h => by rw [twins_one h (name_unquoted hx)]; exact .ident x hx
  | _, _, .int ds hd h1, ts, h => by
    have : ds.head? ≠ some '"' := by
      obtain ⟨c, cs, rfl, hc⟩ := numeral_head hd
      simp only [List.head?_cons, ne_eq, Option.some.injEq]
      rintro rfl
      revert hc; decide
    rw [twins_one h this]; exact .int ds hd h1
  | _, _, .bool b, ts, h => by
    rw [twins_one h (by cases b <;> decide)]; exact .bool b
  | _, _, .str s t hl, ts, h => by
    cases h with
    | cons h1 h2 =>
      cases h2
      rcases h1 with rfl | ⟨s', h3, rfl⟩
      · exact .str s _ hl
      · rw [literal_unique hl (literal_quoted s')]
        exact .str s' _ h3
  | _, _, .paren e ts he, us, h => by
    obtain ⟨b, rfl, h2⟩ := twins_uncons h (by decide)
    obtain ⟨c, d, rfl, h3, h4⟩ := twins_split h2
    rw [twins_one h4 (by decide)]
    exact .paren e c (expr_respell he h3)
  | _, _, .field e ts x he hx, us, h => by
    obtain ⟨c, d, rfl, h3, h4⟩ := twins_split h
    rw [twins_one h4 (by simp)]
    exact .field e c x (expr_respell he h3) hx
  | _, _, .index e i ts us he hi, vs, h => by
    obtain ⟨c, d, rfl, h3, h4⟩ := twins_split h
    obtain ⟨b, rfl, h5⟩ := twins_uncons h4 (by decide)
    obtain ⟨c2, d2, rfl, h6, h7⟩ := twins_split h5
    rw [twins_one h7 (by decide)]
    exact .index e i c c2 (expr_respell he h3) (expr_respell hi h6)
  | _, _, .call f args ts us hf ha, vs, h => by
    obtain ⟨c, d, rfl, h3, h4⟩ := twins_split h
    obtain ⟨b, rfl, h5⟩ := twins_uncons h4 (by decide)
    obtain ⟨c2, d2, rfl, h6, h7⟩ := twins_split h5
    rw [twins_one h7 (by decide)]
    exact .call f args c c2 (expr_respell hf h3) (args_respell ha h6)
  | _, _, .bin op l r ts us hl hr, vs, h => by
    obtain ⟨c, d, rfl, h3, h4⟩ := twins_split h
    obtain ⟨b, rfl, h5⟩ := twins_uncons h4 (by cases op <;> decide)
    exact .bin op l r c b (expr_respell hl h3) (expr_respell hr h5)
  | _, _, .un op e ts he, vs, h => by
    obtain ⟨b, rfl, h5⟩ := twins_uncons h (by cases op <;> decide)
    exact .un op e b (expr_respell he h5)
  | _, _, .cast x e ts hx he, vs, h => by
    obtain ⟨b, rfl, h1⟩ := twins_uncons h (by decide)
    obtain ⟨b, rfl, h2⟩ := twins_uncons h1 (by decide)
    obtain ⟨b, rfl, h3⟩ := twins_uncons h2 (name_unquoted hx)
    obtain ⟨b, rfl, h4⟩ := twins_uncons h3 (by decide)
    exact .cast x e b hx (expr_respell he h4)
theorem args_respell : ∀ {es : List Expr} {ts' : List Str}, ArgsText es ts' → ∀ {ts}, Twins ts ts' → ArgsText es ts
  | _, _, .nil, ts, h => by cases h; exact .nil
  | _, _, .one e us he, ts, h => .one e _ (expr_respell he h)
  | _, _, .cons e e' es us vs he hes, ts, h => by
    obtain ⟨c, d, rfl, h3, h4⟩ := twins_split h
    obtain ⟨b, rfl, h5⟩ := twins_uncons h4 (by decide)
    exact .cons e e' es c b (expr_respell he h3) (args_respell hes h5)
end

/-- all string literals are in their short spelling -/
def Short (ts : List Str) : Prop := ∀ t ∈ ts, t.head? = some '"' → ∃ s, t = quoted s

theorem short_append {a b : List Str} (h : Short a) (h' : Short b) : Short (a ++ b) := by
  intro t ht
  rcases List.mem_append.1 ht with h1 | h1
  · exact h t h1
  · exact h' t h1

theorem short_cons {t : Str} {b : List Str} (h : t.head? ≠ some '"') (h' : Short b) : Short (t :: b) := by
  intro u hu hq
  rcases List.mem_cons.1 hu with rfl | h1
  · exact absurd hq h
  · exact h' u h1 hq

theorem short_nil : Short [] := by intro t ht; simp at ht

mutual
/-- every expression in its short spelling -/
theorem expr_short : ∀ {e : Expr} {ts : List Str}, ExprText e ts → ∃ ts', Twins ts ts' ∧ ExprText e ts' ∧ Short ts'
  | _, _, .ident x hx => ⟨_, twins_refl _, .ident x hx, short_cons (name_unquoted hx) short_nil⟩
  | _, _, .int ds hd h1 => by
    refine ⟨_, twins_refl _, .int ds hd h1, short_cons ?_ short_nil⟩
    obtain ⟨c, cs, rfl, hc⟩ := numeral_head hd
    simp only [List.head?_cons, ne_eq, Option.some.injEq]
    rintro rfl
    revert hc; decide
  | _, _, .bool b => ⟨_, twins_refl _, .bool b, short_cons (by cases b <;> decide) short_nil⟩
  | _, _, .str s t hl => ⟨[quoted s], .cons (.inr ⟨s, hl, rfl⟩) .nil, .str s _ (literal_quoted s), by
      intro u hu _
      exact ⟨s, by simpa using hu⟩⟩
  | _, _, .paren e ts he => by
    obtain ⟨c, h1, h2, h3⟩ := expr_short he
    exact ⟨_, .cons (.inl rfl) (twins_append h1 (twins_refl _)), .paren e c h2,
      short_cons (by decide) (short_append h3 (short_cons (by decide) short_nil))⟩
  | _, _, .field e ts x he hx => by
    obtain ⟨c, h1, h2, h3⟩ := expr_short he
    exact ⟨_, twins_append h1 (twins_refl _), .field e c x h2 hx, short_append h3 (short_cons (by simp) short_nil)⟩
  | _, _, .index e i ts us he hi => by
    obtain ⟨c, h1, h2, h3⟩ := expr_short he
    obtain ⟨d, h4, h5, h6⟩ := expr_short hi
    exact ⟨_, twins_append h1 (.cons (.inl rfl) (twins_append h4 (twins_refl _))), .index e i c d h2 h5,
      short_append h3 (short_cons (by decide) (short_append h6 (short_cons (by decide) short_nil)))⟩
  | _, _, .call f args ts us hf ha => by
    obtain ⟨c, h1, h2, h3⟩ := expr_short hf
    obtain ⟨d, h4, h5, h6⟩ := args_short ha
    exact ⟨_, twins_append h1 (.cons (.inl rfl) (twins_append h4 (twins_refl _))), .call f args c d h2 h5,
      short_append h3 (short_cons (by decide) (short_append h6 (short_cons (by decide) short_nil)))⟩
  | _, _, .bin op l r ts us hl hr => by
    obtain ⟨c, h1, h2, h3⟩ := expr_short hl
    obtain ⟨d, h4, h5, h6⟩ := expr_short hr
    exact ⟨_, twins_append h1 (.cons (.inl rfl) h4), .bin op l r c d h2 h5,
      short_append h3 (short_cons (by cases op <;> decide) h6)⟩
  | _, _, .un op e ts he => by
    obtain ⟨c, h1, h2, h3⟩ := expr_short he
    exact ⟨_, .cons (.inl rfl) h1, .un op e c h2, short_cons (by cases op <;> decide) h3⟩
  | _, _, .cast x e ts hx he => by
    obtain ⟨c, h1, h2, h3⟩ := expr_short he
    exact ⟨_, .cons (.inl rfl) (.cons (.inl rfl) (.cons (.inl rfl) (.cons (.inl rfl) h1))), .cast x e c hx h2,
      short_cons (by decide) (short_cons (by decide) (short_cons (name_unquoted hx) (short_cons (by decide) h3)))⟩
theorem args_short : ∀ {es : List Expr} {ts : List Str}, ArgsText es ts → ∃ ts', Twins ts ts' ∧ ArgsText es ts' ∧ Short ts'
  | _, _, .nil => ⟨[], .nil, .nil, short_nil⟩
  | _, _, .one e us he => by
    obtain ⟨c, h1, h2, h3⟩ := expr_short he
    exact ⟨c, h1, .one e c h2, h3⟩
  | _, _, .cons e e' es us vs he hes => by
    obtain ⟨c, h1, h2, h3⟩ := expr_short he
    obtain ⟨d, h4, h5, h6⟩ := args_short hes
    exact ⟨_, twins_append h1 (.cons (.inl rfl) h4), .cons e e' es c d h2 h5, short_append h3 (short_cons (by decide) h6)⟩
end

theorem written_short {e : Expr} {ts : List Str} (h : Written e ts) : ∃ ts', Twins ts ts' ∧ Written e ts' ∧ Short ts' := by
  obtain ⟨c, h1, h2, h3⟩ := expr_short h.1
  exact ⟨c, h1, ⟨h2, h.2⟩, h3⟩

/-- how a literal is spelled makes no difference to what `print` claims -/
theorem opening_respell {ts' : List Str} (h : Opening ts') : ∀ {ts}, Twins ts ts' → Opening ts := by
  induction h with
  | minus ts' =>
    intro ts h
    obtain ⟨b, rfl, -⟩ := twins_uncons h (by decide)
    exact .minus b
  | paren e us ts' he =>
    intro ts h
    obtain ⟨c, d, rfl, h3, h4⟩ := twins_split h
    exact .paren e c d ⟨expr_respell he.1 h3, he.2⟩
  | cast c cs ts' hc hcs _ ih =>
    intro ts h
    obtain ⟨b, rfl, h1⟩ := twins_uncons h (by decide)
    obtain ⟨b, rfl, h2⟩ := twins_uncons h1 (by simp)
    obtain ⟨b, rfl, h3⟩ := twins_uncons h2 (by decide)
    exact .cast c cs b hc hcs (ih h3)

theorem free_respell {ts ts' : List Str} (h : Twins ts ts') (hf : Free ts) : Free ts' := by
  intro ht
  apply hf
  cases h with
  | nil => exact ht
  | @cons t t' ts ts' h1 h2 =>
    rcases ht with ⟨k, hk, hp⟩ | ⟨z, rfl, hz⟩
    · have : t'.head? ≠ some '"' := by
        obtain ⟨y, rfl⟩ := hp
        simp only [List.mem_cons, List.not_mem_nil, or_false] at hk
        rcases hk with rfl | rfl | rfl | rfl <;> simp
      rw [h1.same this]
      exact .inl ⟨k, hk, hp⟩
    · rw [h1.same (by simp)]
      refine .inr ⟨z, rfl, ?_⟩
      rcases hz with ⟨h3, h4⟩ | h3
      · exact .inl ⟨h3, opening_respell h4 h2⟩
      · exact .inr h3

mutual
/-- every statement in its short spelling -/
theorem stmt_short : ∀ {s : Stmt} {ts : List Str}, StmtFormV Bare Free s ts → ∃ ts', StmtFormV Bare Free s ts' ∧ Short ts'
  | _, _, .assign l r ts us hl hr hu => by
    obtain ⟨c, h1, h2, h3⟩ := written_short hl
    obtain ⟨d, h4, h5, h6⟩ := written_short hr
    exact ⟨_, .assign l r c d h2 h5 (free_respell (twins_append h1 (.cons (.inl rfl) (twins_append h4 (twins_refl _)))) hu),
      short_append h3 (short_cons (by decide) (short_append h6 (short_cons (by decide) short_nil)))⟩
  | _, _, .plusEq l r ts us hl hr hu => by
    obtain ⟨c, h1, h2, h3⟩ := written_short hl
    obtain ⟨d, h4, h5, h6⟩ := written_short hr
    exact ⟨_, .plusEq l r c d h2 h5 (free_respell (twins_append h1 (.cons (.inl rfl) (twins_append h4 (twins_refl _)))) hu),
      short_append h3 (short_cons (by decide) (short_append h6 (short_cons (by decide) short_nil)))⟩
  | _, _, .minusEq l r ts us hl hr hu => by
    obtain ⟨c, h1, h2, h3⟩ := written_short hl
    obtain ⟨d, h4, h5, h6⟩ := written_short hr
    exact ⟨_, .minusEq l r c d h2 h5 (free_respell (twins_append h1 (.cons (.inl rfl) (twins_append h4 (twins_refl _)))) hu),
      short_append h3 (short_cons (by decide) (short_append h6 (short_cons (by decide) short_nil)))⟩
  | _, _, .ite c t ts tt hc ht => by
    obtain ⟨d, _, h2, h3⟩ := written_short hc
    obtain ⟨tt', h4, h5⟩ := prog_short ht
    exact ⟨_, .ite c t d tt' h2 h4, short_cons (by decide) (short_append h3 (short_cons (by decide)
      (short_append h5 (short_cons (by decide) short_nil))))⟩
  | _, _, .iteElse c t f ts tt ft hc ht hf => by
    obtain ⟨d, _, h2, h3⟩ := written_short hc
    obtain ⟨tt', h4, h5⟩ := prog_short ht
    obtain ⟨ft', h6, h7⟩ := prog_short hf
    exact ⟨_, .iteElse c t f d tt' ft' h2 h4 h6, short_cons (by decide) (short_append h3 (short_cons (by decide)
      (short_append h5 (short_cons (by decide) (short_cons (by decide) (short_cons (by decide)
        (short_append h7 (short_cons (by decide) short_nil))))))))⟩
  | _, _, .while c t ts tt hc ht => by
    obtain ⟨d, _, h2, h3⟩ := written_short hc
    obtain ⟨tt', h4, h5⟩ := prog_short ht
    exact ⟨_, .while c t d tt' h2 h4, short_cons (by decide) (short_append h3 (short_cons (by decide)
      (short_append h5 (short_cons (by decide) short_nil))))⟩
  | _, _, .for x t r b ts bt hx hv hr hb => by
    have hv : t = x := hv
    subst hv
    obtain ⟨d, _, h2, h3⟩ := written_short hr
    obtain ⟨tt', h4, h5⟩ := prog_short hb
    exact ⟨_, .for t t r b d tt' hx rfl h2 h4, short_cons (by decide) (short_cons (name_unquoted hx) (short_cons (by decide)
      (short_append h3 (short_cons (by decide) (short_append h5 (short_cons (by decide) short_nil))))))⟩
  | _, _, .brk => ⟨_, .brk, short_cons (by decide) (short_cons (by decide) short_nil)⟩
  | _, _, .cont => ⟨_, .cont, short_cons (by decide) (short_cons (by decide) short_nil)⟩
  | _, _, .help => ⟨_, .help, short_cons (by decide) (short_cons (by decide) short_nil)⟩
  | _, _, .quit => ⟨_, .quit, short_cons (by decide) (short_cons (by decide) short_nil)⟩
  | _, _, .filesystem s t h => by
    refine ⟨_, .filesystem s _ (literal_quoted s), short_cons (by decide) ?_⟩
    intro u hu hq
    rcases List.mem_cons.1 hu with rfl | h1
    · exact ⟨s, rfl⟩
    · rcases List.mem_cons.1 h1 with rfl | h1
      · exact absurd hq (by decide)
      · simp at h1
  | _, _, .print e ts h => by
    obtain ⟨d, _, h2, h3⟩ := written_short h
    exact ⟨_, .print e d h2, short_cons (by decide) (short_append h3 (short_cons (by decide) short_nil))⟩
  | _, _, .expr e ts h hu => by
    obtain ⟨d, h1, h2, h3⟩ := written_short h
    exact ⟨_, .expr e d h2 (free_respell (twins_append h1 (twins_refl _)) hu), short_append h3 (short_cons (by decide) short_nil)⟩
  | _, _, .semi s ts h => stmt_short h
theorem prog_short : ∀ {p : List Stmt} {ts : List Str}, ProgFormV Bare Free p ts → ∃ ts', ProgFormV Bare Free p ts' ∧ Short ts'
  | _, _, .nil => ⟨_, .nil, short_nil⟩
  | _, _, .cons s ss a b ha hb => by
    obtain ⟨c, h1, h2⟩ := stmt_short ha
    obtain ⟨d, h3, h4⟩ := prog_short hb
    exact ⟨_, .cons s ss c d h1 h3, short_append h2 h4⟩
end

/-- **C74** Every accepted program, without exception, has a text on one line with all string literals in their short
spelling that is accepted and gives the same program. -/
theorem C74_reprint_any {s : Str} {p : List Stmt} (h : parse s = some p) :
    ∃ ts, ProgFormV Bare Free p ts ∧ Short ts ∧ parse (oneLine ts) = some p := by
  obtain ⟨ts, h1, h2⟩ := (C73_exact s p).1 h
  obtain ⟨us, h3, -⟩ := prog_bare h1 s h2
  obtain ⟨vs, h4, h5⟩ := prog_short h3
  refine ⟨vs, h4, h5, ?_⟩
  have := C06_any_free h4 (spaced_oneLine vs) blank_nil blank_nil
  simpa using this

/-- **C74** So a program is in the language exactly if its canonical texts are. -/
theorem C74_writable_iff (p : List Stmt) : (∃ s, parse s = some p) ↔ ∃ ts, ProgFormV Bare Free p ts ∧ Short ts := by
  constructor
  · rintro ⟨s, h⟩
    obtain ⟨ts, h1, h2, -⟩ := C74_reprint_any h
    exact ⟨ts, h1, h2⟩
  · rintro ⟨ts, h1, -⟩
    have := C06_any_free h1 (spaced_oneLine ts) blank_nil blank_nil
    exact ⟨oneLine ts, by simpa using this⟩

set_option maxRecDepth 100000 in
/-- a statement that begins with `print` but is none that prints, with a literal in a long spelling -/
example : ∃ ts, ProgFormV Bare Free [.assign (.ident s!' "print") (.str s!' "aA")] ts ∧ Short ts ∧
    parse (oneLine ts) = some [.assign (.ident s!' "print") (.str s!' "aA")] :=
  C74_reprint_any (s := s!' "print=\"a\\u0041\";") rfl

end Btrd
