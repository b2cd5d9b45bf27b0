/-
Whatever is taken has been looked at.
-/
import Verif.Lemmas.Looks

namespace Btrd.PC

variable {α β γ : Type}

/-- at least one look for each character taken -/
structure Full (p : C α) : Prop where
  all : ∀ {s a s' n}, p s = (some (a, s'), n) → s.length ≤ n + s'.length

theorem Full.isA (f : Char → Bool) : Full (isA f) where
  all {s a s' n} hp := by
    cases s with
    | nil => simp
    | cons c cs =>
      simp only [PC.isA] at hp
      split at hp <;> simp only [Prod.mk.injEq, reduceCtorEq, false_and, Option.some.injEq] at hp
      obtain ⟨⟨rfl, rfl⟩, rfl⟩ := hp
      simp only [List.length_cons]; omega

theorem Full.sym (c : Char) : Full (sym c) := .isA _

theorem Full.tag : ∀ t : Str, Full (tag t)
  | [] => ⟨fun h => by simp only [PC.tag, Prod.mk.injEq, Option.some.injEq] at h; rw [h.1.2]; omega⟩
  | t :: ts => ⟨fun {s a s' n} h => by
      cases s with
      | nil => simp
      | cons c cs =>
        simp only [PC.tag] at h
        split at h
        · simp only [Prod.mk.injEq] at h
          have := (Full.tag ts).all (s := cs) (a := a) (s' := s') (n := (PC.tag ts cs).2) (Prod.ext h.1 rfl)
          simp only [List.length_cons]; omega
        · simp at h⟩

theorem Full.map {p : C α} (f : α → β) (h : Full p) : Full (map f p) where
  all hp := by
    obtain ⟨a, s, m, m', h1, h2, rfl⟩ := andThen_some hp
    simp only [Prod.mk.injEq, Option.some.injEq] at h2
    obtain ⟨⟨-, rfl⟩, rfl⟩ := h2
    exact h.all h1

theorem Full.convert {p : C α} (f : α → Option β) (h : Full p) : Full (convert f p) where
  all hp := by
    obtain ⟨a, s, m, m', h1, h2, rfl⟩ := andThen_some hp
    split at h2 <;> simp only [Prod.mk.injEq, reduceCtorEq, false_and, Option.some.injEq] at h2
    obtain ⟨⟨-, rfl⟩, rfl⟩ := h2
    exact h.all h1

theorem Full.seqR {p : C α} {q : C β} (h : Full p) (h' : Full q) : Full (seqR p q) where
  all hp := by
    obtain ⟨a, s, m, m', h1, h2, rfl⟩ := andThen_some hp
    have := h.all h1
    have := h'.all h2
    omega

theorem Full.seq {p : C α} {q : C β} (h : Full p) (h' : Full q) : Full (seq p q) where
  all hp := by
    obtain ⟨a, s, m, m', h1, h2, rfl⟩ := andThen_some hp
    obtain ⟨b, s2, m2, m3, h3, h4, rfl⟩ := andThen_some h2
    simp only [Prod.mk.injEq, Option.some.injEq] at h4
    obtain ⟨⟨-, rfl⟩, rfl⟩ := h4
    have := h.all h1
    have := h'.all h3
    omega

theorem Full.seqL {p : C α} {q : C β} (h : Full p) (h' : Full q) : Full (seqL p q) where
  all hp := by
    obtain ⟨a, s, m, m', h1, h2, rfl⟩ := andThen_some hp
    obtain ⟨b, s2, m2, m3, h3, h4, rfl⟩ := andThen_some h2
    simp only [Prod.mk.injEq, Option.some.injEq] at h4
    obtain ⟨⟨-, rfl⟩, rfl⟩ := h4
    have := h.all h1
    have := h'.all h3
    omega

theorem Full.alt {p q : C α} (h : Full p) (h' : Full q) : Full (alt p q) where
  all hp := by
    rcases orElse_some hp with h1 | ⟨m, m', h1, h2, rfl⟩
    · exact h.all h1
    · have := h'.all h2
      omega

theorem Full.opt {p : C α} (h : Full p) : Full (opt p) where
  all hp := by
    rcases orElse_some hp with h1 | ⟨m, m', h1, h2, rfl⟩
    · obtain ⟨a, s, m, m', h3, h4, rfl⟩ := andThen_some h1
      simp only [Prod.mk.injEq, Option.some.injEq] at h4
      obtain ⟨⟨-, rfl⟩, rfl⟩ := h4
      exact h.all h3
    · simp only [Prod.mk.injEq, Option.some.injEq] at h2
      obtain ⟨⟨-, rfl⟩, rfl⟩ := h2
      omega

theorem Full.manyF {p : C α} (h : Full p) : ∀ k, Full (manyF k p)
  | 0 => ⟨fun hp => by simp only [PC.manyF, Prod.mk.injEq, Option.some.injEq] at hp; rw [hp.1.2]; omega⟩
  | k + 1 => ⟨fun {s as s' n} hp => by
      simp only [PC.manyF] at hp
      rcases h1 : p s with ⟨_ | ⟨a, s1⟩, m⟩
      · rw [h1] at hp
        simp only [Prod.mk.injEq, Option.some.injEq] at hp
        rw [hp.1.2]; omega
      · rw [h1] at hp
        dsimp only at hp
        rcases h2 : PC.manyF k p s1 with ⟨_ | ⟨bs, s2⟩, m2⟩
        · rw [h2] at hp; simp [Res.andThen] at hp
        · rw [h2] at hp
          simp only [Res.andThen, Prod.mk.injEq, Option.some.injEq] at hp
          obtain ⟨⟨-, rfl⟩, rfl⟩ := hp
          have := h.all h1
          have := (Full.manyF h k).all h2
          omega⟩

theorem Full.many {p : C α} (h : Full p) : Full (many p) := ⟨fun hp => (Full.manyF h _).all hp⟩

theorem Full.many1 {p : C α} (h : Full p) : Full (many1 p) where
  all hp := by
    obtain ⟨a, s, m, m', h1, h2, rfl⟩ := andThen_some hp
    cases a with
    | nil => simp at h2
    | cons a as =>
      simp only [Prod.mk.injEq, Option.some.injEq] at h2
      obtain ⟨⟨-, rfl⟩, rfl⟩ := h2
      exact h.many.all h1

theorem Full.times {p : C α} (h : Full p) : ∀ k, Full (times k p)
  | 0 => ⟨fun hp => by simp only [PC.times, Prod.mk.injEq, Option.some.injEq] at hp; rw [hp.1.2]; omega⟩
  | k + 1 => ⟨fun hp => by
      obtain ⟨a, s, m, m', h1, h2, rfl⟩ := andThen_some hp
      obtain ⟨b, s2, m2, m3, h3, h4, rfl⟩ := andThen_some h2
      simp only [Prod.mk.injEq, Option.some.injEq] at h4
      obtain ⟨⟨-, rfl⟩, rfl⟩ := h4
      have := h.all h1
      have := (Full.times h k).all h3
      omega⟩

theorem Full.list {p : C α} {q : C β} (h : Full p) (h' : Full q) : Full (list p q) where
  all {s as s' n} hp := by
    simp only [PC.list] at hp
    rcases h1 : p s with ⟨_ | ⟨a, s1⟩, m⟩
    · rw [h1] at hp
      simp only [Prod.mk.injEq, Option.some.injEq] at hp
      rw [hp.1.2]; omega
    · rw [h1] at hp
      dsimp only at hp
      rcases h2 : PC.many (PC.seqR q p) s1 with ⟨_ | ⟨bs, s2⟩, m2⟩
      · rw [h2] at hp; simp [Res.andThen] at hp
      · rw [h2] at hp
        simp only [Res.andThen, Prod.mk.injEq, Option.some.injEq] at hp
        obtain ⟨⟨-, rfl⟩, rfl⟩ := hp
        have := h.all h1
        have := (Full.many (.seqR h' h)).all h2
        omega

theorem Full.space : Full space := .map _ (.many (.isA _))

theorem Full.specialChar : Full specialChar :=
  .alt (.sym _) <| .alt (.sym _) <| .alt (.sym _) <| .alt (.map _ (.sym _)) <| .alt (.map _ (.sym _)) <|
    .alt (.map _ (.sym _)) <| .alt (.map _ (.sym _)) (.map _ (.sym _))

theorem Full.string : Full string :=
  .map _ (.map _ (.seqL (.seqR (.sym _) (.many (.alt (.many1 (.alt (.isA _) (.seqR (.sym _) .specialChar)))
    (.map _ (.many1 (.seqR (.tag _) (.convert _ (.times (.isA _) _)))))))) (.sym _)))

theorem Full.constant : Full constant :=
  .alt (.map _ (.convert _ (.seq (.opt (.sym _)) (.alt (.map _ (.seq (.isA _) (.many (.isA _)))) (.map _ (.sym _))))))
    (.alt (.map _ (.tag _)) (.map _ (.tag _)))

theorem Full.ident : Full ident := .map _ (.seq (.isA _) (.many (.isA _)))

section
variable {sub : C Expr} (h : Full sub)
include h

theorem Full.unaryExpr : Full (unaryExpr sub) :=
  .map _ (.seq (.seqL (.many (.seqL
    (.alt (.map _ (.tag _)) (.alt (.map _ (.tag _)) (.alt (.map _ (.tag _))
      (.map _ (.seqL (.seqL (.seqR (.seqR (.tag _) .space) (.seqR (.seqL (.tag _) .space) .ident)) .space) (.tag _))))))
    .space)) .space)
    (.map _ (.seq (.alt .constant (.alt .ident (.alt .string (.map _ (.seqL (.seqL (.seqR (.sym _) h) .space) (.sym _))))))
      (.many (.seqR .space (.alt (.map _ (.seqL (.seqL (.seqR (.sym _) (.list h (.seqR .space (.sym _)))) .space) (.sym _)))
        (.alt (.map _ (.seqL (.seqL (.seqR (.sym _) h) .space) (.sym _))) (.map _ (.seqR (.sym _) .ident)))))))))

omit h in
theorem Full.binLevel {ops : C BinOp} {next : C Expr} (ho : Full ops) (hn : Full next) : Full (binLevel ops next) :=
  .map _ (.seq hn (.many (.seq (.seqL (.seqR .space ho) .space) hn)))

theorem Full.orExpr : Full (orExpr sub) := by
  have tg : ∀ (t : Str) (o : BinOp), Full (opTag t o) := fun t o => .map _ (.tag t)
  have h1 : Full (multExpr sub) := .binLevel (.alt (tg _ _) (.alt (tg _ _) (tg _ _))) h.unaryExpr
  have h2 : Full (relationExpr sub) := .binLevel (.alt (tg _ _) (.alt (tg _ _) (.alt (tg _ _) (tg _ _))))
    (.binLevel (.alt (tg _ _) (tg _ _)) (.binLevel (.alt (tg _ _) (tg _ _)) h1))
  have h3 : Full (eqExpr sub) := .map _ (.seq h2 (.opt (.seq (.seqL (.seqR .space (.alt (tg _ _) (tg _ _))) .space) h2)))
  exact .binLevel (tg _ _) (.binLevel (tg _ _) (.binLevel (.map _ (.sym _)) (.binLevel (.map _ (.sym _)) (.binLevel (.map _ (.sym _)) h3))))

end

theorem Full.exprF : ∀ n, Full (exprF n)
  | 0 => ⟨fun h => by simp [PC.exprF] at h⟩
  | n + 1 => .seqR .space (.orExpr (Full.exprF n))

theorem Full.expr : Full expr := ⟨fun h => (Full.exprF _).all h⟩

theorem Full.stmtSemicolon : Full stmtSemicolon :=
  .seqL (.seqL (.alt
    (.alt (.map _ (.seqR (.seqR (.tag _) .space) .string)) (.alt (.seqR (.tag _) (.map _ .expr)) (.alt (.map _ (.tag _)) (.map _ (.tag _)))))
    (.alt (.alt (.map _ (.tag _)) (.map _ (.tag _)))
      (.alt (.alt (.map _ (.seq (.seqL (.seqL .expr .space) (.tag _)) .expr))
          (.alt (.map _ (.seq (.seqL (.seqL .expr .space) (.tag _)) .expr)) (.map _ (.seq (.seqL (.seqL .expr .space) (.sym _)) .expr))))
        (.map _ .expr)))) .space) (.sym _)

theorem Full.stmt {sub : C (List Stmt)} (h : Full sub) : Full (stmt sub) :=
  .seqL (.seqR .space (.alt .stmtSemicolon (.alt
    (.map _ (.seq (.seqL (.seqL (.seq (.seqL (.seqL (.seqR (.tag _) .expr) .space) (.sym _)) h) .space) (.sym _))
      (.opt (.seqL (.seqL (.seqR (.seqR (.seqR (.seqR .space (.tag _)) .space) (.sym _)) h) .space) (.sym _)))))
    (.alt (.map _ (.seqL (.seqL (.seq (.seqL (.seqL (.seqR (.tag _) .expr) .space) (.sym _)) h) .space) (.sym _)))
      (.map _ (.seqL (.seqL (.seq (.seqL (.seqL (.seq (.seqL (.seqL (.seqR (.seqR (.tag _) .space) .ident) .space) (.tag _)) .expr)
        .space) (.sym _)) h) .space) (.sym _)))))))
    (.many (.seqR .space (.sym _)))

theorem Full.stmtsF : ∀ n, Full (stmtsF n)
  | 0 => ⟨fun h => by simp [PC.stmtsF] at h⟩
  | n + 1 => .many (.stmt (Full.stmtsF n))

theorem Full.stmts : Full stmts := ⟨fun h => (Full.stmtsF _).all h⟩

end Btrd.PC
