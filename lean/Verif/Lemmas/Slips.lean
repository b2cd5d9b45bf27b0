/-
Acceptance is definition before use, variable by variable, apart from the places of `Spec.Slips`.
-/
import Verif.Spec.Slips
import Verif.Lemmas.Accepted

namespace Btrd
open Spec

/-- every name but `x`, and `x` if `D` has it -/
def butFor (x : Str) (D : Names) : Names := fun y => y = x → D y

theorem butFor_with {x : Str} {D : Names} {l : List Str} {y : Str} (h : butFor x (D.with l) y) : (butFor x D).with l y := by
  by_cases hy : y = x
  · exact (h hy).imp_left fun h _ => h
  · exact .inl fun h => absurd h hy

theorem butFor_with_eq (x : Str) (D : Names) (l : List Str) : StrictL (butFor x (D.with l)) p → StrictL ((butFor x D).with l) p :=
  fun h => by
    have : butFor x (D.with l) = (butFor x D).with l := by
      funext y
      apply propext
      refine ⟨butFor_with, ?_⟩
      rintro (h | h) hy
      · exact .inl (h hy)
      · exact .inr h
    rw [← this]; exact h

mutual
theorem slips_strict (x : Str) {loop : Prop} : ∀ (s : Stmt) (D D' : Names), (x ∈ s.reads → D' x → D x) →
    Accepted D' loop s → ¬ Slips x s → Strict (butFor x D) s
  | .assign l r, D, D', hD, h, hn => by
    cases l <;> simp only [Accepted, Strict, Stmt.reads, Slips] at h ⊢ hD hn
    case ident n =>
      intro y hy hyx
      subst hyx
      rcases h.2 y hy with h | h
      · exact hD hy h
      · simp only [List.mem_singleton] at h
        subst h
        exact absurd ⟨rfl, hy⟩ hn
    all_goals
      simp only [List.mem_append] at hD
      refine ⟨fun y hy hyx => ?_, fun y hy hyx => ?_⟩
      · subst hyx; exact hD (.inl hy) (h.1.2 y hy)
      · subst hyx; exact hD (.inr hy) (h.2.2 y hy)
  | .ite c t f, D, D', hD, h, hn => by
    simp only [Accepted, Strict, Stmt.reads, Slips, List.mem_append, not_or] at h ⊢ hD hn
    refine ⟨fun y hy hyx => ?_,
      slipsL_strict x t D D' (fun hx => hD (.inl (.inr hx))) h.2.1 hn.2.1,
      slipsL_strict x f D (D'.with (gainsL t)) (fun hx hd => ?_) h.2.2 hn.2.2⟩
    · subst hyx; exact hD (.inl (.inl hy)) (h.1.2 y hy)
    rcases hd with hd | hd
    · exact hD (.inr hx) hd
    · exact absurd ⟨hd, hx⟩ hn.1
  | .while c b, D, D', hD, h, hn => by
    simp only [Accepted, Strict, Stmt.reads, Slips, List.mem_append] at h ⊢ hD hn
    refine ⟨fun y hy hyx => ?_, slipsL_strict x b D D' (fun hx => hD (.inr hx)) h.2 hn⟩
    subst hyx; exact hD (.inl hy) (h.1.2 y hy)
  | .for z r b, D, D', hD, h, hn => by
    simp only [Accepted, Strict, Stmt.reads, Slips, List.mem_append, not_or] at h ⊢ hD hn
    obtain ⟨n, rfl, h1, h2⟩ := h
    refine ⟨fun y hy hyx => ?_, fun m hm => ?_⟩
    · subst hyx
      rcases h1.2 y hy with h | h
      · exact hD (.inl hy) h
      · simp only [List.mem_singleton] at h
        subst h
        exact absurd ⟨rfl, hy⟩ hn.1
    · injection hm with hm
      subst hm
      exact butFor_with_eq _ _ _ (slipsL_strict x b _ _ (fun hx hd => hd.imp_left (hD (.inr hx))) h2 hn.2)
  | .brk, _, _, _, _, _ => by simp only [Strict]
  | .cont, _, _, _, _, _ => by simp only [Strict]
  | .help, _, _, _, _, _ => by simp only [Strict]
  | .quit, _, _, _, _, _ => by simp only [Strict]
  | .filesystem e, D, D', hD, h, hn => by
    simp only [Accepted, Strict] at h ⊢
    obtain ⟨s, rfl⟩ := h
    simp [Expr.uses]
  | .print e, D, D', hD, h, hn => by
    simp only [Accepted, Strict, Stmt.reads] at h ⊢ hD
    intro y hy hyx
    subst hyx; exact hD hy (h.2 y hy)
  | .expr e, D, D', hD, h, hn => by
    simp only [Accepted, Strict, Stmt.reads] at h ⊢ hD
    intro y hy hyx
    subst hyx; exact hD hy (h.2 y hy)
theorem slipsL_strict (x : Str) {loop : Prop} : ∀ (p : List Stmt) (D D' : Names), (x ∈ readsL p → D' x → D x) →
    AcceptedL D' loop p → ¬ SlipsL x p → StrictL (butFor x D) p
  | [], _, _, _, _, _ => by simp only [StrictL]
  | s :: ss, D, D', hD, h, hn => by
    simp only [AcceptedL, StrictL, readsL, SlipsL, List.mem_append, not_or] at h ⊢ hD hn
    exact ⟨slips_strict x s D D' (fun hx => hD (.inl hx)) h.1 hn.1,
      butFor_with_eq _ _ _
        (slipsL_strict x ss _ _ (fun hx hd => hd.imp_left (hD (.inr hx))) h.2 hn.2)⟩
end

mutual
theorem slips_reads (x : Str) : ∀ s : Stmt, Slips x s → x ∈ s.reads
  | .assign l r, h => by
    simp only [Slips] at h
    obtain ⟨rfl, h⟩ := h
    simpa only [Stmt.reads] using h
  | .ite c t f, h => by
    simp only [Slips] at h
    simp only [Stmt.reads, List.mem_append]
    rcases h with h | h | h
    · exact .inr h.2
    · exact .inl (.inr (slipsL_reads x t h))
    · exact .inr (slipsL_reads x f h)
  | .while c b, h => by
    simp only [Slips] at h
    simp only [Stmt.reads, List.mem_append]
    exact .inr (slipsL_reads x b h)
  | .for y r b, h => by
    simp only [Slips] at h
    simp only [Stmt.reads, List.mem_append]
    exact h.imp (·.2) (slipsL_reads x b)
  | .brk, h => by simp only [Slips] at h
  | .cont, h => by simp only [Slips] at h
  | .help, h => by simp only [Slips] at h
  | .quit, h => by simp only [Slips] at h
  | .filesystem _, h => by simp only [Slips] at h
  | .print _, h => by simp only [Slips] at h
  | .expr _, h => by simp only [Slips] at h
theorem slipsL_reads (x : Str) : ∀ p : List Stmt, SlipsL x p → x ∈ readsL p
  | [], h => by simp only [SlipsL] at h
  | s :: ss, h => by
    simp only [SlipsL] at h
    simp only [readsL, List.mem_append]
    exact h.imp (slips_reads x s) (slipsL_reads x ss)
end

end Btrd
