/-
What acceptance by the analyzer means for an execution.
-/
import Verif.Lemmas.Errors

namespace Btrd
open Spec

mutual
theorem accepted_sound (D : Names) (loop : Prop) : ∀ s : Stmt, Accepted D loop s → s.AllE Expr.Sound
  | .assign l r, h => by
    cases l <;> simp only [Accepted] at h
    case ident x => exact ⟨trivial, h.1⟩
    all_goals exact ⟨h.1.1, h.2.1⟩
  | .ite c t f, h => by
    simp only [Accepted] at h
    exact ⟨h.1.1, acceptedL_sound _ _ t h.2.1, acceptedL_sound _ _ f h.2.2⟩
  | .while c b, h => by
    simp only [Accepted] at h
    exact ⟨h.1.1, acceptedL_sound _ _ b h.2⟩
  | .for x r b, h => by
    simp only [Accepted] at h
    obtain ⟨n, rfl, h1, h2⟩ := h
    exact ⟨trivial, h1.1, acceptedL_sound _ _ b h2⟩
  | .brk, _ => trivial
  | .cont, _ => trivial
  | .help, _ => trivial
  | .quit, _ => trivial
  | .filesystem e, h => by
    simp only [Accepted] at h
    obtain ⟨s, rfl⟩ := h
    exact trivial
  | .print e, h => by simp only [Accepted] at h; exact h.1
  | .expr e, h => by simp only [Accepted] at h; exact h.1
theorem acceptedL_sound (D : Names) (loop : Prop) : ∀ p : List Stmt, AcceptedL D loop p → allE Expr.Sound p
  | [], _ => trivial
  | s :: ss, h => by
    rw [AcceptedL] at h
    exact ⟨accepted_sound D loop s h.1, acceptedL_sound _ loop ss h.2⟩
end

mutual
theorem Stmt.allE_and {Q Q' : Expr → Prop} : ∀ s : Stmt, s.AllE Q → s.AllE Q' → s.AllE fun e => Q e ∧ Q' e
  | .assign _ _, h, h' => ⟨⟨h.1, h'.1⟩, h.2, h'.2⟩
  | .ite _ t f, h, h' => ⟨⟨h.1, h'.1⟩, allE_and t h.2.1 h'.2.1, allE_and f h.2.2 h'.2.2⟩
  | .while _ b, h, h' => ⟨⟨h.1, h'.1⟩, allE_and b h.2 h'.2⟩
  | .for _ _ b, h, h' => ⟨⟨h.1, h'.1⟩, ⟨h.2.1, h'.2.1⟩, allE_and b h.2.2 h'.2.2⟩
  | .filesystem _, h, h' => ⟨h, h'⟩
  | .print _, h, h' => ⟨h, h'⟩
  | .expr _, h, h' => ⟨h, h'⟩
  | .brk, _, _ => trivial
  | .cont, _, _ => trivial
  | .help, _, _ => trivial
  | .quit, _, _ => trivial
theorem allE_and {Q Q' : Expr → Prop} : ∀ p : List Stmt, allE Q p → allE Q' p → allE (fun e => Q e ∧ Q' e) p
  | [], _, _ => trivial
  | s :: ss, h, h' => ⟨Stmt.allE_and s h.1 h'.1, allE_and ss h.2 h'.2⟩
end

theorem with_mono {D D' : Names} (h : ∀ x, D x → D' x) (l : List Str) : ∀ x, D.with l x → D'.with l x :=
  fun x hx => hx.imp_left (h x)

theorem Spec.Reads.mono {D D' : Names} (h : ∀ x, D x → D' x) {e : Expr} (he : Reads D e) : Reads D' e :=
  ⟨he.1, fun x hx => h x (he.2 x hx)⟩

mutual
theorem accepted_mono {D D' : Names} (hD : ∀ x, D x → D' x) {loop : Prop} :
    ∀ s : Stmt, Accepted D loop s → Accepted D' loop s
  | .assign l r, h => by
    cases l <;> simp only [Accepted] at h ⊢
    case ident x => exact h.mono (with_mono hD _)
    all_goals exact ⟨h.1.mono hD, h.2.mono hD⟩
  | .ite c t f, h => by
    simp only [Accepted] at h ⊢
    exact ⟨h.1.mono hD, acceptedL_mono hD t h.2.1, acceptedL_mono (with_mono hD _) f h.2.2⟩
  | .while c b, h => by
    simp only [Accepted] at h ⊢
    exact ⟨h.1.mono hD, acceptedL_mono hD b h.2⟩
  | .for x r b, h => by
    simp only [Accepted] at h ⊢
    obtain ⟨n, rfl, h1, h2⟩ := h
    exact ⟨n, rfl, h1.mono (with_mono hD _), acceptedL_mono (with_mono hD _) b h2⟩
  | .brk, h => by simpa only [Accepted] using h
  | .cont, h => by simpa only [Accepted] using h
  | .help, h => by simp only [Accepted]
  | .quit, h => by simp only [Accepted]
  | .filesystem e, h => by simpa only [Accepted] using h
  | .print e, h => by simp only [Accepted] at h ⊢; exact h.mono hD
  | .expr e, h => by simp only [Accepted] at h ⊢; exact h.mono hD
theorem acceptedL_mono {D D' : Names} (hD : ∀ x, D x → D' x) {loop : Prop} :
    ∀ p : List Stmt, AcceptedL D loop p → AcceptedL D' loop p
  | [], _ => by simp only [AcceptedL]
  | s :: ss, h => by
    rw [AcceptedL] at h ⊢
    exact ⟨accepted_mono hD s h.1, acceptedL_mono (with_mono hD _) ss h.2⟩
end

mutual
/-- without the gaps, acceptance is definition before use -/
theorem accepted_strict {loop : Prop} : ∀ (s : Stmt) (D D' : Names), (∀ x ∈ s.reads, D' x → D x) →
    Accepted D' loop s → NoGaps s → Strict D s
  | .assign l r, D, D', hD, h, hn => by
    cases l <;> simp only [Accepted, Strict, Stmt.reads, NoGaps] at h ⊢ hD hn
    case ident n =>
      intro x hx
      rcases h.2 x hx with h | h
      · exact hD x hx h
      · simp only [List.mem_singleton] at h
        subst h
        exact absurd hx (hn x rfl)
    all_goals
      simp only [List.mem_append] at hD
      exact ⟨fun x hx => hD x (.inl hx) (h.1.2 x hx), fun x hx => hD x (.inr hx) (h.2.2 x hx)⟩
  | .ite c t f, D, D', hD, h, hn => by
    simp only [Accepted, Strict, Stmt.reads, NoGaps, List.mem_append] at h ⊢ hD hn
    refine ⟨fun x hx => hD x (.inl (.inl hx)) (h.1.2 x hx),
      acceptedL_strict t D D' (fun x hx => hD x (.inl (.inr hx))) h.2.1 hn.1,
      acceptedL_strict f D (D'.with (gainsL t)) (fun x hx hd => ?_) h.2.2 hn.2.1⟩
    rcases hd with hd | hd
    · exact hD x (.inr hx) hd
    · exact absurd hx (hn.2.2 x hd)
  | .while c b, D, D', hD, h, hn => by
    simp only [Accepted, Strict, Stmt.reads, NoGaps, List.mem_append] at h ⊢ hD hn
    exact ⟨fun x hx => hD x (.inl hx) (h.1.2 x hx), acceptedL_strict b D D' (fun x hx => hD x (.inr hx)) h.2 hn⟩
  | .for x r b, D, D', hD, h, hn => by
    simp only [Accepted, Strict, Stmt.reads, NoGaps, List.mem_append] at h ⊢ hD hn
    obtain ⟨n, rfl, h1, h2⟩ := h
    refine ⟨fun y hy => ?_, fun m hm => ?_⟩
    · rcases h1.2 y hy with h | h
      · exact hD y (.inl hy) h
      · simp only [List.mem_singleton] at h
        subst h
        exact absurd hy (hn.1 y rfl)
    · injection hm with hm
      subst hm
      exact acceptedL_strict b _ _ (fun x hx hd => hd.imp_left (hD x (.inr hx))) h2 hn.2
  | .brk, _, _, _, _, _ => by simp only [Strict]
  | .cont, _, _, _, _, _ => by simp only [Strict]
  | .help, _, _, _, _, _ => by simp only [Strict]
  | .quit, _, _, _, _, _ => by simp only [Strict]
  | .filesystem e, D, D', hD, h, hn => by
    simp only [Accepted, Strict] at h ⊢
    obtain ⟨s, rfl⟩ := h
    simp [Expr.uses]
  | .print e, D, D', hD, h, hn => by
    simp only [Accepted, Strict, Stmt.reads] at h ⊢ hD
    exact fun x hx => hD x hx (h.2 x hx)
  | .expr e, D, D', hD, h, hn => by
    simp only [Accepted, Strict, Stmt.reads] at h ⊢ hD
    exact fun x hx => hD x hx (h.2 x hx)
theorem acceptedL_strict {loop : Prop} : ∀ (p : List Stmt) (D D' : Names), (∀ x ∈ readsL p, D' x → D x) →
    AcceptedL D' loop p → NoGapsL p → StrictL D p
  | [], _, _, _, _, _ => by simp only [StrictL]
  | s :: ss, D, D', hD, h, hn => by
    simp only [AcceptedL, StrictL, readsL, NoGapsL, List.mem_append] at h ⊢ hD hn
    exact ⟨accepted_strict s D D' (fun x hx => hD x (.inl hx)) h.1 hn.1,
      acceptedL_strict ss _ _ (fun x hx hd => hd.imp_left (hD x (.inr hx))) h.2 hn.2⟩
end

mutual
/-- every program is strict when every variable is defined -/
theorem strict_all : ∀ s : Stmt, Strict (fun _ => True) s
  | .assign l r => by cases l <;> simp [Strict]
  | .ite c t f => by simp only [Strict]; exact ⟨fun _ _ => trivial, strictL_all t, strictL_all f⟩
  | .while c b => by simp only [Strict]; exact ⟨fun _ _ => trivial, strictL_all b⟩
  | .for x r b => by
    simp only [Strict]
    refine ⟨fun _ _ => trivial, fun n _ => ?_⟩
    have : Names.with (fun _ => True) [n] = fun _ => True := by funext x; simp [Names.with]
    rw [this]; exact strictL_all b
  | .brk => by simp only [Strict]
  | .cont => by simp only [Strict]
  | .help => by simp only [Strict]
  | .quit => by simp only [Strict]
  | .filesystem e => by simp [Strict]
  | .print e => by simp [Strict]
  | .expr e => by simp [Strict]
theorem strictL_all : ∀ p : List Stmt, StrictL (fun _ => True) p
  | [] => by simp only [StrictL]
  | s :: ss => by
    simp only [StrictL]
    have : Names.with (fun _ => True) s.gains = fun _ => True := by funext x; simp [Names.with]
    rw [this]; exact ⟨strict_all s, strictL_all ss⟩
end

mutual
/-- outside loops, an accepted statement does not jump -/
theorem accepted_no_jump (cfg : Cfg) : ∀ (s : Stmt) (D : Names) (st : State), Accepted D False s →
    (evalStmt cfg s st).2 ≠ .brk ∧ (evalStmt cfg s st).2 ≠ .cont
  | .assign l r, D, st, h => by
    rw [evalStmt]; unfold evalAssign
    repeat' split
    all_goals simp
  | .ite c t f, D, st, h => by
    simp only [Accepted] at h
    rw [evalStmt]
    refine inScope_no_jump st _ (fun st => ?_)
    split
    · simp
    · exact acceptedL_no_jump cfg t D st h.2.1
    · exact acceptedL_no_jump cfg f _ st h.2.2
  | .while c b, D, st, h => C34_loops_absorb_jumps cfg st _ (.inl ⟨c, b, rfl⟩)
  | .for x r b, D, st, h => C34_loops_absorb_jumps cfg st _ (.inr ⟨x, r, b, rfl⟩)
  | .brk, D, st, h => by simp only [Accepted] at h
  | .cont, D, st, h => by simp only [Accepted] at h
  | .help, D, st, h => by rw [evalStmt]; unfold State.write; split <;> simp
  | .quit, D, st, h => by rw [evalStmt]; simp
  | .filesystem e, D, st, h => by
    rw [evalStmt]; unfold evalFilesystem
    repeat' split
    all_goals simp
  | .print e, D, st, h => by
    rw [evalStmt]; unfold evalPrint State.write
    repeat' split
    all_goals simp
  | .expr e, D, st, h => by
    rw [evalStmt]; unfold evalExprStmt State.write
    repeat' split
    all_goals simp
theorem acceptedL_no_jump (cfg : Cfg) : ∀ (p : List Stmt) (D : Names) (st : State), AcceptedL D False p →
    (evalStmts cfg p st).2 ≠ .brk ∧ (evalStmts cfg p st).2 ≠ .cont
  | [], D, st, h => by rw [evalStmts]; simp
  | s :: ss, D, st, h => by
    rw [AcceptedL] at h
    rw [evalStmts]
    have h1 := accepted_no_jump cfg s D st h.1
    generalize evalStmt cfg s st = r at h1
    obtain ⟨st', r⟩ := r
    cases r with
    | ok => exact acceptedL_no_jump cfg ss _ st' h.2
    | brk => simp at h1
    | cont => simp at h1
    | quit => simp
    | fail f => simp
end

/-! ### which variables an execution creates -/

theorem inScope_sameDefined (st : State) (body : State → State × IRes)
    (hg : ∀ st, Gained st.vars (body st).1.vars) : SameDefined st.vars (inScope st body).1.vars := by
  have h := hg { st with vars := st.vars.push }
  obtain ⟨s, r, hr⟩ := gained_push h
  rw [inScope_eq (st₁ := (body { st with vars := st.vars.push }).1) (r := (body { st with vars := st.vars.push }).2) rfl hr]
  rw [hr] at h
  exact h.2

/-- a statement creates at most its own variable -/
theorem evalStmt_creates (cfg : Cfg) (s : Stmt) (st : State) (x : Str)
    (hx : defined (evalStmt cfg s st).1.vars x) : defined st.vars x ∨ x ∈ s.gains := by
  have same : ∀ vs, SameDefined st.vars vs → defined vs x → defined st.vars x ∨ x ∈ s.gains :=
    fun vs h hd => .inl (by rw [sameDefined_defined h]; exact hd)
  have eqv : ∀ vs, vs = st.vars → defined vs x → defined st.vars x ∨ x ∈ s.gains :=
    fun vs h hd => .inl (by rw [← h]; exact hd)
  cases s with
  | assign l r =>
    rw [evalStmt] at hx
    unfold evalAssign at hx
    split at hx
    · exact .inl hx
    · split at hx
      · split at hx
        · rename_i vs hi
          simp only [defined_insert hi] at hx
          simpa [Stmt.gains, Names.with] using hx
        · exact .inl hx
      · split at hx
        · rename_i vs hm
          obtain ⟨y, p, old, new, hw⟩ := modifyLhs_wrote _ _ _ _ _ hm
          exact same _ hw.defined hx
        · exact .inl hx
  | ite c t f =>
    refine same _ ?_ hx
    rw [evalStmt]
    refine inScope_sameDefined st _ fun st => ?_
    cases evalCond cfg st c with
    | error e => exact Gained.refl _
    | ok b => cases b
              · exact evalStmts_rel (gained_closed cfg) f (allT_true f) st
              · exact evalStmts_rel (gained_closed cfg) t (allT_true t) st
  | «while» c b =>
    refine same _ ?_ hx
    rw [evalStmt]
    exact inScope_sameDefined st _ fun st => whileLoop_rel (gained_closed cfg) _ _
      (fun st => evalStmts_rel (gained_closed cfg) b (allT_true b) st) _ st
  | «for» y r b =>
    refine same _ ?_ hx
    rw [evalStmt]
    exact inScope_sameDefined st _ fun st => evalFor_rel (gained_closed cfg) y r trivial _
      (fun st => evalStmts_rel (gained_closed cfg) b (allT_true b) st) st
  | brk => exact .inl (by simpa only [evalStmt] using hx)
  | cont => exact .inl (by simpa only [evalStmt] using hx)
  | help => refine eqv _ ?_ hx; rw [evalStmt, State.write_vars]
  | quit => exact .inl (by simpa only [evalStmt] using hx)
  | filesystem e => refine eqv _ ?_ hx; rw [evalStmt, evalFilesystem_vars]
  | print e => refine eqv _ ?_ hx; rw [evalStmt, evalPrint_vars]
  | expr e => refine eqv _ ?_ hx; rw [evalStmt, evalExprStmt_vars]

theorem evalStmts_creates (cfg : Cfg) : ∀ (p : List Stmt) (st : State) (x : Str),
    defined (evalStmts cfg p st).1.vars x → defined st.vars x ∨ x ∈ gainsL p := by
  intro p
  induction p with
  | nil => intro st x h; rw [evalStmts] at h; exact .inl h
  | cons s ss ih =>
    intro st x h
    have h1 := evalStmt_creates cfg s st x
    rw [evalStmts] at h
    simp only [gainsL, List.flatMap_cons, List.mem_append]
    generalize evalStmt cfg s st = r at h h1
    obtain ⟨st', r⟩ := r
    have fin : defined st'.vars x → defined st.vars x ∨ x ∈ s.gains ∨ x ∈ List.flatMap Stmt.gains ss :=
      fun h => (h1 h).imp_right .inl
    cases r with
    | ok =>
      rcases ih st' x h with h | h
      · exact fin h
      · exact .inr (.inr h)
    | brk => exact fin h
    | cont => exact fin h
    | quit => exact fin h
    | fail f => exact fin h

/-- a program that runs to its end creates exactly its variables -/
theorem evalStmts_defined (cfg : Cfg) : ∀ (p : List Stmt) (st : State), (evalStmts cfg p st).2 = .ok →
    defined (evalStmts cfg p st).1.vars = (defined st.vars).with (gainsL p) := by
  intro p
  induction p with
  | nil => intro st _; rw [evalStmts]; exact (with_nil _).symm
  | cons s ss ih =>
    intro st hok
    have h1 := evalStmt_creates cfg s st
    have h2 := gains_defined (cfg := cfg) s st
    have h3 := evalStmt_rel (gained_closed cfg) s (Stmt.allT_true s) st
    rw [evalStmts] at hok ⊢
    generalize evalStmt cfg s st = r at hok h1 h2 h3 ⊢
    obtain ⟨st', r⟩ := r
    cases r with
    | ok =>
      have h4 : defined st'.vars = (defined st.vars).with s.gains := by
        funext x
        apply propext
        constructor
        · exact h1 x
        · rintro (h | h)
          · exact gained_defined h3 h
          · exact h2 rfl x h
      simp only at hok ⊢
      rw [ih st' hok, h4, with_with]
      rfl
    | brk => simp at hok
    | cont => simp at hok
    | quit => simp at hok
    | fail f => simp at hok

end Btrd
