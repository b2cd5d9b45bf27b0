/-
Standard output that takes only so many characters: as long as they suffice nothing is different, and when they do
not, what was written is what would have been, cut off.
-/
import Verif.Lemmas.Prefix
import Verif.Props.Control

namespace Btrd

/-- the same state, with room for `n` characters in all -/
def State.limit (st : State) (n : Nat) : State := { st with sink := ⟨st.sink.out, some (n - st.sink.out.length)⟩ }

/-- `r'` is `r` with room for `n` characters in all -/
def Cut (n : Nat) (r r' : State × IRes) : Prop :=
  r.1.sink.room = none ∧
  if r.1.sink.out.length ≤ n then r' = (r.1.limit n, r.2)
  else (∃ f, r'.2 = .fail f) ∧ r'.1.sink = ⟨r.1.sink.out.take n, some 0⟩

theorem Cut.refl {n : Nat} {st : State} (hr : st.sink.room = none) (hl : st.sink.out.length ≤ n) (x : IRes) :
    Cut n (st, x) (st.limit n, x) := by
  refine ⟨hr, ?_⟩
  rw [if_pos hl]

variable {n : Nat}

theorem Cut.refl' {st : State} (hr : st.sink.room = none) (hl : st.sink.out.length ≤ n) (vs : Vars Value) (fs : Option Fs)
    (x : IRes) : Cut n (⟨st.sink, vs, fs⟩, x) ({ st.limit n with vars := vs, fs := fs }, x) :=
  Cut.refl (st := ⟨st.sink, vs, fs⟩) hr hl x

theorem Cut.fits {r r' : State × IRes} (h : Cut n r r') (hl : r.1.sink.out.length ≤ n) : r' = (r.1.limit n, r.2) := by
  have := h.2
  rwa [if_pos hl] at this

theorem Cut.full {r r' : State × IRes} (h : Cut n r r') (hl : ¬ r.1.sink.out.length ≤ n) :
    (∃ f, r'.2 = .fail f) ∧ r'.1.sink = ⟨r.1.sink.out.take n, some 0⟩ := by
  have := h.2
  rwa [if_neg hl] at this

theorem Cut.grows {r r' : State × IRes} (h : Cut n r r') (hl : ¬ r.1.sink.out.length ≤ n) {r₁ : State × IRes}
    (hr : r₁.1.sink.room = none) (hp : r.1.sink.out <+: r₁.1.sink.out) : Cut n r₁ r' := by
  refine ⟨hr, ?_⟩
  have h1 := hp.length_le
  rw [if_neg (by omega)]
  obtain ⟨h2, h3⟩ := h.full hl
  refine ⟨h2, ?_⟩
  rw [h3]
  obtain ⟨t, ht⟩ := hp
  rw [← ht, List.take_append_of_le_length (by omega)]

theorem cut_write (st : State) (s : Str) (hr : st.sink.room = none) (hl : st.sink.out.length ≤ n) :
    Cut n (st.write s) ((st.limit n).write s) := by
  obtain ⟨⟨out, room⟩, vars, fs⟩ := st
  simp only at hr hl
  subst hr
  refine ⟨by simp [State.write, Sink.write], ?_⟩
  simp only [State.write, Sink.write, State.limit, List.length_append]
  by_cases h : out.length + s.length ≤ n
  · rw [if_pos h, if_pos (by omega)]
    have : n - out.length - s.length = n - (out.length + s.length) := by omega
    simp [this]
  · have h' : ¬ s.length ≤ n - out.length := by omega
    simp only [h, h', if_false]
    refine ⟨⟨_, rfl⟩, ?_⟩
    simp only [Sink.mk.injEq, and_true]
    rw [List.take_append, List.take_of_length_le hl]

theorem none_closed (cfg : Cfg) : InvClosed cfg (fun _ => True) (fun st => st.sink.room = none) where
  push st h := h
  pop st vs h _ := h
  assign st l r _ _ h := by rw [evalAssign_sink]; exact h
  filesystem st e _ h := by rw [evalFilesystem_sink]; exact h
  write st s h := by
    simp [State.write, Sink.write, h]
  bind st e items k _ _ _ v _ st' name vs h _ := h

theorem limit_expr (cfg : Cfg) (st : State) (e : Expr) : evalExpr cfg (st.limit n) e = evalExpr cfg st e :=
  expr_sink cfg st _ e

theorem limit_lhs (cfg : Cfg) (st : State) (l : Expr) (f : Value → R Value) :
    modifyLhs cfg (st.limit n) l f = modifyLhs cfg st l f := lhs_sink cfg st _ l f

theorem cut_assign (cfg : Cfg) (st : State) (l r : Expr) (hr : st.sink.room = none) (hl : st.sink.out.length ≤ n) :
    Cut n (evalAssign cfg st l r) (evalAssign cfg (st.limit n) l r) := by
  unfold evalAssign
  rw [limit_expr]
  cases evalExpr cfg st r with
  | error e => exact .refl hr hl _
  | ok v =>
    have hv : (st.limit n).vars = st.vars := rfl
    cases l <;> simp only [limit_lhs, hv] <;> split <;>
      first | exact .refl hr hl _ | exact .refl' hr hl _ _ _

theorem cut_filesystem (cfg : Cfg) (st : State) (e : Expr) (hr : st.sink.room = none) (hl : st.sink.out.length ≤ n) :
    Cut n (evalFilesystem cfg st e) (evalFilesystem cfg (st.limit n) e) := by
  unfold evalFilesystem
  rw [limit_expr]
  cases evalExpr cfg st e with
  | error e => exact .refl hr hl _
  | ok v =>
    simp only
    split
    · exact .refl hr hl _
    · split
      · exact .refl hr hl _
      · exact .refl' hr hl _ _ _

theorem cut_print (cfg : Cfg) (st : State) (e : Expr) (hr : st.sink.room = none) (hl : st.sink.out.length ≤ n) :
    Cut n (evalPrint cfg st e) (evalPrint cfg (st.limit n) e) := by
  unfold evalPrint
  rw [limit_expr]
  cases evalExpr cfg st e with
  | error e => exact .refl hr hl _
  | ok v =>
    simp only
    split
    · exact .refl hr hl _
    · exact cut_write st _ hr hl

theorem cut_exprStmt (cfg : Cfg) (st : State) (e : Expr) (hr : st.sink.room = none) (hl : st.sink.out.length ≤ n) :
    Cut n (evalExprStmt cfg st e) (evalExprStmt cfg (st.limit n) e) := by
  unfold evalExprStmt
  rw [limit_expr]
  cases evalExpr cfg st e with
  | error e => exact .refl hr hl _
  | ok v =>
    simp only
    split
    · split
      · exact .refl hr hl _
      · exact cut_write st _ hr hl
    · exact .refl hr hl _

/-- a part of a program: it can be cut, and never takes output back -/
structure Cuts (n : Nat) (body : State → State × IRes) : Prop where
  cut : ∀ st, st.sink.room = none → st.sink.out.length ≤ n → Cut n (body st) (body (st.limit n))
  none : ∀ st, st.sink.room = none → (body st).1.sink.room = none
  grows : ∀ st, st.sink.out <+: (body st).1.sink.out

theorem cuts_inScope (body : State → State × IRes) (hb : Cuts n body) : Cuts n (fun st => inScope st body) where
  cut st hr hl := by
    have h := hb.cut { st with vars := st.vars.push } hr hl
    unfold inScope
    have hs : ({ st.limit n with vars := (st.limit n).vars.push } : State) = State.limit { st with vars := st.vars.push } n := rfl
    simp only [hs]
    generalize body { st with vars := st.vars.push } = r at h
    generalize body (State.limit { st with vars := st.vars.push } n) = r' at h
    by_cases hle : r.1.sink.out.length ≤ n
    · rw [h.fits hle]
      have hv : (r.1.limit n).vars = r.1.vars := rfl
      rw [hv]
      cases r.1.vars.pop with
      | ok vs => exact Cut.refl (st := { r.1 with vars := vs }) h.1 hle _
      | error e => exact .refl h.1 hle _
    · obtain ⟨⟨f, h1⟩, h2⟩ := h.full hle
      have h0 := h.1
      cases r.1.vars.pop <;> cases r'.1.vars.pop <;>
        (refine ⟨h0, ?_⟩; simp only [hle, if_false]; refine ⟨?_, h2⟩; first | exact ⟨_, h1⟩ | exact ⟨_, rfl⟩)
  none st hr := by
    unfold inScope
    have h := hb.none { st with vars := st.vars.push } hr
    simp only
    generalize body { st with vars := st.vars.push } = r at h
    cases r.1.vars.pop <;> exact h
  grows st := by
    unfold inScope
    have h := hb.grows { st with vars := st.vars.push }
    simp only
    generalize body { st with vars := st.vars.push } = r at h
    cases r.1.vars.pop <;> exact h

/-- what comes after a part of a program: `g` may look at the result -/
theorem cut_after {r r' : State × IRes} (h : Cut n r r') {g : State × IRes → State × IRes}
    (hg : ∀ st x, st.sink.room = none → st.sink.out.length ≤ n → Cut n (g (st, x)) (g (st.limit n, x)))
    (hfail : ∀ st f, g (st, .fail f) = (st, .fail f))
    (hn : ∀ r, r.1.sink.room = none → (g r).1.sink.room = none) (hgr : ∀ r, r.1.sink.out <+: (g r).1.sink.out) :
    Cut n (g r) (g r') := by
  by_cases hle : r.1.sink.out.length ≤ n
  · rw [h.fits hle]
    exact hg r.1 r.2 h.1 hle
  · obtain ⟨f, h1⟩ := (h.full hle).1
    have : g r' = r' := by
      obtain ⟨a, b⟩ := r'
      simp only at h1
      subst h1
      exact hfail a f
    rw [this]
    exact h.grows hle (hn r h.1) (hgr r)

theorem cuts_while (cond : State → R Bool) (body : State → State × IRes)
    (hc : ∀ st, cond (st.limit n) = cond st) (hb : Cuts n body) : ∀ k, Cuts n (whileLoop cond body k)
  | 0 => ⟨fun st hr hl => .refl hr hl _, fun st hr => hr, fun st => List.prefix_refl _⟩
  | k + 1 => by
    have ih := cuts_while cond body hc hb k
    let g : State × IRes → State × IRes := fun r => match r with
      | (st', .ok) => whileLoop cond body k st'
      | (st', .cont) => whileLoop cond body k st'
      | (st', .brk) => (st', .ok)
      | (st', r) => (st', r)
    have he : ∀ st, whileLoop cond body (k + 1) st = match cond st with
      | .error f => (st, .fail f)
      | .ok false => (st, .ok)
      | .ok true => g (body st) := fun st => rfl
    have gn : ∀ r, r.1.sink.room = none → (g r).1.sink.room = none := by
      rintro ⟨st, x⟩ h
      cases x <;> first | exact ih.none st h | exact h
    have gg : ∀ r, r.1.sink.out <+: (g r).1.sink.out := by
      rintro ⟨st, x⟩
      cases x <;> first | exact ih.grows st | exact List.prefix_refl _
    refine ⟨fun st hr hl => ?_, fun st hr => ?_, fun st => ?_⟩
    · rw [he, he, hc]
      split
      · exact .refl hr hl _
      · exact .refl hr hl _
      · refine cut_after (hb.cut st hr hl) ?_ (fun _ _ => rfl) gn gg
        intro st x h1 h2
        cases x <;> first | exact ih.cut st h1 h2 | exact .refl h1 h2 _
    · rw [he]
      split
      · exact hr
      · exact hr
      · exact gn _ (hb.none st hr)
    · rw [he]
      split
      · exact List.prefix_refl _
      · exact List.prefix_refl _
      · exact (hb.grows st).trans (gg _)

theorem cuts_for (name : Str) (body : State → State × IRes) (hb : Cuts n body) : ∀ vs, Cuts n (forLoop name body vs)
  | [] => ⟨fun st hr hl => .refl hr hl _, fun st hr => hr, fun st => List.prefix_refl _⟩
  | v :: vs => by
    have ih := cuts_for name body hb vs
    let g : State × IRes → State × IRes := fun r => match r with
      | (st', .ok) => forLoop name body vs st'
      | (st', .cont) => forLoop name body vs st'
      | (st', .brk) => (st', .ok)
      | (st', r) => (st', r)
    have he : ∀ st, forLoop name body (v :: vs) st = match st.vars.insert name v with
      | .error e => (st, .fail e)
      | .ok vars => g (body { st with vars := vars }) := fun st => rfl
    have gn : ∀ r, r.1.sink.room = none → (g r).1.sink.room = none := by
      rintro ⟨st, x⟩ h
      cases x <;> first | exact ih.none st h | exact h
    have gg : ∀ r, r.1.sink.out <+: (g r).1.sink.out := by
      rintro ⟨st, x⟩
      cases x <;> first | exact ih.grows st | exact List.prefix_refl _
    refine ⟨fun st hr hl => ?_, fun st hr => ?_, fun st => ?_⟩
    · have hv : (st.limit n).vars = st.vars := rfl
      rw [he, he, hv]
      cases st.vars.insert name v with
      | error e => exact .refl hr hl _
      | ok w =>
        refine cut_after (hb.cut { st with vars := w } hr hl) ?_ (fun _ _ => rfl) gn gg
        intro st x h1 h2
        cases x <;> first | exact ih.cut st h1 h2 | exact .refl h1 h2 _
    · rw [he]
      split
      · exact hr
      · exact gn _ (hb.none ⟨st.sink, _, st.fs⟩ hr)
    · rw [he]
      split
      · exact List.prefix_refl _
      · rename_i w _
        exact List.IsPrefix.trans (hb.grows ⟨st.sink, w, st.fs⟩) (gg _)

theorem stmts_none (cfg : Cfg) (p : List Stmt) (st : State) (h : st.sink.room = none) : (evalStmts cfg p st).1.sink.room = none :=
  evalStmts_inv (none_closed cfg) p (allE_true p) st h

theorem stmt_none (cfg : Cfg) (s : Stmt) (st : State) (h : st.sink.room = none) : (evalStmt cfg s st).1.sink.room = none :=
  evalStmt_inv (none_closed cfg) s s.allE_true st h

mutual
theorem cut_stmt (cfg : Cfg) : ∀ (s : Stmt) (st : State), st.sink.room = none → st.sink.out.length ≤ n →
    Cut n (evalStmt cfg s st) (evalStmt cfg s (st.limit n))
  | .assign l r, st, hr, hl => by rw [evalStmt, evalStmt]; exact cut_assign cfg st l r hr hl
  | .ite c t f, st, hr, hl => by
    have ht : Cuts n (evalStmts cfg t) := ⟨cut_stmts cfg t, stmts_none cfg t, fun st => C38_output_grows cfg t st⟩
    have hf : Cuts n (evalStmts cfg f) := ⟨cut_stmts cfg f, stmts_none cfg f, fun st => C38_output_grows cfg f st⟩
    rw [evalStmt, evalStmt]
    refine (cuts_inScope _ ⟨?_, ?_, ?_⟩).cut st hr hl
    · intro st hr hl
      simp only [evalCond, limit_expr]
      split
      · exact .refl hr hl _
      · exact ht.cut st hr hl
      · exact hf.cut st hr hl
    · intro st hr
      split
      · exact hr
      · exact ht.none st hr
      · exact hf.none st hr
    · intro st
      split
      · exact List.prefix_refl _
      · exact ht.grows st
      · exact hf.grows st
  | .while c b, st, hr, hl => by
    have hb : Cuts n (evalStmts cfg b) := ⟨cut_stmts cfg b, stmts_none cfg b, fun st => C38_output_grows cfg b st⟩
    rw [evalStmt, evalStmt]
    exact (cuts_inScope _ (cuts_while _ _ (fun st => by simp only [evalCond, limit_expr]) hb _)).cut st hr hl
  | .for x r b, st, hr, hl => by
    have hb : Cuts n (evalStmts cfg b) := ⟨cut_stmts cfg b, stmts_none cfg b, fun st => C38_output_grows cfg b st⟩
    rw [evalStmt, evalStmt]
    refine (cuts_inScope _ ⟨?_, ?_, ?_⟩).cut st hr hl
    · intro st hr hl
      unfold evalFor
      cases x <;> try exact .refl hr hl _
      simp only [limit_expr]
      split
      · exact .refl hr hl _
      · split
        · exact .refl hr hl _
        · exact (cuts_for _ _ hb _).cut st hr hl
    · intro st hr
      unfold evalFor
      cases x <;> try exact hr
      simp only
      split
      · exact hr
      · split
        · exact hr
        · exact (cuts_for _ _ hb _).none st hr
    · intro st
      unfold evalFor
      cases x <;> try exact List.prefix_refl _
      simp only
      split
      · exact List.prefix_refl _
      · split
        · exact List.prefix_refl _
        · exact (cuts_for _ _ hb _).grows st
  | .brk, st, hr, hl => by rw [evalStmt, evalStmt]; exact .refl hr hl _
  | .cont, st, hr, hl => by rw [evalStmt, evalStmt]; exact .refl hr hl _
  | .help, st, hr, hl => by rw [evalStmt, evalStmt]; exact cut_write st _ hr hl
  | .quit, st, hr, hl => by rw [evalStmt, evalStmt]; exact .refl hr hl _
  | .filesystem e, st, hr, hl => by rw [evalStmt, evalStmt]; exact cut_filesystem cfg st e hr hl
  | .print e, st, hr, hl => by rw [evalStmt, evalStmt]; exact cut_print cfg st e hr hl
  | .expr e, st, hr, hl => by rw [evalStmt, evalStmt]; exact cut_exprStmt cfg st e hr hl
theorem cut_stmts (cfg : Cfg) : ∀ (p : List Stmt) (st : State), st.sink.room = none → st.sink.out.length ≤ n →
    Cut n (evalStmts cfg p st) (evalStmts cfg p (st.limit n))
  | [], st, hr, hl => by rw [evalStmts, evalStmts]; exact .refl hr hl _
  | s :: ss, st, hr, hl => by
    let g : State × IRes → State × IRes := fun r => match r with
      | (st', .ok) => evalStmts cfg ss st'
      | (st', r) => (st', r)
    have he : ∀ st, evalStmts cfg (s :: ss) st = g (evalStmt cfg s st) := fun st => by
      rw [evalStmts]
      generalize evalStmt cfg s st = r
      obtain ⟨a, x⟩ := r
      cases x <;> rfl
    rw [he, he]
    refine cut_after (cut_stmt cfg s st hr hl) ?_ (fun _ _ => rfl) ?_ ?_
    · intro st x h1 h2
      cases x <;> first | exact cut_stmts cfg ss st h1 h2 | exact .refl h1 h2 _
    · rintro ⟨st, x⟩ h
      cases x <;> first | exact stmts_none cfg ss st h | exact h
    · rintro ⟨st, x⟩
      cases x <;> first | exact C38_output_grows cfg ss st | exact List.prefix_refl _
end

end Btrd
